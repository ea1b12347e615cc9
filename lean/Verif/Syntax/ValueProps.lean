import Verif.Syntax.Spec
/-!
C62: an initial value is read by the first component of the syntax string that it matches.
-/
namespace Verif.Syntax

theorem spaced_sound {V} (p : List Tok → Option (V × List Tok)) (f : Nat) :
    ∀ (ts : List Tok) (acc : List V) (r : Parsed V) (rest : List Tok),
      parseRepeat p .space f ts acc = some (r, rest) →
      rest = [] ∧ ∃ vs, r = .repeated (acc ++ vs) .space ∧ Spaced p vs ts := by
  induction f with
  | zero => intro ts acc r rest h; simp [parseRepeat] at h
  | succ f ih =>
    intro ts acc r rest h
    simp only [parseRepeat] at h
    split at h
    · simp at h
    · rename_i v ts' hp
      split at h
      · rename_i hnil
        simp only [Option.some.injEq, Prod.mk.injEq] at h
        obtain ⟨rfl, rfl⟩ := h
        subst hnil
        exact ⟨rfl, [v], rfl, .one hp⟩
      · rename_i hne
        obtain ⟨h1, vs, h2, h3⟩ := ih _ _ _ _ h
        exact ⟨h1, v :: vs, by simpa using h2, .more hp hne h3⟩

theorem commaed_sound {V} (p : List Tok → Option (V × List Tok)) (f : Nat) :
    ∀ (ts : List Tok) (acc : List V) (r : Parsed V) (rest : List Tok),
      parseRepeat p .comma f ts acc = some (r, rest) →
      rest = [] ∧ ∃ vs, r = .repeated (acc ++ vs) .comma ∧ Commaed p vs ts := by
  induction f with
  | zero => intro ts acc r rest h; simp [parseRepeat] at h
  | succ f ih =>
    intro ts acc r rest h
    simp only [parseRepeat] at h
    split at h
    · simp at h
    · rename_i v ts' hp
      split at h
      · simp only [Option.some.injEq, Prod.mk.injEq] at h
        obtain ⟨rfl, rfl⟩ := h
        exact ⟨rfl, [v], rfl, .one hp⟩
      · obtain ⟨h1, vs, h2, h3⟩ := ih _ _ _ _ h
        exact ⟨h1, v :: vs, by simpa using h2, .more hp h3⟩
      · simp at h

theorem spaced_complete {V} {p : List Tok → Option (V × List Tok)} (hp : Consumes p) {vs : List V}
    {ts : List Tok} (h : Spaced p vs ts) : ∀ f acc, ts.length < f →
      parseRepeat p .space f ts acc = some (.repeated (acc ++ vs) .space, []) := by
  induction h with
  | one h =>
    intro f acc hf
    obtain ⟨f, rfl⟩ : ∃ k, f = k + 1 := ⟨f - 1, by omega⟩
    simp [parseRepeat, h]
  | more h hne _ ih =>
    intro f acc hf
    obtain ⟨f, rfl⟩ : ∃ k, f = k + 1 := ⟨f - 1, by omega⟩
    have := hp _ _ _ h
    simp only [parseRepeat, h, if_neg hne]
    rw [ih f _ (by omega)]
    simp

theorem commaed_complete {V} {p : List Tok → Option (V × List Tok)} (hp : Consumes p) {vs : List V}
    {ts : List Tok} (h : Commaed p vs ts) : ∀ f acc, ts.length < f →
      parseRepeat p .comma f ts acc = some (.repeated (acc ++ vs) .comma, []) := by
  induction h with
  | one h =>
    intro f acc hf
    obtain ⟨f, rfl⟩ : ∃ k, f = k + 1 := ⟨f - 1, by omega⟩
    simp [parseRepeat, h]
  | more h _ ih =>
    intro f acc hf
    obtain ⟨f, rfl⟩ : ∃ k, f = k + 1 := ⟨f - 1, by omega⟩
    have := hp _ _ _ h
    simp only [parseRepeat, h]
    rw [ih f _ (by simp at this; omega)]
    simp

/-- A component reads a whole value exactly when the value matches it. -/
theorem component_iff {V} (p : Kind → List Tok → Option (V × List Tok)) (hp : ∀ k, Consumes (p k))
    (c : Component) (ts : List Tok) (r : Parsed V) :
    parseRepeat (p c.kind) c.multiplier (ts.length + 1) ts [] = some (r, []) ↔ Matches p c ts r := by
  obtain ⟨k, m⟩ := c
  constructor
  · intro h
    cases m with
    | none =>
      simp only [parseRepeat] at h
      split at h
      · simp at h
      · rename_i v ts' hv
        simp only [Option.some.injEq, Prod.mk.injEq] at h
        obtain ⟨rfl, rfl⟩ := h
        exact .one hv
    | space =>
      obtain ⟨_, vs, rfl, h'⟩ := spaced_sound _ _ _ _ _ _ h
      exact .space h'
    | comma =>
      obtain ⟨_, vs, rfl, h'⟩ := commaed_sound _ _ _ _ _ _ h
      exact .comma h'
  · intro h
    cases h with
    | one h => simp [parseRepeat, h]
    | space h => simpa using spaced_complete (hp k) h (ts.length + 1) [] (by omega)
    | comma h => simpa using commaed_complete (hp k) h (ts.length + 1) [] (by omega)

/-- C62: if the reading of a value consumes the whole of it, it is the value of the first component it
matches.

Missing for the full property: the reading may stop before the end of the value (`value_truncated`). -/
theorem value_first_match_partial {V} (p : Kind → List Tok → Option (V × List Tok))
    (hp : ∀ k, Consumes (p k)) (cs : List Component) (ts : List Tok) (r : Parsed V)
    (h : parseValue p (.components cs) ts = some (r, [])) :
    ∃ pre c post, cs = pre ++ c :: post ∧ Matches p c ts r ∧ ∀ d ∈ pre, ∀ r', ¬ Matches p d ts r' := by
  simp only [parseValue] at h
  obtain ⟨pre, c, post, rfl, hc, hpre⟩ := List.findSome?_eq_some_iff.1 h
  refine ⟨pre, c, post, rfl, (component_iff p hp c ts r).1 hc, ?_⟩
  intro d hd r' hm
  rw [← component_iff p hp] at hm
  rw [hpre d hd] at hm
  simp at hm

/-- C62: a value is rejected only if it matches no component. -/
theorem value_rejected {V} (p : Kind → List Tok → Option (V × List Tok))
    (hp : ∀ k, Consumes (p k)) (cs : List Component) (ts : List Tok)
    (h : initialValue p (.components cs) ts = none) : ∀ c ∈ cs, ∀ r, ¬ Matches p c ts r := by
  intro c hc r hm
  simp only [initialValue, Option.map_eq_none_iff, parseValue, List.findSome?_eq_none_iff] at h
  rw [← component_iff p hp, h c hc] at hm
  simp at hm

/-- C62: if no unmultiplied component reads a proper part of the value, the initial value is the value of
the first component it matches, and it exists exactly when some component matches.

Missing for the full property: `Whole`, that is, the syntax strings and values for which an
unmultiplied component reads only the beginning of the value (`value_truncated`). -/
theorem initial_value_partial {V} (p : Kind → List Tok → Option (V × List Tok))
    (hp : ∀ k, Consumes (p k)) (cs : List Component) (ts : List Tok)
    (whole : ∀ c ∈ cs, c.multiplier = .none → ∀ v rest, p c.kind ts = some (v, rest) → rest = [])
    (r : Parsed V) :
    initialValue p (.components cs) ts = some r ↔
      ∃ pre c post, cs = pre ++ c :: post ∧ Matches p c ts r ∧ ∀ d ∈ pre, ∀ r', ¬ Matches p d ts r' := by
  have hrest : ∀ c ∈ cs, ∀ x rest,
      parseRepeat (p c.kind) c.multiplier (ts.length + 1) ts [] = some (x, rest) → rest = [] := by
    intro c hc x rest h
    obtain ⟨k, m⟩ := c
    cases m with
    | none =>
      simp only [parseRepeat] at h
      split at h
      · simp at h
      · rename_i v ts' hv
        simp only [Option.some.injEq, Prod.mk.injEq] at h
        obtain ⟨rfl, rfl⟩ := h
        exact whole _ hc rfl v _ hv
    | space => exact (spaced_sound _ _ _ _ _ _ h).1
    | comma => exact (commaed_sound _ _ _ _ _ _ h).1
  have hmap : initialValue p (.components cs) ts = some r ↔
      ∃ rest, parseValue p (.components cs) ts = some (r, rest) := by
    simp [initialValue, Option.map_eq_some_iff]
  rw [hmap]
  constructor
  · rintro ⟨rest, h⟩
    have hr : rest = [] := by
      obtain ⟨pre, c, post, e, hc, _⟩ := List.findSome?_eq_some_iff.1 (by simpa only [parseValue] using h)
      exact hrest c (by rw [e]; simp) _ _ hc
    subst hr
    exact value_first_match_partial p hp cs ts r h
  · rintro ⟨pre, c, post, e, hm, hpre⟩
    refine ⟨[], ?_⟩
    simp only [parseValue]
    rw [List.findSome?_eq_some_iff]
    refine ⟨pre, c, post, e, (component_iff p hp c ts r).2 hm, ?_⟩
    intro d hd
    cases h : parseRepeat (p d.kind) d.multiplier (ts.length + 1) ts [] with
    | none => rfl
    | some x =>
      obtain ⟨x, rest⟩ := x
      have := hrest d (by rw [e]; simp [hd]) _ _ h
      subst this
      exact absurd ((component_iff p hp d ts x).1 h) (hpre d hd x)

/-! ### A concrete parser of values -/

/-- Tokens below ten are lengths, the others are not. -/
def lengths : Kind → List Tok → Option (Nat × List Tok)
  | .length, .other n :: ts => if n < 10 then some (n, ts) else none
  | _, _ => none

theorem lengths_consumes (k : Kind) : Consumes (lengths k) := by
  intro ts v ts' h
  unfold lengths at h
  split at h
  · split at h
    · simp only [Option.some.injEq, Prod.mk.injEq] at h
      obtain ⟨_, rfl⟩ := h
      simp
    · simp at h
  · simp at h

example : initialValue lengths (.components [⟨.number, .none⟩, ⟨.length, .comma⟩]) [.other 1, .comma, .other 2]
    = some (.repeated [1, 2] .comma) := by decide
example : initialValue lengths (.components [⟨.length, .comma⟩]) [.other 1, .comma] = none := by decide

/-- The reading of an initial value stops at the end of the first unmultiplied component that matches its
beginning: with the syntax `"<length> | <length>+"`, the initial value `10px 20px` matches the second
component and not the first, but it is read, and printed, as `10px`. -/
theorem value_truncated :
    initialValue lengths (.components [⟨.length, .none⟩, ⟨.length, .space⟩]) [.other 1, .other 2]
      = some (.one 1) ∧
    Matches lengths ⟨.length, .space⟩ [.other 1, .other 2] (.repeated [1, 2] .space) ∧
    ∀ r, ¬ Matches lengths ⟨.length, .none⟩ [.other 1, .other 2] r := by
  refine ⟨by decide, (component_iff lengths lengths_consumes _ _ _).1 (by decide), ?_⟩
  intro r h
  cases h with
  | one h => simp [lengths] at h

/-- With the syntax `"<length>"`, the initial value `10px 20px`, for which browsers reject the whole
rule, is accepted and becomes `10px`. -/
theorem invalid_value_accepted :
    initialValue lengths (.components [⟨.length, .none⟩]) [.other 1, .other 2] = some (.one 1) := by decide

end Verif.Syntax
