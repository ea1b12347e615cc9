import Verif.BoxShadow.Spec
import Mathlib.Data.List.Permutation
/-! # Reading and printing one shadow -/
namespace Verif.BoxShadow
variable {L C : Type}

/-- The orders of three things. -/
theorem perm3 {α : Type} (o : List α) (a b c : α) (h : o.Perm [a, b, c]) :
    o = [a, b, c] ∨ o = [b, a, c] ∨ o = [c, b, a] ∨ o = [b, c, a] ∨ o = [c, a, b] ∨ o = [a, c, b] := by
  have := List.mem_permutations.2 h
  simpa [List.permutations, List.permutationsAux, List.permutationsAux.rec, List.permutationsAux2] using this

/-- The ways to write the lengths. -/
def LenPart (zero : L) (v : L × L × L × L) (p : List (Tok L C)) : Prop :=
  p = [.len v.1, .len v.2.1, .len v.2.2.1, .len v.2.2.2] ∨ p = [.len v.1, .len v.2.1, .len v.2.2.1] ∧ v.2.2.2 = zero ∨
    p = [.len v.1, .len v.2.1] ∧ v.2.2.1 = zero ∧ v.2.2.2 = zero

/-- `lengths` takes one of the ways. -/
theorem lengths_some {zero : L} {ts r : List (Tok L C)} {v} (h : lengths zero ts = some (v, r)) : ∃ p, LenPart zero v p ∧ ts = p ++ r := by
  unfold lengths at h
  split at h <;> simp only [Option.some.injEq, Prod.mk.injEq, reduceCtorEq] at h <;> obtain ⟨rfl, rfl⟩ := h
  · exact ⟨_, .inl rfl, rfl⟩
  · exact ⟨_, .inr (.inl ⟨rfl, rfl⟩), rfl⟩
  · exact ⟨_, .inr (.inr ⟨rfl, rfl, rfl⟩), rfl⟩

/-- One turn takes one part that has not been found. -/
theorem turn_some {zero : L} {f f' : Found L C} {ts r : List (Tok L C)} (h : turn zero f ts = some (f', r)) :
    (f.inset = false ∧ ts = .inset :: r ∧ f' = { f with inset := true }) ∨
    (f.lens = none ∧ ∃ v p, LenPart zero v p ∧ ts = p ++ r ∧ f' = { f with lens := some v }) ∨
    (f.color = none ∧ ∃ c, ts = .col c :: r ∧ f' = { f with color := some c }) := by
  unfold turn at h
  split at h
  · next hi =>
    simp only [Option.some.injEq, Prod.mk.injEq] at h
    obtain ⟨rfl, rfl⟩ := h
    exact .inl ⟨hi, rfl, rfl⟩
  · split at h
    · next hl hv =>
      simp only [Option.some.injEq, Prod.mk.injEq] at h
      obtain ⟨rfl, rfl⟩ := h
      obtain ⟨p, hp, rfl⟩ := lengths_some hv
      exact .inr (.inl ⟨hl, _, p, hp, rfl, rfl⟩)
    · split at h
      · simp only [Option.some.injEq, Prod.mk.injEq] at h
        obtain ⟨rfl, rfl⟩ := h
        exact .inr (.inr ⟨by assumption, _, rfl, rfl⟩)
      · simp at h

/-- A turn that finds nothing at the end of the input. -/
theorem turn_nil (zero : L) (f : Found L C) : turn zero f [] = none := by
  obtain ⟨c, l, i⟩ := f
  cases c <;> cases l <;> cases i <;> rfl

/-- What the loop has taken. -/
inductive Took (zero : L) : Found L C → List (List (Tok L C)) → Prop
  | nil : Took zero {} []
  | inset {f ps} (h : Took zero f ps) (hf : f.inset = false) : Took zero { f with inset := true } (ps ++ [[.inset]])
  | lens {f ps v p} (h : Took zero f ps) (hf : f.lens = none) (hp : LenPart zero v p) : Took zero { f with lens := some v } (ps ++ [p])
  | color {f ps c} (h : Took zero f ps) (hf : f.color = none) : Took zero { f with color := some c } (ps ++ [[.col c]])

/-- The loop takes parts. -/
theorem loop_took {zero : L} : ∀ (n : Nat) (f : Found L C) (ps : List (List (Tok L C))) (ts : List (Tok L C)), Took zero f ps →
    ∃ ps', Took zero (loop zero n f ts).1 ps' ∧ ps.flatten ++ ts = ps'.flatten ++ (loop zero n f ts).2
  | 0, f, ps, ts, h => ⟨ps, h, rfl⟩
  | n + 1, f, ps, ts, h => by
    simp only [loop]
    split
    · next f' r ht =>
      rcases turn_some ht with ⟨h1, rfl, rfl⟩ | ⟨h1, v, p, h2, rfl, rfl⟩ | ⟨h1, c, rfl, rfl⟩
      · obtain ⟨ps', h3, h4⟩ := loop_took n _ _ r (h.inset h1)
        exact ⟨ps', h3, by rw [← h4]; simp⟩
      · obtain ⟨ps', h3, h4⟩ := loop_took n _ _ r (h.lens h1 h2)
        exact ⟨ps', h3, by rw [← h4]; simp⟩
      · obtain ⟨ps', h3, h4⟩ := loop_took n _ _ r (h.color (c := c) h1)
        exact ⟨ps', h3, by rw [← h4]; simp⟩
    · exact ⟨ps, h, rfl⟩

/-- The parts, in a fixed order. -/
theorem Took.parts {zero : L} {f : Found L C} {ps : List (List (Tok L C))} (h : Took zero f ps) :
    ∃ i l c, (i = if f.inset then [[Tok.inset]] else []) ∧
      (match f.lens with
        | none => l = []
        | some v => ∃ p, LenPart zero v p ∧ l = [p]) ∧
      (match f.color with
        | none => c = []
        | some x => c = [[Tok.col x]]) ∧ ps.Perm (i ++ l ++ c) := by
  induction h with
  | nil => exact ⟨[], [], [], rfl, rfl, rfl, .refl _⟩
  | @inset f ps h hf ih =>
    obtain ⟨i, l, c, h1, h2, h3, h4⟩ := ih
    rw [hf] at h1
    subst h1
    exact ⟨_, l, c, rfl, h2, h3, ((h4.append_right _).trans (List.perm_append_comm)).trans (by simp)⟩
  | @lens f ps v p h hf hp ih =>
    obtain ⟨i, l, c, h1, h2, h3, h4⟩ := ih
    rw [hf] at h2
    simp only at h2
    subst h2
    refine ⟨i, _, c, h1, ⟨p, hp, rfl⟩, h3, (h4.append_right _).trans ?_⟩
    simp only [List.append_nil, List.append_assoc]
    exact (List.perm_append_comm).append_left i
  | @color f ps c h hf ih =>
    obtain ⟨i, l, c', h1, h2, h3, h4⟩ := ih
    rw [hf] at h3
    simp only at h3
    subst h3
    exact ⟨i, l, _, h1, h2, rfl, (h4.append_right _).trans (by simp)⟩

/-- C197: a value that is read as a shadow, to its end, is a way to write it. -/
theorem parse_sound (zero : L) (current : C) (ts : List (Tok L C)) (s : Shadow L C) (h : parse zero current ts = some (s, [])) :
    Writes zero current s ts := by
  obtain ⟨ps, h1, h2⟩ := loop_took (zero := zero) 4 {} [] ts .nil
  obtain ⟨i, l, c, h3, h4, h5, h6⟩ := h1.parts
  simp only [parse] at h
  split at h
  · next a b c' d hl =>
    simp only [Option.some.injEq, Prod.mk.injEq] at h
    obtain ⟨rfl, hr⟩ := h
    rw [hl] at h4
    obtain ⟨p, hp, rfl⟩ := h4
    rw [hr] at h2
    simp only [List.flatten_nil, List.nil_append, List.append_nil] at h2
    -- add the empty parts
    cases hi : (loop zero 4 {} ts).1.inset <;> rw [hi] at h3 <;> cases hc : (loop zero 4 {} ts).1.color <;> rw [hc] at h5 <;>
      simp only at h5 <;> subst h3 h5
    · exact ⟨_, ps ++ [[], []], .mk _ [] p [] rfl hp (.inr ⟨rfl, rfl⟩),
        (h6.append_right _).trans (List.Perm.swap [] p [[]]), by simp [h2]⟩
    · exact ⟨_, [[]] ++ ps, .mk _ [] p _ rfl hp (.inl rfl), h6.append_left _, by simp [h2]⟩
    · exact ⟨_, ps ++ [[]], .mk _ _ p [] rfl hp (.inr ⟨rfl, rfl⟩), h6.append_right _, by simp [h2]⟩
    · exact ⟨_, ps, .mk _ _ p _ rfl hp (.inl rfl), h6, by simp [h2]⟩
  · simp at h

/-- C197: every way to write a shadow is read as this shadow. -/
theorem parse_complete (zero : L) (current : C) (ts : List (Tok L C)) (s : Shadow L C) (h : Writes zero current s ts) :
    parse zero current ts = some (s, []) := by
  obtain ⟨_, order, ⟨i, l, c, rfl, hl, hc⟩, ho, rfl⟩ := h
  obtain ⟨color, x, y, blur, spread, inset⟩ := s
  simp only at hl hc ho
  rcases hl with rfl | ⟨rfl, rfl⟩ | ⟨rfl, rfl, rfl⟩ <;> rcases hc with rfl | ⟨rfl, rfl⟩ <;>
    rcases perm3 _ _ _ _ ho with rfl | rfl | rfl | rfl | rfl | rfl <;> cases inset <;> rfl

/-- C197: a value is read as a shadow exactly if it is one of the ways to write it. -/
theorem parse_iff (zero : L) (current : C) (ts : List (Tok L C)) (s : Shadow L C) :
    parse zero current ts = some (s, []) ↔ Writes zero current s ts :=
  ⟨parse_sound zero current ts s, parse_complete zero current ts s⟩

/-- C197: what is printed is a way to write the shadow. -/
theorem print_writes [DecidableEq L] [DecidableEq C] (zero : L) (current : C) (s : Shadow L C) :
    Writes zero current s (print zero current s) := by
  refine ⟨_, _, .mk s (if s.inset then [.inset] else [])
    ([.len s.x, .len s.y] ++ (if s.blur ≠ zero ∨ s.spread ≠ zero then .len s.blur :: (if s.spread ≠ zero then [.len s.spread] else []) else []))
    (if s.color ≠ current then [.col s.color] else []) rfl ?_ ?_, .refl _, ?_⟩
  · by_cases h1 : s.blur = zero <;> by_cases h2 : s.spread = zero <;> simp [h1, h2]
  · by_cases h : s.color = current <;> simp [h]
  · simp [print]

/-- C197: what is printed reads back. -/
theorem parse_print [DecidableEq L] [DecidableEq C] (zero : L) (current : C) (s : Shadow L C) :
    parse zero current (print zero current s) = some (s, []) :=
  parse_complete zero current _ s (print_writes zero current s)

/-- C197: nothing shorter can be printed in the same order: each part that is left out is one that has its default value. -/
theorem print_shortest [DecidableEq L] [DecidableEq C] (zero : L) (current : C) (s : Shadow L C) (ts : List (Tok L C))
    (h : parse zero current ts = some (s, [])) : (print zero current s).length ≤ ts.length := by
  obtain ⟨_, order, ⟨i, l, c, rfl, hl, hc⟩, ho, rfl⟩ := parse_sound zero current ts s h
  have : order.flatten.length = ((if s.inset then [Tok.inset] else []) ++ l ++ c).length := by
    rw [ho.flatten.length_eq]; simp
  rw [this]
  simp only [print, List.length_append]
  have h1 : ([.len s.x, .len s.y] : List (Tok L C)).length +
      (if s.blur ≠ zero ∨ s.spread ≠ zero then Tok.len s.blur :: (if s.spread ≠ zero then [.len s.spread] else []) else ([] : List (Tok L C))).length ≤
      l.length := by
    rcases hl with rfl | ⟨rfl, e⟩ | ⟨rfl, e1, e2⟩
    · split
      · split <;> simp
      · simp
    · simp only [e]; split <;> simp
    · simp [e1, e2]
  have h2 : (if s.color ≠ current then [Tok.col s.color] else ([] : List (Tok L C))).length ≤ c.length := by
    rcases hc with rfl | ⟨rfl, e⟩
    · split <;> simp
    · simp [e]
  omega

/-- `red 1 2 inset` and what is printed for it. -/
example : parse (0 : Nat) (0 : Nat) [.col 7, .len 1, .len 2, .inset] = some (⟨7, 1, 2, 0, 0, true⟩, []) ∧
    print (0 : Nat) (0 : Nat) ⟨7, 1, 2, 0, 0, true⟩ = [.inset, .len 1, .len 2, .col 7] := by decide
/-- A length too many is left over, and so the value is not read to its end. -/
example : parse (0 : Nat) (0 : Nat) [.len 1, .len 2, .col 7, .len 3] = some (⟨7, 1, 2, 0, 0, false⟩, [.len 3]) := by decide

end Verif.BoxShadow
