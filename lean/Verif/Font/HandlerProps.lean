import Verif.Font.Handler
/-! # C144–C147: the font handler -/
namespace Verif.Font
open Verif.Font.HSpec

/-! ### Families -/

theorem find_dedupe (avail : Family → Bool) : ∀ (l seen : List Family), (∀ f ∈ seen, avail f = false) → (dedupe seen l).find? avail = l.find? avail
  | [], _, _ => rfl
  | f :: r, seen, h => by
    simp only [dedupe]
    split
    · rename_i hf
      rw [List.find?_cons, h f hf]
      exact find_dedupe avail r seen h
    · rw [List.find?_cons, List.find?_cons]
      cases ha : avail f with
      | true => rfl
      | false =>
        simp only
        refine find_dedupe avail r (f :: seen) ?_
        intro g hg
        rcases List.mem_cons.1 hg with rfl | hg
        · exact ha
        · exact h g hg

/-- C146: for each text, the list without repetitions gives the same font. -/
theorem C146_dedupe (avail : Family → Bool) (l : List Family) : (dedupe [] l).find? avail = l.find? avail :=
  find_dedupe avail l [] (by simp)

theorem dedupe_mem : ∀ (l seen : List Family) (f : Family), f ∈ dedupe seen l ↔ f ∈ l ∧ f ∉ seen
  | [], _, _ => by simp [dedupe]
  | g :: r, seen, f => by
    simp only [dedupe]
    split
    · rename_i hg
      rw [dedupe_mem r seen f]
      constructor
      · rintro ⟨h1, h2⟩; exact ⟨List.mem_cons_of_mem _ h1, h2⟩
      · rintro ⟨h1, h2⟩
        rcases List.mem_cons.1 h1 with rfl | h1
        · exact absurd hg h2
        · exact ⟨h1, h2⟩
    · rename_i hg
      rw [List.mem_cons, dedupe_mem r (g :: seen) f]
      simp only [List.mem_cons, not_or]
      constructor
      · rintro (rfl | ⟨h1, h2, h3⟩)
        · exact ⟨.inl rfl, hg⟩
        · exact ⟨.inr h1, h3⟩
      · rintro ⟨h1 | h1, h2⟩
        · exact .inl h1
        · by_cases hfg : f = g
          · exact .inl hfg
          · exact .inr ⟨h1, hfg, h2⟩

/-- C146: nothing is left twice. -/
theorem C146_nodup : ∀ (l seen : List Family), (dedupe seen l).Nodup
  | [], _ => .nil
  | f :: r, seen => by
    simp only [dedupe]
    split
    · exact C146_nodup r seen
    · rw [List.nodup_cons]
      exact ⟨fun h => by rw [dedupe_mem] at h; exact h.2 (by simp), C146_nodup r (f :: seen)⟩

/-- The list in which each `system-ui` is followed by the names under which older systems know it. -/
def HSpec.withSystem (l : List Family) : List Family := l.flatMap fun f =>
  if f = .generic .systemUi then
    [f, .name cs!"-apple-system", .name cs!"BlinkMacSystemFont", .name cs!"Segoe UI", .name cs!"Roboto", .name cs!"Noto Sans", .name cs!"Ubuntu", .name cs!"Cantarell",
      .name cs!"Helvetica Neue"]
  else [f]

theorem find_append_none (avail : Family → Bool) (l m : List Family) (h : ∀ f ∈ l, avail f = false) : (l ++ m).find? avail = m.find? avail := by
  rw [List.find?_append, List.find?_eq_none.2 (by intro f hf; simp [h f hf])]
  rfl

theorem find_flat_skip (avail : Family → Bool) (hu : avail (.generic .systemUi) = false) (hs : ∀ f ∈ systemFonts, avail f = false) :
    ∀ l : List Family, (withSystem l).find? avail = l.find? avail
  | [] => rfl
  | f :: r => by
    simp only [withSystem, List.flatMap_cons]
    split
    · rename_i hf
      have : ([f, .name cs!"-apple-system", .name cs!"BlinkMacSystemFont", .name cs!"Segoe UI", .name cs!"Roboto", .name cs!"Noto Sans", .name cs!"Ubuntu", .name cs!"Cantarell",
      .name cs!"Helvetica Neue"] : List Family) = [f] ++ systemFonts := rfl
      rw [this, List.append_assoc, find_append_none avail [f] _ (by simp [hf, hu]), find_append_none avail systemFonts _ hs]
      rw [List.find?_cons, hf, hu]
      exact find_flat_skip avail hu hs r
    · rw [List.singleton_append, List.find?_cons, List.find?_cons]
      cases avail f with
      | true => rfl
      | false => exact find_flat_skip avail hu hs r

theorem find_splice (avail : Family → Bool) : ∀ l : List Family, (spliceUi l).find? avail = (withSystem l).find? avail
  | [] => rfl
  | f :: r => by
    simp only [spliceUi, withSystem, List.flatMap_cons]
    split
    · rename_i hf
      have e : ([f, .name cs!"-apple-system", .name cs!"BlinkMacSystemFont", .name cs!"Segoe UI", .name cs!"Roboto", .name cs!"Noto Sans", .name cs!"Ubuntu", .name cs!"Cantarell",
      .name cs!"Helvetica Neue"] : List Family) = f :: systemFonts := rfl
      rw [e, List.cons_append, List.find?_cons, List.find?_cons]
      cases ha : avail f with
      | true => rfl
      | false =>
        simp only
        rw [List.find?_append, List.find?_append]
        cases hs : systemFonts.find? avail with
        | some g => rfl
        | none =>
          have hs' : ∀ g ∈ systemFonts, avail g = false := by
            intro g hg; have := List.find?_eq_none.1 hs g hg; simpa using this
          simp only [Option.none_or]
          exact (find_flat_skip avail (by rw [← hf]; exact ha) hs' r).symm
    · rw [List.singleton_append, List.find?_cons, List.find?_cons]
      cases avail f with
      | true => rfl
      | false => exact find_splice avail r

theorem find_withSystem (avail : Family → Bool) (h : avail (.generic .systemUi) = true) : ∀ l : List Family, (withSystem l).find? avail = l.find? avail
  | [] => rfl
  | f :: r => by
    simp only [withSystem, List.flatMap_cons]
    split
    · rename_i hf
      rw [List.cons_append, List.find?_cons, List.find?_cons, hf, h]
    · rw [List.singleton_append, List.find?_cons, List.find?_cons]
      cases avail f with
      | true => rfl
      | false => exact find_withSystem avail h r

section
variable {V : Type}

/-- The font of the written list is the one of the source, or the one with the system fonts. -/
theorem outFamily_choice (env : Env V) (h : Handler V) (avail : Family → Bool) (l : List Family) :
    (outFamily env h l).find? avail = l.find? avail ∨ (env.compileUi = true ∧ (outFamily env h l).find? avail = (withSystem l).find? avail) := by
  unfold outFamily
  rw [C146_dedupe]
  split
  · exact .inl rfl
  · unfold compatible
    cases env.compileUi with
    | false => exact .inl rfl
    | true => exact .inr ⟨rfl, find_splice avail l⟩

/-! ### Flushing -/

/-- The value of a field with what the handler holds. -/
def overF (b : Agent V) (h : Handler V) (k : Field) (x : Value V) : Value V := match h.f k with
  | some v => if b.ok k v then .val v else x
  | none => x

/-- What the browser must know about `font-variant-caps`: the initial value is accepted everywhere, and those of CSS 2 inside `font`. -/
def CapsOk (b : Agent V) (env : Env V) : Prop :=
  (b.ok .caps env.normalCaps = true ∧ b.short .caps env.normalCaps = true) ∧ ∀ v, env.css2 v = true → b.short .caps v = true

/-- The shorthand is accepted if it is written. -/
def Safe (b : Agent V) (h : Handler V) : Prop :=
  h.family = none ∨ h.full = none ∨ ∀ k v, h.f k = some v → b.ok k v = true ∧ (k ≠ .caps → b.short k v = true)

/-- Nothing is held without `any`. -/
def Clean (h : Handler V) : Prop := h.any = false → h.family = none ∧ ∀ k, h.f k = none

theorem full_some {h : Handler V} {v : Field → V} (hf : h.full = some v) (k : Field) : h.f k = some (v k) := by
  simp only [Handler.full] at hf
  split at hf
  · rename_i a b c d e g h1 h2 h3 h4 h5 h6
    cases hf
    cases k <;> assumption
  · cases hf

theorem computed_append (b : Agent V) (c : Computed V) (x y : List (Decl V)) : computed b c (x ++ y) = computed b (computed b c x) y := by
  simp [computed]

theorem computed_long (b : Agent V) (h : Handler V) : ∀ (ks : List Field) (c : Computed V), ks.Nodup →
    (computed b c (ks.flatMap (pushLong h))).family = c.family ∧ ∀ k, (computed b c (ks.flatMap (pushLong h))).f k = if k ∈ ks then overF b h k (c.f k) else c.f k
  | [], c, _ => ⟨rfl, fun k => by simp [computed]⟩
  | j :: ks, c, hn => by
    rw [List.nodup_cons] at hn
    rw [List.flatMap_cons, computed_append]
    obtain ⟨i1, i2⟩ := computed_long b h ks (computed b c (pushLong h j)) hn.2
    have e1 : (computed b c (pushLong h j)).family = c.family := by
      unfold pushLong
      cases h.f j with
      | none => rfl
      | some v => simp only [computed, List.foldl_cons, List.foldl_nil, apply]; split <;> rfl
    have e2 : ∀ k, (computed b c (pushLong h j)).f k = if k = j then overF b h k (c.f k) else c.f k := by
      intro k
      unfold pushLong overF
      cases hj : h.f j with
      | none =>
        by_cases hk : k = j
        · rw [if_pos hk, hk, hj]; rfl
        · rw [if_neg hk]; rfl
      | some v =>
        simp only [computed, List.foldl_cons, List.foldl_nil, apply]
        by_cases hk : k = j
        · subst hk
          rw [if_pos rfl, hj]
          simp only
          split
          · simp
          · rfl
        · rw [if_neg hk]
          split
          · simp [hk]
          · rfl
    refine ⟨i1.trans e1, fun k => ?_⟩
    rw [i2 k, e2 k]
    by_cases hk : k = j
    · subst hk
      rw [if_neg hn.1, if_pos rfl, if_pos (by simp)]
    · rw [if_neg hk]
      simp [hk]

theorem mem_fields (k : Field) : k ∈ fields := by cases k <;> decide

/-- What is flushed has the effect of what was held. -/
theorem flushOut_f (b : Agent V) (env : Env V) (hc : CapsOk b env) (h : Handler V) (hs : Safe b h) (hcl : Clean h) (c : Computed V) (k : Field) :
    (computed b c (flushOut env h)).f k = overF b h k (c.f k) := by
  have hnone : h.family = none ∨ h.full = none → (computed b c (pushFamily env h ++ fields.flatMap (pushLong h))).f k = overF b h k (c.f k) := by
    intro _
    rw [computed_append, (computed_long b h fields _ (by decide)).2 k, if_pos (mem_fields k)]
    have : (computed b c (pushFamily env h)).f = c.f := by
      unfold pushFamily
      split <;> rfl
    rw [this]
  unfold flushOut
  by_cases ha : h.any = true
  · rw [if_pos ha]
    cases hf : h.family with
    | none => exact hnone (.inl hf)
    | some l =>
      cases hv : h.full with
      | none => exact hnone (.inr hv)
      | some v =>
        simp only
        have hok : ∀ k v, h.f k = some v → b.ok k v = true ∧ (k ≠ .caps → b.short k v = true) := by
          rcases hs with hs | hs | hs
          · rw [hf] at hs; cases hs
          · rw [hv] at hs; cases hs
          · exact hs
        have hko : ∀ j, b.ok j (v j) = true := fun j => (hok j _ (full_some hv j)).1
        have hacc : ∀ j ∈ fields, b.ok j (shortVals env v j) ∧ b.short j (shortVals env v j) := by
          intro j _
          unfold shortVals
          by_cases hj : j = .caps
          · subst hj
            rw [if_pos rfl]
            by_cases h2 : env.css2 (v .caps) = true
            · rw [if_pos h2]; exact ⟨hko _, hc.2 _ h2⟩
            · rw [if_neg h2]; exact hc.1
          · rw [if_neg hj]
            exact ⟨hko j, (hok j _ (full_some hv j)).2 hj⟩
        simp only [overF, full_some hv k, hko k, if_true]
        simp only [computed, List.foldl_cons, apply]
        rw [if_pos hacc]
        by_cases h2 : env.css2 (v .caps) = true
        · rw [if_pos h2]
          simp only [List.foldl_nil, shortVals, h2, if_true]
          split
          · rename_i hk; rw [hk]
          · rfl
        · rw [if_neg h2]
          simp only [List.foldl_cons, List.foldl_nil, apply, hko, if_true]
          by_cases hk : k = .caps
          · rw [if_pos hk, hk]
          · rw [if_neg hk]; simp only [shortVals, if_neg hk]
  · rw [if_neg ha]
    have : h.any = false := by simpa using ha
    simp only [overF, (hcl this).2 k]
    rfl

/-- What is flushed sets the family, if it was held. -/
theorem flushOut_family (b : Agent V) (env : Env V) (hc : CapsOk b env) (h : Handler V) (hs : Safe b h) (hcl : Clean h) (c : Computed V) :
    (computed b c (flushOut env h)).family = match h.family with
      | some l => .val (outFamily env h l)
      | none => c.family := by
  have hlong : (computed b c (pushFamily env h ++ fields.flatMap (pushLong h))).family = match h.family with
      | some l => .val (outFamily env h l)
      | none => c.family := by
    rw [computed_append, (computed_long b h fields _ (by decide)).1]
    unfold pushFamily
    cases h.family <;> rfl
  unfold flushOut
  by_cases ha : h.any = true
  · rw [if_pos ha]
    cases hf : h.family with
    | none => rw [hf] at hlong; exact hlong
    | some l =>
      cases hv : h.full with
      | none => rw [hf] at hlong; exact hlong
      | some v =>
        simp only
        have hok : ∀ k v, h.f k = some v → b.ok k v = true ∧ (k ≠ .caps → b.short k v = true) := by
          rcases hs with hs | hs | hs
          · rw [hf] at hs; cases hs
          · rw [hv] at hs; cases hs
          · exact hs
        have hko : ∀ j, b.ok j (v j) = true := fun j => (hok j _ (full_some hv j)).1
        have hacc : ∀ j ∈ fields, b.ok j (shortVals env v j) ∧ b.short j (shortVals env v j) := by
          intro j _
          unfold shortVals
          by_cases hj : j = .caps
          · subst hj
            rw [if_pos rfl]
            by_cases h2 : env.css2 (v .caps) = true
            · rw [if_pos h2]; exact ⟨hko _, hc.2 _ h2⟩
            · rw [if_neg h2]; exact hc.1
          · rw [if_neg hj]
            exact ⟨hko j, (hok j _ (full_some hv j)).2 hj⟩
        simp only [computed, List.foldl_cons, apply]
        rw [if_pos hacc]
        split
        · rfl
        · simp only [List.foldl_cons, List.foldl_nil, apply]
          split <;> rfl
  · rw [if_neg ha]
    have : h.any = false := by simpa using ha
    rw [(hcl this).1]
    rfl

/-! ### The invariant -/

/-- A family as it is written, for one of the source. -/
def Written (env : Env V) (x y : Value (List Family)) : Prop := x = y ∨ ∃ h l, x = .val (outFamily env h l) ∧ y = .val l

/-- The state after some declarations with the effect `g`. -/
structure Inv (b : Agent V) (env : Env V) (s : Handler V × List (Decl V)) (g : Computed V → Computed V) : Prop where
  clean : Clean s.1
  fields : ∀ c k, overF b s.1 k ((computed b c s.2).f k) = (g c).f k
  held : ∀ l, s.1.family = some l → ∀ c, (g c).family = .val l
  free : s.1.family = none → ∀ c, Written env (computed b c s.2).family (g c).family

theorem Inv.flush {b : Agent V} {env : Env V} {s : Handler V × List (Decl V)} {g : Computed V → Computed V} (hc : CapsOk b env) (hs : Safe b s.1) (h : Inv b env s g) :
    Inv b env (Font.flush env s) g := by
  unfold Font.flush
  split
  · refine ⟨fun _ => ⟨rfl, fun _ => rfl⟩, ?_, (by intro l h; cases h), ?_⟩
    · intro c k
      simp only
      rw [computed_append, flushOut_f b env hc _ hs h.clean]
      exact h.fields c k
    · intro _ c
      simp only
      rw [computed_append, flushOut_family b env hc _ hs h.clean]
      cases hf : s.1.family with
      | none => exact h.free hf c
      | some l => exact .inr ⟨s.1, l, rfl, h.held l hf c⟩
  · exact h

theorem flush_eq (env : Env V) (s : Handler V × List (Decl V)) : flush env s = s ∨ ((flush env s).1.family = none ∧ ∀ k, (flush env s).1.f k = none) := by
  unfold flush
  split
  · exact .inr ⟨rfl, fun _ => rfl⟩
  · exact .inl rfl

/-- What holds of all fields also holds after a flush. -/
theorem Safe.flush {b : Agent V} {env : Env V} {s : Handler V × List (Decl V)} (h : Safe b s.1) : Safe b (Font.flush env s).1 := by
  rcases flush_eq env s with e | e
  · rw [e]; exact h
  · exact .inl e.1

section
variable [DecidableEq V]

theorem maybe_cases (env : Env V) (s : Handler V × List (Decl V)) (k : Field) (v : V) :
    (maybe env s k v = s ∧ (s.1.f k = none ∨ s.1.f k = some v ∨ env.compat k v = true)) ∨ maybe env s k v = flush env s := by
  unfold maybe
  cases hk : s.1.f k with
  | none => exact .inl ⟨rfl, .inl rfl⟩
  | some w =>
    simp only
    split
    · exact .inr rfl
    · rename_i hh
      refine .inl ⟨rfl, .inr ?_⟩
      by_cases hw : w = v
      · exact .inl (by rw [hw])
      · right
        cases hcm : env.compat k v with
        | true => rfl
        | false => exact absurd ⟨hw, hcm⟩ hh

/-- After `flush!`, what is held for the field is the new value, or the new value is compatible. -/
theorem maybe_post (env : Env V) (s : Handler V × List (Decl V)) (k : Field) (v : V) (hcl : Clean s.1) :
    (maybe env s k v).1.f k = none ∨ (maybe env s k v).1.f k = some v ∨ env.compat k v = true := by
  rcases maybe_cases env s k v with ⟨e, h⟩ | e
  · rw [e]; exact h
  · rw [e]
    unfold flush
    split
    · exact .inl rfl
    · rename_i ha; exact .inl ((hcl (by simpa using ha)).2 k)

omit [DecidableEq V] in
theorem maybeFam_cases (env : Env V) (s : Handler V × List (Decl V)) (l : List Family) : maybeFam env s l = s ∨ maybeFam env s l = flush env s := by
  unfold maybeFam
  split
  · split
    · exact .inr rfl
    · exact .inl rfl
  · exact .inl rfl

theorem Inv.maybe {b : Agent V} {env : Env V} {s : Handler V × List (Decl V)} {g : Computed V → Computed V} (hc : CapsOk b env) (hs : Safe b s.1) (h : Inv b env s g) (k : Field) (v : V) :
    Inv b env (Font.maybe env s k v) g ∧ Safe b (Font.maybe env s k v).1 := by
  rcases maybe_cases env s k v with ⟨e, _⟩ | e
  · rw [e]; exact ⟨h, hs⟩
  · rw [e]; exact ⟨h.flush hc hs, hs.flush⟩

omit [DecidableEq V] in
theorem Inv.maybeFam {b : Agent V} {env : Env V} {s : Handler V × List (Decl V)} {g : Computed V → Computed V} (hc : CapsOk b env) (hs : Safe b s.1) (h : Inv b env s g) (l : List Family) :
    Inv b env (Font.maybeFam env s l) g ∧ Safe b (Font.maybeFam env s l).1 := by
  rcases maybeFam_cases env s l with e | e
  · rw [e]; exact ⟨h, hs⟩
  · rw [e]; exact ⟨h.flush hc hs, hs.flush⟩

theorem Inv.maybes {b : Agent V} {env : Env V} {g : Computed V → Computed V} (hc : CapsOk b env) (v : Field → V) : ∀ (ks : List Field) (s : Handler V × List (Decl V)), Safe b s.1 → Inv b env s g →
    Inv b env (ks.foldl (fun s k => Font.maybe env s k (v k)) s) g ∧ Safe b (ks.foldl (fun s k => Font.maybe env s k (v k)) s).1
  | [], _, hs, h => ⟨h, hs⟩
  | k :: ks, _, hs, h => Inv.maybes hc v ks _ (h.maybe hc hs k (v k)).2 (h.maybe hc hs k (v k)).1

/-- The browser accepts all values of a declaration of the source. -/
def Modern (b : Agent V) : Decl V → Prop
  | .long k v => b.ok k v = true ∧ (k ≠ .caps → b.short k v = true)
  | .font _ v => ∀ k, b.ok k (v k) = true ∧ b.short k (v k) = true
  | _ => True

/-- The declaration is not the shorthand, and does not set one of the longhands. -/
def Lacks (p : Option Field) : Decl V → Prop
  | .long k _ => p ≠ some k
  | .family _ => p ≠ none
  | .font .. => False
  | _ => True

/-- What keeps the shorthand from being written with a value that the browser does not accept. -/
inductive Kind' (b : Agent V) (h : Handler V) : Option (Option Field) → Prop
  | modern (hh : ∀ k v, h.f k = some v → b.ok k v = true ∧ (k ≠ .caps → b.short k v = true)) : Kind' b h none
  | family (hh : h.family = none) : Kind' b h (some none)
  | field (k : Field) (hh : h.f k = none) : Kind' b h (some (some k))

/-- The condition on the declarations. -/
def Source (b : Agent V) (m : Option (Option Field)) (d : Decl V) : Prop := match m with
  | none => Modern b d
  | some p => Lacks p d

omit [DecidableEq V] in
theorem Kind'.safe {b : Agent V} {h : Handler V} {m : Option (Option Field)} (hk : Kind' b h m) : Safe b h := by
  cases hk with
  | modern hh => exact .inr (.inr hh)
  | family hh => exact .inl hh
  | field k hh =>
    right; left
    cases hv : h.full with
    | none => rfl
    | some v => have := full_some hv k; rw [hh] at this; cases this

omit [DecidableEq V] in
theorem Kind'.flush {b : Agent V} {env : Env V} {s : Handler V × List (Decl V)} {m : Option (Option Field)} (hk : Kind' b s.1 m) : Kind' b (Font.flush env s).1 m := by
  rcases flush_eq env s with e | e
  · rw [e]; exact hk
  · cases hk with
    | modern hh => exact .modern (by intro k v h; rw [e.2 k] at h; cases h)
    | family hh => exact .family e.1
    | field k hh => exact .field k (e.2 k)

theorem Kind'.maybe {b : Agent V} {env : Env V} {s : Handler V × List (Decl V)} {m : Option (Option Field)} (hk : Kind' b s.1 m) (k : Field) (v : V) : Kind' b (Font.maybe env s k v).1 m := by
  rcases maybe_cases env s k v with ⟨e, _⟩ | e
  · rw [e]; exact hk
  · rw [e]; exact hk.flush

omit [DecidableEq V] in
theorem Kind'.maybeFam {b : Agent V} {env : Env V} {s : Handler V × List (Decl V)} {m : Option (Option Field)} (hk : Kind' b s.1 m) (l : List Family) : Kind' b (Font.maybeFam env s l).1 m := by
  rcases maybeFam_cases env s l with e | e
  · rw [e]; exact hk
  · rw [e]; exact hk.flush

theorem Inv.step {b : Agent V} {env : Env V} (hc : CapsOk b env) {m : Option (Option Field)} (hcomp : m ≠ none → ∀ k v, env.compat k v = true → b.ok k v = true)
    {s : Handler V × List (Decl V)} {g : Computed V → Computed V} (hk : Kind' b s.1 m) (h : Inv b env s g) (d : Decl V) (hd : Source b m d) :
    Inv b env (handle env s d) (fun c => apply b (g c) d) ∧ Kind' b (handle env s d).1 m := by
  cases d with
  | family l =>
    obtain ⟨hi, _⟩ := h.maybeFam hc hk.safe l
    have hk' := hk.maybeFam (env := env) l
    simp only [handle]
    generalize Font.maybeFam env s l = t at hi hk'
    refine ⟨⟨(by intro h; cases h), fun c k => hi.fields c k, ?_, (by intro h; cases h)⟩, ?_⟩
    · intro l' hl c
      simp only [Option.some.injEq] at hl
      subst hl
      rfl
    · cases hk' with
      | modern hh => exact .modern hh
      | family hh => exact absurd rfl hd
      | field k hh => exact .field k hh
  | long k v =>
    obtain ⟨hi, _⟩ := h.maybe hc hk.safe k v
    have hk' := hk.maybe (env := env) k v
    have hp := maybe_post env s k v h.clean
    simp only [handle]
    generalize Font.maybe env s k v = t at hi hk' hp
    have hfam : ∀ c : Computed V, (apply b c (.long k v)).family = c.family := by
      intro c; simp only [apply]; split <;> rfl
    refine ⟨⟨(by intro h; cases h), ?_, fun l hl c => by rw [hfam]; exact hi.held l hl c, fun hl c => by rw [hfam]; exact hi.free hl c⟩, ?_⟩
    · intro c j
      have hj := hi.fields c j
      by_cases hjk : j = k
      · subst hjk
        simp only [overF, Handler.set, if_true, apply]
        by_cases hok : b.ok j v = true
        · simp only [hok, if_true]
        · rw [if_neg hok, if_neg hok, ← hj]
          unfold overF
          rcases hp with hp | hp | hp
          · rw [hp]
          · rw [hp]; simp only [if_neg hok]
          · by_cases hm : m = none
            · subst hm; exact absurd hd.1 hok
            · exact absurd (hcomp hm _ _ hp) hok
      · have e : (apply b (g c) (.long k v)).f j = (g c).f j := by
          simp only [apply]
          split
          · simp only [if_neg hjk]
          · rfl
        rw [e, ← hj]
        simp only [overF, Handler.set, if_neg hjk]
    · cases hk' with
      | modern hh =>
        refine .modern ?_
        intro j w hw
        simp only [Handler.set] at hw
        split at hw
        · rename_i hjk
          cases hw
          rw [hjk]; exact hd
        · exact hh j w hw
      | family hh => exact .family hh
      | field k' hh =>
        refine .field k' ?_
        have : k' ≠ k := by intro e; exact hd (by rw [e])
        simp only [Handler.set, if_neg this, hh]
  | font l v =>
    cases hk with
    | family hh => exact absurd hd id
    | field k hh => exact absurd hd id
    | modern hh =>
      have hd : ∀ k, b.ok k (v k) = true ∧ b.short k (v k) = true := hd
      simp only [handle]
      generalize flushOrder.foldl (fun s k => Font.maybe env s k (v k)) (Font.maybeFam env s l) = t
      have ha : ∀ c : Computed V, apply b c (.font l v) = ⟨.val l, fun k => .val (v k), .initial⟩ := by
        intro c; simp only [apply]; rw [if_pos (fun k _ => hd k)]
      refine ⟨⟨(by intro h; cases h), ?_, ?_, (by intro h; cases h)⟩, ?_⟩
      · intro c k
        simp only [overF, (hd k).1, if_true, ha]
      · intro l' hl c
        simp only [Option.some.injEq] at hl
        rw [ha, hl]
      · refine .modern ?_
        intro k w hw
        simp only [Option.some.injEq] at hw
        rw [← hw]; exact ⟨(hd k).1, fun _ => (hd k).2⟩
  | raw p u =>
    have hi := h.flush hc hk.safe
    have hk' := hk.flush (env := env)
    have hclean : (Font.flush env s).1.family = none ∧ ∀ k, (Font.flush env s).1.f k = none := by
      rcases flush_eq env s with e | e
      · rw [e]
        unfold Font.flush at e
        by_cases hany : s.1.any = true
        · rw [if_pos hany] at e
          have := congrArg (fun x => x.1.any) e
          simp only at this
          rw [hany] at this; cases this
        · exact h.clean (by simpa using hany)
      · exact e
    simp only [handle]
    generalize Font.flush env s = t at hi hk' hclean
    refine ⟨⟨fun _ => hclean, ?_, ?_, ?_⟩, ?_⟩
    · intro c k
      have hj := hi.fields c k
      simp only [overF, hclean.2 k] at hj ⊢
      rw [computed_append]
      have hgf : (computed b c t.2).f = (g c).f := by
        funext j
        have := hi.fields c j
        simpa only [overF, hclean.2 j] using this
      cases p with
      | none => rfl
      | some p => cases p with
        | none => simp only [computed, List.foldl_cons, List.foldl_nil, apply]; exact hj
        | some j => simp only [computed, List.foldl_cons, List.foldl_nil, apply]; simp only [computed] at hgf; rw [hgf]
    · intro l hl; simp only at hl; rw [hclean.1] at hl; cases hl
    · intro _ c
      simp only
      rw [computed_append]
      cases p with
      | none => exact .inl rfl
      | some p => cases p with
        | none => exact .inl rfl
        | some j => exact hi.free hclean.1 c
    · cases hk' with
      | modern hh => exact .modern hh
      | family hh => exact .family hh
      | field k hh => exact .field k hh
  | other u =>
    refine ⟨⟨h.clean, ?_, h.held, ?_⟩, ?_⟩
    · intro c k
      simp only [handle]
      rw [computed_append]
      exact h.fields c k
    · intro hl c
      simp only [handle]
      rw [computed_append]
      exact h.free hl c
    · simp only [handle]; exact hk

theorem Inv.run {b : Agent V} {env : Env V} (hc : CapsOk b env) {m : Option (Option Field)} (hcomp : m ≠ none → ∀ k v, env.compat k v = true → b.ok k v = true) :
    ∀ (ds : List (Decl V)) (s : Handler V × List (Decl V)) (g : Computed V → Computed V), Kind' b s.1 m → Inv b env s g → (∀ d ∈ ds, Source b m d) →
    Inv b env (ds.foldl (handle env) s) (fun c => ds.foldl (apply b) (g c)) ∧ Kind' b (ds.foldl (handle env) s).1 m
  | [], _, _, hk, h, _ => ⟨h, hk⟩
  | d :: ds, s, g, hk, h, hd => by
    obtain ⟨h', hk'⟩ := h.step hc hcomp hk d (hd d (by simp))
    exact Inv.run hc hcomp ds _ _ hk' h' (fun d' hd' => hd d' (by simp [hd']))

theorem Inv.final {b : Agent V} {env : Env V} (hc : CapsOk b env) {m : Option (Option Field)} (hcomp : m ≠ none → ∀ k v, env.compat k v = true → b.ok k v = true) (ds : List (Decl V))
    (hd : ∀ d ∈ ds, Source b m d) (c : Computed V) :
    (∀ k, (computed b c (Font.run env ds)).f k = (computed b c ds).f k) ∧ Written env (computed b c (Font.run env ds)).family (computed b c ds).family := by
  have h0 : Inv b env (({}, []) : Handler V × List (Decl V)) (fun c => c) := ⟨fun _ => ⟨rfl, fun _ => rfl⟩, fun _ _ => rfl, (by intro l h; cases h), fun _ _ => .inl rfl⟩
  have hk0 : Kind' b ({} : Handler V) m := by
    cases m with
    | none => exact .modern (by intro k v h; cases h)
    | some p => cases p with
      | none => exact .family rfl
      | some k => exact .field k rfl
  obtain ⟨h, hk⟩ := Inv.run hc hcomp ds _ _ hk0 h0 hd
  have hf := h.flush hc hk.safe
  have hclean : (Font.flush env (ds.foldl (handle env) ({}, []))).1.family = none ∧ ∀ k, (Font.flush env (ds.foldl (handle env) ({}, []))).1.f k = none := by
    generalize ds.foldl (handle env) ({}, []) = s at *
    unfold Font.flush
    split
    · exact ⟨rfl, fun _ => rfl⟩
    · rename_i ha; exact h.clean (by simpa using ha)
  refine ⟨fun k => ?_, hf.free hclean.1 c⟩
  have := hf.fields c k
  simp only [overF, hclean.2 k] at this
  exact this

/-! ### The theorems -/

omit [DecidableEq V] in
/-- The values of the families, as the source has them or with the system fonts. -/
theorem written_same {env : Env V} {x y : Value (List Family)} (h : Written env x y) (avail : Family → Bool) (hu : env.compileUi = true → avail (.generic .systemUi) = true) : SameChoice avail x y := by
  rcases h with h | ⟨h', l, h1, h2⟩
  · subst h; unfold SameChoice; cases x <;> rfl
  · subst h1; subst h2
    show (outFamily env h' l).find? avail = l.find? avail
    rcases outFamily_choice env h' avail l with h | ⟨hu', h⟩
    · exact h
    · rw [h, find_withSystem avail (hu hu')]

/-- C144 (part): a browser that accepts all values of the block computes the same size, style, weight, width, caps, line height, and the same font for each text. Missing: widths in percent, which `font` does not accept (`C144_stretch_fails`), and the properties that `font` resets (`C144_reset_fails`). -/
theorem C144_modern_partial (b : Agent V) (env : Env V) (hc : CapsOk b env) (ds : List (Decl V)) (hd : ∀ d ∈ ds, Modern b d) (c : Computed V) :
    (∀ k, (computed b c (run env ds)).f k = (computed b c ds).f k) ∧
      ∀ avail, avail (.generic .systemUi) = true → SameChoice avail (computed b c (run env ds)).family (computed b c ds).family :=
  have h := Inv.final hc (m := none) (fun h => absurd rfl h) ds hd c
  ⟨h.1, fun avail ha => written_same h.2 avail (fun _ => ha)⟩

/-- C145 (part): a browser that accepts at least the compatible values computes the same, if the block does not have the shorthand and lacks one of the seven longhands. Missing: other blocks; longhands are merged into a shorthand which an older browser ignores as a whole (`C145_merge_fails`). -/
theorem C145_older_partial (b : Agent V) (env : Env V) (hc : CapsOk b env) (hcomp : ∀ k v, env.compat k v = true → b.ok k v = true) (p : Option Field) (ds : List (Decl V))
    (hd : ∀ d ∈ ds, Lacks p d) (c : Computed V) :
    (∀ k, (computed b c (run env ds)).f k = (computed b c ds).f k) ∧
      ∀ avail, (env.compileUi = true → avail (.generic .systemUi) = true) → SameChoice avail (computed b c (run env ds)).family (computed b c ds).family :=
  have h := Inv.final hc (m := some p) (fun _ => hcomp) ds hd c
  ⟨h.1, fun avail ha => written_same h.2 avail ha⟩

/-- C147: where `system-ui` is not known, the font is the one of the source, or the one of the source with the names of the system fonts after `system-ui`. -/
theorem C147_system (b : Agent V) (env : Env V) (hc : CapsOk b env) (ds : List (Decl V)) (hd : ∀ d ∈ ds, Modern b d) (c : Computed V)
    (l : List Family) (hl : (computed b c ds).family = .val l) :
    ∃ m, (computed b c (run env ds)).family = .val m ∧ ∀ avail, m.find? avail = l.find? avail ∨ (env.compileUi = true ∧ m.find? avail = (withSystem l).find? avail) := by
  have h := (Inv.final hc (m := none) (fun h => absurd rfl h) ds hd c).2
  rw [hl] at h
  rcases h with h | ⟨h', l', h1, h2⟩
  · exact ⟨l, h, fun avail => .inl rfl⟩
  · cases h2
    exact ⟨_, h1, fun avail => outFamily_choice env h' avail l⟩

end
end

/-! ### Cases -/

/-- Values for the examples: a number below 100 is compatible; `font` accepts numbers other than 7; the caps of CSS 2 are 0 and 1. -/
def env0 : Env Nat := ⟨fun _ v => v < 100, fun _ => true, fun v => v < 2, 0, true⟩
/-- A browser that accepts everything. -/
def modern0 : Agent Nat := ⟨fun _ _ => true, fun k v => if k = .caps then v < 2 else v ≠ 7⟩
/-- A browser that accepts what is compatible. -/
def older0 : Agent Nat := ⟨fun _ v => v < 100, fun k v => if k = .caps then v < 2 else v ≠ 7⟩

example : CapsOk modern0 env0 := ⟨⟨rfl, rfl⟩, by intro v h; simpa [env0, modern0] using h⟩
example : CapsOk older0 env0 := ⟨⟨rfl, rfl⟩, by intro v h; simpa [env0, older0] using h⟩
example : ∀ k v, env0.compat k v = true → older0.ok k v = true := fun _ _ h => h

/-- A block for the examples. -/
def block0 : List (Decl Nat) := [.font [.name cs!"a", .generic .systemUi, .name cs!"a"] (fun _ => 1), .long .weight 200, .long .caps 5, .raw (some (some .size)) 3, .long .size 4]
example : ∀ d ∈ block0, Modern modern0 d := by
  intro d hd
  simp only [block0, List.mem_cons, List.not_mem_nil, or_false] at hd
  rcases hd with rfl | rfl | rfl | rfl | rfl
  · intro k; cases k <;> exact ⟨rfl, rfl⟩
  · exact ⟨rfl, fun _ => rfl⟩
  · exact ⟨rfl, fun h => absurd rfl h⟩
  · trivial
  · exact ⟨rfl, fun _ => rfl⟩
example : (computed modern0 {} (run env0 block0)).family = .val (.name cs!"a" :: .generic .systemUi :: systemFonts) := by rfl
example : (computed modern0 {} (run env0 block0)).f .weight = .val 200 := by rfl
/-- Another block, without the shorthand and `font-style`. -/
def block1 : List (Decl Nat) := [.long .weight 4, .long .size 3, .long .weight 400, .family [.generic .serif]]
example : ∀ d ∈ block1, Lacks (some .style) d := by
  intro d hd
  simp only [block1, List.mem_cons, List.not_mem_nil, or_false] at hd
  rcases hd with rfl | rfl | rfl | rfl <;> simp [Lacks]
example : run env0 block1 = [.long .size 3, .long .weight 4, .family [.generic .serif], .long .weight 400] := by rfl

/-- C144 fails for a width that `font` does not accept: seven longhands with `font-stretch: 110%` are merged into an invalid `font`. -/
theorem C144_stretch_fails : ∃ ds : List (Decl Nat), (∀ d ∈ ds, ∃ k v, d = .long k v ∨ ∃ l, d = .family l) ∧
    (computed modern0 {} ds).f .size = .val 1 ∧ (computed modern0 {} (run env0 ds)).f .size = .before := by
  refine ⟨[.family [], .long .size 1, .long .style 1, .long .weight 1, .long .stretch 7, .long .line 1, .long .caps 1], ?_, rfl, rfl⟩
  intro d hd
  simp only [List.mem_cons, List.not_mem_nil, or_false] at hd
  rcases hd with rfl | rfl | rfl | rfl | rfl | rfl | rfl
  · exact ⟨.size, 0, .inr ⟨_, rfl⟩⟩
  all_goals exact ⟨_, _, .inl rfl⟩

/-- C144 fails for the properties that `font` resets: in `font: ..; font-kerning: none` the shorthand is written last. -/
theorem C144_reset_fails : ∃ ds : List (Decl Nat), (computed modern0 {} ds).other = .val 3 ∧ (computed modern0 {} (run env0 ds)).other = .initial :=
  ⟨[.font [] (fun _ => 1), .other 3], rfl, rfl⟩

/-- C145 fails if the longhands are merged: an older browser ignores the shorthand with a weight that it does not know, and with it the size. -/
theorem C145_merge_fails : ∃ ds : List (Decl Nat), (computed older0 {} ds).f .size = .val 1 ∧ (computed older0 {} (run env0 ds)).f .size = .before :=
  ⟨[.family [], .long .size 1, .long .style 1, .long .weight 450, .long .stretch 1, .long .line 1, .long .caps 1], rfl, rfl⟩

/-- C145 fails also for a longhand after a shorthand that the older browser ignores. -/
theorem C145_override_fails : ∃ ds : List (Decl Nat), (computed older0 {} ds).f .size = .val 5 ∧ (computed older0 {} (run env0 ds)).f .size = .before :=
  ⟨[.font [] (fun k => if k = .weight then 450 else 1), .long .size 5], rfl, rfl⟩

end Verif.Font
