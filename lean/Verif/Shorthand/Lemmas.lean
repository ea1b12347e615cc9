import Verif.Shorthand.Spec
/-!
Lemmas about tokens, keywords and loops.
-/
namespace Verif.Shorthand

theorem next_ident (s r) : next (.ident s :: r) = some (.ident s, r) := rfl
theorem next_ws (r) : next (.ws :: r) = next r := rfl

/-- A parser that skips white space: it only looks at `next`. -/
theorem kw_ws {α} [Kw α] (i) : (Kw.parse : Parser α) (.ws :: i) = Kw.parse i := rfl

/-- The keywords of an enum are distinct, and in lower case. -/
class LawfulKw (α : Type) [Kw α] : Prop where
  find : ∀ a : α, (Kw.all : List α).find? (fun b => Kw.name b = lower (Kw.name a)) = some a

theorem kw_back {α} [Kw α] [LawfulKw α] (a : α) (r) : Kw.parse (Kw.print a ++ r) = some (a, r) := by
  simp only [Kw.parse, Kw.print, List.cons_append, List.nil_append, next_ident, LawfulKw.find]

theorem kw_back' {α} [Kw α] [LawfulKw α] (a : α) (r) :
    Kw.parse (.ident (Kw.name a) :: r) = some (a, r) := kw_back a r

theorem kw_ends {α} [Kw α] {r} (h : Ends r) : (Kw.parse : Parser α) r = none := by
  rcases h with rfl | ⟨l, rfl | rfl⟩ <;> rfl

theorem kw_other {α} [Kw α] {t r} (h : ∀ s, t ≠ .ident s) (hw : t ≠ .ws) :
    (Kw.parse : Parser α) (t :: r) = none := by
  cases t <;> simp_all [Kw.parse, next]

theorem kw_ident_none {α} [Kw α] {s r} (h : Kw.isIdent α s = false) :
    (Kw.parse : Parser α) (.ident s :: r) = none := by
  simp only [Kw.isIdent, List.any_eq_false, decide_eq_true_eq] at h
  simp only [Kw.parse, next_ident]
  have : (Kw.all : List α).find? (fun b => Kw.name b = lower s) = none := by
    simp only [List.find?_eq_none, decide_eq_true_eq]; exact h
  rw [this]

instance : LawfulKw CaretShape := ⟨by intro a; cases a <;> decide⟩
instance : LawfulKw LineStyle := ⟨by intro a; cases a <;> decide⟩
instance : LawfulKw FlexDirection := ⟨by intro a; cases a <;> decide⟩
instance : LawfulKw FlexWrap := ⟨by intro a; cases a <;> decide⟩
instance : LawfulKw ContainerType := ⟨by intro a; cases a <;> decide⟩
instance : LawfulKw ListPosition := ⟨by intro a; cases a <;> decide⟩
instance : LawfulKw TextStyle := ⟨by intro a; cases a <;> decide⟩
instance : LawfulKw EmphasisFill := ⟨by intro a; cases a <;> decide⟩
instance : LawfulKw EmphasisShape := ⟨by intro a; cases a <;> decide⟩
instance : LawfulKw Distribution := ⟨by intro a; cases a <;> decide⟩
instance : LawfulKw Overflow := ⟨by intro a; cases a <;> decide⟩
instance : LawfulKw ContentPosition := ⟨by intro a; cases a <;> decide⟩
instance : LawfulKw SelfPosition := ⟨by intro a; cases a <;> decide⟩
instance : LawfulKw LegacySide := ⟨by intro a; cases a <;> decide⟩
instance : LawfulKw Scroller := ⟨by intro a; cases a <;> decide⟩
instance : LawfulKw ScrollAxis := ⟨by intro a; cases a <;> decide⟩
instance : LawfulKw RangeName := ⟨by intro a; cases a <;> decide⟩
instance : LawfulKw Direction := ⟨by intro a; cases a <;> decide⟩
instance : LawfulKw PlayState := ⟨by intro a; cases a <;> decide⟩
instance : LawfulKw FillMode := ⟨by intro a; cases a <;> decide⟩

/-! ### Loops -/

/-- `Reach step n s i s' i'`: `n` turns that end with `continue` lead from `s`, `i` to `s'`, `i'`. -/
inductive Reach {σ : Type} (step : σ → List Tok → σ × List Tok × Bool) :
    Nat → σ → List Tok → σ → List Tok → Prop
  | refl (s i) : Reach step 0 s i s i
  | step {n s i s1 i1 s2 i2} : step s i = (s1, i1, true) → Reach step n s1 i1 s2 i2 →
      Reach step (n + 1) s i s2 i2

theorem Reach.one {σ} {step : σ → List Tok → σ × List Tok × Bool} {s i s1 i1}
    (h : step s i = (s1, i1, true)) : Reach step 1 s i s1 i1 := .step h (.refl _ _)

theorem Reach.trans {σ} {step : σ → List Tok → σ × List Tok × Bool} {n m s i s1 i1 s2 i2}
    (h : Reach step n s i s1 i1) (h' : Reach step m s1 i1 s2 i2) : Reach step (n + m) s i s2 i2 := by
  induction h with
  | refl => simpa using h'
  | step e _ ih => rw [show ∀ a : Nat, a + 1 + m = (a + m) + 1 by omega]; exact .step e (ih h')

theorem run_reach {σ} {step : σ → List Tok → σ × List Tok × Bool} {n s i s1 i1 s2 i2}
    (h : Reach step n s i s1 i1) (h' : step s1 i1 = (s2, i2, false)) (fuel : Nat) (hf : n < fuel) :
    run step fuel s i = (s2, i2) := by
  induction h generalizing fuel with
  | refl =>
    obtain ⟨k, rfl⟩ : ∃ k, fuel = k + 1 := ⟨fuel - 1, by omega⟩
    simp only [run, h']
  | step e _ ih =>
    obtain ⟨k, rfl⟩ : ∃ k, fuel = k + 1 := ⟨fuel - 1, by omega⟩
    simp only [run, e]
    exact ih h' k (by omega)

/-! ### Separation -/

theorem sep_ws_cons {l} : Separated (.ws :: l) ↔ Separated l := by
  cases l <;> simp [Separated, Sticks]

theorem sep_append_ws {a b} (ha : Separated a) (hb : Separated b) : Separated (a ++ .ws :: b) := by
  induction a with
  | nil => exact sep_ws_cons.mpr hb
  | cons x a ih =>
    cases a with
    | nil =>
      refine ⟨?_, sep_ws_cons.mpr hb⟩
      simp [Sticks]
    | cons y a => exact ⟨ha.1, ih ha.2⟩

theorem sep_kw {α} [Kw α] (a : α) : Separated (Kw.print a) := trivial

/-- A token that sticks to nothing after it. -/
theorem sep_cons_loose {t l} (ht : (∀ s, t ≠ .ident s) ∧ ∀ s, t ≠ .other s) (hl : Separated l) :
    Separated (t :: l) := by
  cases l with
  | nil => trivial
  | cons b l =>
    refine ⟨?_, hl⟩
    cases t <;> simp_all [Sticks]

/-- A token that nothing sticks to. -/
theorem sep_append_loose {a t l} (ha : Separated a)
    (ht : (∀ s, t ≠ .ident s) ∧ (∀ s, t ≠ .other s) ∧ ∀ s, t ≠ .func s) (hl : Separated (t :: l)) :
    Separated (a ++ t :: l) := by
  induction a with
  | nil => exact hl
  | cons x a ih =>
    cases a with
    | nil =>
      refine ⟨?_, hl⟩
      cases t <;> simp_all [Sticks]
    | cons y a => exact ⟨ha.1, ih ha.2⟩

/-! ### First tokens -/

theorem expectIdent_ends {k r} (h : Ends r) : expectIdent k r = none := by
  rcases h with rfl | ⟨l, rfl | rfl⟩ <;> rfl

theorem expectIdent_other {k t r} (h : ∀ s, t ≠ .ident s) (hw : t ≠ .ws) :
    expectIdent k (t :: r) = none := by
  cases t <;> simp_all [expectIdent, next]

theorem Plain.kw_none {α V β} [Kw β] {c : Codec α} {sem : α → V} (P : Plain c sem) (a r) :
    (Kw.parse : Parser β) (c.print a ++ r) = none := by
  obtain ⟨t, l, e, h⟩ := P.first a
  rw [e]
  rcases h with ⟨s, rfl⟩ | ⟨f, rfl, _⟩ <;> rfl

theorem Plain.expectIdent_none {α V} {c : Codec α} {sem : α → V} (P : Plain c sem) (k a r) :
    expectIdent k (c.print a ++ r) = none := by
  obtain ⟨t, l, e, h⟩ := P.first a
  rw [e]
  rcases h with ⟨s, rfl⟩ | ⟨f, rfl, _⟩ <;> rfl

theorem ColorLaw.kw_none {α V β} [Kw β] {c : Codec α} {sem : α → V} (C : ColorLaw c sem)
    (hk : ∀ b ∈ (Kw.all : List β), Kw.name b ∈ notColors) (a r) :
    (Kw.parse : Parser β) (c.print a ++ r) = none := by
  obtain ⟨t, l, e, h⟩ := C.first a
  rw [e]
  rcases h with ⟨s, rfl, hs⟩ | ⟨s, rfl⟩ | ⟨f, rfl, _⟩
  · apply kw_ident_none
    simp only [Kw.isIdent, List.any_eq_false, decide_eq_true_eq]
    intro b hb e
    exact hs (e ▸ hk b hb)
  · rfl
  · rfl

theorem ColorLaw.expectIdent_none {α V} {c : Codec α} {sem : α → V} (C : ColorLaw c sem) {k}
    (hk : k ∈ notColors) (a r) : expectIdent k (c.print a ++ r) = none := by
  obtain ⟨t, l, e, h⟩ := C.first a
  rw [e]
  rcases h with ⟨s, rfl, hs⟩ | ⟨s, rfl⟩ | ⟨f, rfl, _⟩
  · simp only [expectIdent, List.cons_append, next_ident]
    rw [if_neg]; rintro rfl; exact hs hk
  · rfl
  · rfl

theorem ColorLaw.kw {α V β} [Kw β] {c : Codec α} {sem : α → V} (C : ColorLaw c sem) (b : β)
    (hk : lower (Kw.name b) ∈ notColors) (r) : c.parse (.ident (Kw.name b) :: r) = none :=
  C.no_keyword _ r hk

end Verif.Shorthand
