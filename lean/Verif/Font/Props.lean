import Verif.Font.FamilyProps
/-! # C142, C143: the `font` shorthand -/
namespace Verif.Font
open Verif.Transition (kw)
open Verif.Font.Spec

section
variable {L A : Type}

/-! ### What the values stand for -/

/-- A style. -/
def Style.meaning : Style A → StyleV A
  | .normal => .normal | .italic => .italic | .oblique a => .oblique a
/-- A weight. -/
def Weight.meaning : Weight → WeightV
  | .num q => .abs q | .normal => .abs 400 | .bold => .abs 700 | .bolder => .bolder | .lighter => .lighter
/-- A width. -/
def Stretch.meaning : Stretch → Rat
  | .kw k => k.percent
  | .pct q => q
/-- A size. -/
def Size.meaning : Size L → SizeV L
  | .len l => .len l | .pct q => .pct q | .abs a => .keyword a.text | .smaller => .keyword cs!"smaller" | .larger => .keyword cs!"larger"
/-- A line height. -/
def LineHeight.meaning [Zero L] [DecidableEq L] : LineHeight L → LineV L
  | .normal => .normal | .num q => .factor q | .len l => if l = 0 then .factor 0 else .len l | .pct q => .pct q
/-- The shorthand. -/
def Font.meaning [Zero L] [DecidableEq L] (f : Font L A) : Meaning L A :=
  { style := f.style.meaning, smallCaps := f.caps = .smallCaps, weight := f.weight.meaning, width := f.stretch.meaning, size := f.size.meaning,
    line := f.lineHeight.meaning, families := f.family.map Family.meaning }

theorem width_mem (k : StretchKw) : (k.text, k.percent) ∈ widths := by cases k <;> simp [widths, StretchKw.text, StretchKw.percent]
theorem mem_width {k : Str} {q : Rat} (h : (k, q) ∈ widths) : ∃ s : StretchKw, s.text = k ∧ s.percent = q := by
  simp only [widths, List.mem_cons, List.not_mem_nil, or_false, Prod.mk.injEq] at h
  rcases h with ⟨rfl, rfl⟩ | ⟨rfl, rfl⟩ | ⟨rfl, rfl⟩ | ⟨rfl, rfl⟩ | ⟨rfl, rfl⟩ | ⟨rfl, rfl⟩ | ⟨rfl, rfl⟩ | ⟨rfl, rfl⟩ | ⟨rfl, rfl⟩
  · exact ⟨.normal, rfl, rfl⟩
  · exact ⟨.ultraCondensed, rfl, rfl⟩
  · exact ⟨.extraCondensed, rfl, rfl⟩
  · exact ⟨.condensed, rfl, rfl⟩
  · exact ⟨.semiCondensed, rfl, rfl⟩
  · exact ⟨.semiExpanded, rfl, rfl⟩
  · exact ⟨.expanded, rfl, rfl⟩
  · exact ⟨.extraExpanded, rfl, rfl⟩
  · exact ⟨.ultraExpanded, rfl, rfl⟩

theorem size_mem (a : AbsSize) : a.text ∈ sizes := by cases a <;> decide
theorem mem_size {k : Str} (h : k ∈ sizes) : (∃ a : AbsSize, a.text = k) ∨ k = cs!"smaller" ∨ k = cs!"larger" := by
  simp only [sizes, List.mem_cons, List.not_mem_nil, or_false] at h
  rcases h with rfl | rfl | rfl | rfl | rfl | rfl | rfl | rfl | rfl | rfl
  · exact .inl ⟨.xxSmall, rfl⟩
  · exact .inl ⟨.xSmall, rfl⟩
  · exact .inl ⟨.small, rfl⟩
  · exact .inl ⟨.medium, rfl⟩
  · exact .inl ⟨.large, rfl⟩
  · exact .inl ⟨.xLarge, rfl⟩
  · exact .inl ⟨.xxLarge, rfl⟩
  · exact .inl ⟨.xxxLarge, rfl⟩
  · exact .inr (.inl rfl)
  · exact .inr (.inr rfl)

/-! ### Size, line height -/

theorem parseSize_sound [Zero L] (l r : List (Tok L A)) (v : Size L) (h : parseSize l = some (v, r)) : ∃ t, l = t :: r ∧ SizeText t v.meaning := by
  cases l with
  | nil => cases h
  | cons a l =>
    cases a with
    | len x => simp only [parseSize, Option.some.injEq, Prod.mk.injEq] at h; obtain ⟨rfl, rfl⟩ := h; exact ⟨_, rfl, .len x⟩
    | pct x => simp only [parseSize, Option.some.injEq, Prod.mk.injEq] at h; obtain ⟨rfl, rfl⟩ := h; exact ⟨_, rfl, .pct x⟩
    | num q =>
      simp only [parseSize] at h
      split at h
      · rename_i hq
        simp only [Option.some.injEq, Prod.mk.injEq] at h
        obtain ⟨rfl, rfl⟩ := h
        subst hq
        exact ⟨_, rfl, .zero⟩
      · cases h
    | ident s =>
      simp only [parseSize] at h
      split at h
      · rename_i a ha
        simp only [Option.some.injEq, Prod.mk.injEq] at h
        obtain ⟨rfl, rfl⟩ := h
        exact ⟨_, rfl, .keyword _ _ (size_mem a) ((size_iff s a).1 ha)⟩
      · split at h
        · rename_i hk
          simp only [Option.some.injEq, Prod.mk.injEq] at h
          obtain ⟨rfl, rfl⟩ := h
          exact ⟨_, rfl, .keyword _ _ (by decide) ((kw_iff _ _).1 hk)⟩
        · split at h
          · rename_i hk
            simp only [Option.some.injEq, Prod.mk.injEq] at h
            obtain ⟨rfl, rfl⟩ := h
            exact ⟨_, rfl, .keyword _ _ (by decide) ((kw_iff _ _).1 hk)⟩
          · cases h
    | _ => cases h

theorem parseSize_complete [Zero L] (t : Tok L A) (r : List (Tok L A)) (v : SizeV L) (h : SizeText t v) : ∃ s, parseSize (t :: r) = some (s, r) ∧ s.meaning = v := by
  cases h with
  | len l => exact ⟨.len l, rfl, rfl⟩
  | zero => exact ⟨.len 0, by simp [parseSize], rfl⟩
  | pct q => exact ⟨.pct q, rfl, rfl⟩
  | keyword s k hk hw =>
    simp only [parseSize]
    rcases mem_size hk with ⟨a, rfl⟩ | rfl | rfl
    · exact ⟨.abs a, by rw [(size_iff s a).2 hw], rfl⟩
    · have : parseKw AbsSize.all AbsSize.text s = none := by
        rw [parseKw_none]; intro a _ ha; have := word_unique ha hw; revert this; cases a <;> decide
      exact ⟨.smaller, by rw [this]; simp only [(kw_iff _ _).2 hw, if_true], rfl⟩
    · have : parseKw AbsSize.all AbsSize.text s = none := by
        rw [parseKw_none]; intro a _ ha; have := word_unique ha hw; revert this; cases a <;> decide
      have hs : kw s cs!"smaller" = false := by
        cases hh : kw s cs!"smaller" with
        | false => rfl
        | true => exact absurd (word_unique ((kw_iff _ _).1 hh) hw) (by decide)
      exact ⟨.larger, by rw [this]; simp only [hs, (kw_iff _ _).2 hw, if_true, Bool.false_eq_true, if_false], rfl⟩

theorem parseSlash_sound [Zero L] [DecidableEq L] (l r : List (Tok L A)) (v : LineHeight L) (h : parseSlash l = some (v, r)) :
    ∃ t, l = t ++ r ∧ SlashText t v.meaning := by
  have hn : some (LineHeight.normal, l) = some (v, r) → ∃ t, l = t ++ r ∧ SlashText t v.meaning := by
    intro h
    simp only [Option.some.injEq, Prod.mk.injEq] at h
    obtain ⟨rfl, rfl⟩ := h
    exact ⟨[], rfl, .none⟩
  cases l with
  | nil => exact hn h
  | cons a l =>
    cases a with
    | slash =>
      simp only [parseSlash] at h
      cases l with
      | nil => cases h
      | cons b l =>
        cases b with
        | ident s =>
          simp only [parseLineHeight] at h
          split at h
          · rename_i hk
            simp only [Option.some.injEq, Prod.mk.injEq] at h
            obtain ⟨rfl, rfl⟩ := h
            exact ⟨[.slash, .ident s], rfl, .slash (.normal s ((kw_iff _ _).1 hk))⟩
          · cases h
        | num q => simp only [parseLineHeight, Option.some.injEq, Prod.mk.injEq] at h; obtain ⟨rfl, rfl⟩ := h; exact ⟨[.slash, .num q], rfl, .slash (.factor q)⟩
        | pct q => simp only [parseLineHeight, Option.some.injEq, Prod.mk.injEq] at h; obtain ⟨rfl, rfl⟩ := h; exact ⟨[.slash, .pct q], rfl, .slash (.pct q)⟩
        | len x =>
          simp only [parseLineHeight, Option.some.injEq, Prod.mk.injEq] at h
          obtain ⟨rfl, rfl⟩ := h
          refine ⟨[.slash, .len x], rfl, .slash ?_⟩
          simp only [LineHeight.meaning]
          split
          · rename_i hx; subst hx; exact .zero
          · rename_i hx; exact .len x hx
        | _ => cases h
    | _ => exact hn h

theorem parseSlash_complete [Zero L] [DecidableEq L] (t r : List (Tok L A)) (v : LineV L) (h : SlashText t v) (hr : ∀ r', r ≠ .slash :: r') :
    ∃ x, parseSlash (t ++ r) = some (x, r) ∧ x.meaning = v := by
  cases h with
  | none =>
    refine ⟨.normal, ?_, rfl⟩
    cases r with
    | nil => rfl
    | cons a r => cases a <;> first | rfl | exact absurd rfl (hr r)
  | slash h =>
    cases h with
    | normal s hw => exact ⟨.normal, by simp only [parseSlash, parseLineHeight, List.cons_append, List.nil_append, (kw_iff _ _).2 hw, if_true], rfl⟩
    | factor q => exact ⟨.num q, rfl, rfl⟩
    | len l hl => exact ⟨.len l, rfl, by simp [LineHeight.meaning, hl]⟩
    | zero => exact ⟨.len 0, rfl, by simp [LineHeight.meaning]⟩
    | pct q => exact ⟨.pct q, rfl, rfl⟩

end
end Verif.Font
