import Verif.Font.ShorthandProps
/-! # C143: the `font` shorthand is written with its meaning -/
namespace Verif.Font
open Verif.Transition (kw)
open Verif.Font.Spec

section
variable {L A : Type}

/-- An optional part. -/
def optPart (b : Prop) [Decidable b] (p : Part A) : List (Part A) := if b then [p] else []

theorem opt_text [Oblique A] (b : Prop) [Decidable b] {t ts : List (Tok L A)} {p : Part A} {ps : List (Part A)} (h : b → PartText t p) (hs : PartsText ts ps) :
    PartsText ((if b then t else []) ++ ts) (optPart b p ++ ps) := by
  unfold optPart
  split
  · rename_i hb; exact .cons (h hb) hs
  · exact hs

theorem opt_kinds (b1 b2 b3 b4 : Prop) [Decidable b1] [Decidable b2] [Decidable b3] [Decidable b4] (m : Meaning L A) :
    ((optPart b1 (m.part .style) ++ (optPart b2 (m.part .caps) ++ (optPart b3 (m.part .weight) ++ (optPart b4 (m.part .width) ++ [])))).map Part.kind).Nodup := by
  by_cases h1 : b1 <;> by_cases h2 : b2 <;> by_cases h3 : b3 <;> by_cases h4 : b4 <;>
    simp [optPart, h1, h2, h3, h4, Meaning.part, Part.kind]

theorem opt_mem (b1 b2 b3 b4 : Prop) [Decidable b1] [Decidable b2] [Decidable b3] [Decidable b4] (m : Meaning L A)
    (n1 : ¬b1 → m.part .style = initial .style) (n2 : ¬b2 → m.part .caps = initial .caps) (n3 : ¬b3 → m.part .weight = initial .weight)
    (n4 : ¬b4 → m.part .width = initial .width) (k : Kind) :
    let ps := optPart b1 (m.part .style) ++ (optPart b2 (m.part .caps) ++ (optPart b3 (m.part .weight) ++ (optPart b4 (m.part .width) ++ [])))
    m.part k ∈ ps ∨ (k ∉ ps.map Part.kind ∧ m.part k = initial k) := by
  have mo : ∀ (b : Prop) [Decidable b] (q : Part A) (j : Kind), j ∈ (optPart b q).map Part.kind → b ∧ q.kind = j := by
    intro b _ q j h
    unfold optPart at h
    split at h
    · rename_i hb; simp only [List.map_cons, List.map_nil, List.mem_singleton] at h; exact ⟨hb, h.symm⟩
    · cases h
  have hne : ∀ (b : Prop) [Decidable b] (q : Part A) (j : Kind), (¬b ∨ q.kind ≠ j) → j ∉ (optPart b q).map Part.kind := by
    intro b _ q j h hm
    have := mo b q j hm
    rcases h with h | h
    · exact h this.1
    · exact h this.2
  intro ps
  cases k with
  | style =>
    by_cases h : b1
    · exact .inl (by simp [ps, optPart, h])
    · exact .inr ⟨by simp only [ps, List.map_append, List.mem_append, not_or]; exact ⟨hne _ _ _ (.inl h), hne _ _ _ (.inr (by simp [Meaning.part, Part.kind])),
        hne _ _ _ (.inr (by simp [Meaning.part, Part.kind])), hne _ _ _ (.inr (by simp [Meaning.part, Part.kind])), by simp⟩, n1 h⟩
  | caps =>
    by_cases h : b2
    · exact .inl (by simp [ps, optPart, h])
    · exact .inr ⟨by simp only [ps, List.map_append, List.mem_append, not_or]; exact ⟨hne _ _ _ (.inr (by simp [Meaning.part, Part.kind])), hne _ _ _ (.inl h),
        hne _ _ _ (.inr (by simp [Meaning.part, Part.kind])), hne _ _ _ (.inr (by simp [Meaning.part, Part.kind])), by simp⟩, n2 h⟩
  | weight =>
    by_cases h : b3
    · exact .inl (by simp [ps, optPart, h])
    · exact .inr ⟨by simp only [ps, List.map_append, List.mem_append, not_or]; exact ⟨hne _ _ _ (.inr (by simp [Meaning.part, Part.kind])),
        hne _ _ _ (.inr (by simp [Meaning.part, Part.kind])), hne _ _ _ (.inl h), hne _ _ _ (.inr (by simp [Meaning.part, Part.kind])), by simp⟩, n3 h⟩
  | width =>
    by_cases h : b4
    · exact .inl (by simp [ps, optPart, h])
    · exact .inr ⟨by simp only [ps, List.map_append, List.mem_append, not_or]; exact ⟨hne _ _ _ (.inr (by simp [Meaning.part, Part.kind])),
        hne _ _ _ (.inr (by simp [Meaning.part, Part.kind])), hne _ _ _ (.inr (by simp [Meaning.part, Part.kind])), hne _ _ _ (.inl h), by simp⟩, n4 h⟩

/-- C143 (part): what is written for a `font` value has this meaning by the specification. Missing: a `font-stretch` that is not `normal`, in minified output, and a percentage (`C143_stretch_fails`); weights out of range; names of families as in C141. -/
theorem C143_print_partial [Zero L] [DecidableEq L] [Oblique A] [DecidableEq A] (minify : Bool) (idLen : Str → Nat) (f : Font L A)
    (hk : ∃ k, f.stretch = .kw k ∧ (minify = true → k = .normal)) (hw : ∀ q, f.weight = .num q → 1 ≤ q ∧ q ≤ 1000) (hc : f.caps = .normal ∨ f.caps = .smallCaps)
    (hf : f.family ≠ []) (hn : ∀ n, .name n ∈ f.family → NameOk n) : Shorthand (f.print minify idLen) f.meaning := by
  obtain ⟨k, hk, hkm⟩ := hk
  have tStyle : f.style ≠ .normal → PartText (f.style.print : List (Tok L A)) (f.meaning.part .style) := by
    intro h
    simp only [Meaning.part, Font.meaning]
    cases hs : f.style with
    | normal => exact absurd hs h
    | italic => exact .italic _ rfl
    | oblique a =>
      simp only [Style.print, Style.meaning]
      split
      · exact .obliqueAngle cs!"oblique" rfl a
      · rename_i ha
        rw [Decidable.not_not.1 ha]
        exact .oblique cs!"oblique" rfl
  have tCaps : f.caps ≠ .normal → PartText ([.ident f.caps.text] : List (Tok L A)) (f.meaning.part .caps) := by
    intro h
    rcases hc with hc | hc
    · exact absurd hc h
    · simp only [Meaning.part, Font.meaning, hc, decide_true]
      exact .smallCaps _ rfl
  have tWeight : f.weight ≠ .normal → PartText ([f.weight.print minify] : List (Tok L A)) (f.meaning.part .weight) := by
    intro h
    simp only [Meaning.part, Font.meaning]
    cases hs : f.weight with
    | num q => exact .number q (hw q hs)
    | normal => exact absurd hs h
    | bold => cases minify with
      | true => exact .number 700 (by constructor <;> decide +kernel)
      | false => exact .bold _ rfl
    | bolder => exact .bolder _ rfl
    | lighter => exact .lighter _ rfl
  have tWidth : f.stretch ≠ .kw .normal → PartText ([f.stretch.print minify] : List (Tok L A)) (f.meaning.part .width) := by
    intro h
    simp only [Meaning.part, Font.meaning]
    rw [hk]
    cases minify with
    | true => exact absurd (by rw [hk, hkm rfl]) h
    | false => exact .width _ k.text _ (width_mem k) (by cases k <;> rfl)
  have tSize : SizeText (f.size.print : Tok L A) f.meaning.size := by
    simp only [Font.meaning]
    cases hs : f.size with
    | len l =>
      simp only [Size.print, Size.meaning]
      split
      · rename_i h0; subst h0; exact .zero
      · exact .len l
    | pct q => exact .pct q
    | abs a => exact .keyword _ _ (size_mem a) (by cases a <;> rfl)
    | smaller => exact .keyword _ _ (by decide) rfl
    | larger => exact .keyword _ _ (by decide) rfl
  have tLine : SlashText ((if f.lineHeight ≠ .normal then [.slash, f.lineHeight.print] else []) : List (Tok L A)) f.meaning.line := by
    simp only [Font.meaning]
    cases hs : f.lineHeight with
    | normal => exact .none
    | num q => exact .slash (.factor q)
    | len l =>
      simp only [LineHeight.print, LineHeight.meaning, ne_eq, reduceCtorEq, not_false_eq_true, if_true]
      split
      · exact .slash (.factor 0)
      · rename_i h; exact .slash (.len l h)
    | pct q => exact .slash (.pct q)
  refine ⟨_, _, _, _, ?_, ⟨_, opt_text (f.style ≠ .normal) tStyle (opt_text (f.caps ≠ .normal) tCaps (opt_text (f.weight ≠ .normal) tWeight
    (opt_text (f.stretch ≠ .kw .normal) tWidth .nil))), opt_kinds _ _ _ _ f.meaning, ?_⟩, tSize, tLine, C141_print_partial idLen f.family hf hn⟩
  · simp only [Font.print, List.append_assoc, List.nil_append]
  · refine opt_mem _ _ _ _ f.meaning ?_ ?_ ?_ ?_
    · intro h; simp only [Meaning.part, Font.meaning, Decidable.not_not.1 h]; rfl
    · intro h; simp only [Meaning.part, Font.meaning, Decidable.not_not.1 h]; rfl
    · intro h; simp only [Meaning.part, Font.meaning, Decidable.not_not.1 h]; rfl
    · intro h; simp only [Meaning.part, Font.meaning, Decidable.not_not.1 h]; rfl

end

/-! ### Cases -/

/-- For the examples. -/
instance : Oblique Nat := ⟨14⟩

/-- A font for the examples. -/
def sample : Font Nat Nat := ⟨[.name cs!"Times New", .generic .serif], .len 12, .oblique 20, .bold, .kw .condensed, .num 2, .smallCaps⟩

example : sample.print false List.length = [.ident cs!"oblique", .angle 20, .ident cs!"small-caps", .ident cs!"bold", .ident cs!"condensed", .len 12, .slash, .num 2,
    .ident cs!"Times", .ident cs!"New", .comma, .ident cs!"serif"] := by decide +kernel
example : Shorthand (sample.print false List.length) sample.meaning :=
  C143_print_partial false _ sample ⟨.condensed, rfl, by simp⟩ (by intro q h; cases h) (.inr rfl) (by decide) (by
    intro n hn
    have : n = cs!"Times New" := by simpa [sample] using hn
    subst this
    exact ⟨by decide, by decide, by unfold word; decide⟩)
example : Font.parse (sample.print false List.length) = some sample := by decide +kernel
example : Font.parse ([.ident cs!"NORMAL", .num 400, .num 0, .str cs!"a"] : List (Tok Nat Nat)) = some ⟨[.name cs!"a"], .len 0, .normal, .num 400, .kw .normal, .normal, .normal⟩ := by
  decide +kernel

theorem partText_single {L A : Type} [Oblique A] {t : List (Tok L A)} {p : Part A} (h : PartText t p) : ∀ q, .pct q ∉ t := by
  cases h <;> simp

theorem partsText_pct {L A : Type} [Oblique A] {t : List (Tok L A)} {ps : List (Part A)} (h : PartsText t ps) : ∀ q, .pct q ∉ t := by
  induction h with
  | nil => simp
  | cons h _ ih => intro q hq; rcases List.mem_append.1 hq with hq | hq
                   · exact partText_single h q hq
                   · exact ih q hq

theorem families_ident {L A : Type} {t : List (Tok L A)} {fs : List FamilyV} (h : FamiliesText t fs) : ∃ a r, t = a :: r ∧ ((∃ s, a = .ident s) ∨ ∃ s, a = .str s) := by
  have one : ∀ {t : List (Tok L A)} {f : FamilyV}, FamilyText t f → ∃ a r, t = a :: r ∧ ((∃ s, a = .ident s) ∨ ∃ s, a = .str s) := by
    intro t f h
    cases h with
    | keyword s k hk hw => exact ⟨_, _, rfl, .inl ⟨s, rfl⟩⟩
    | str s => exact ⟨_, _, rfl, .inr ⟨s, rfl⟩⟩
    | idents ws h0 _ _ =>
      cases ws with
      | nil => exact absurd rfl h0
      | cons w ws => exact ⟨_, _, rfl, .inl ⟨w, rfl⟩⟩
  cases h with
  | one h => exact one h
  | cons h hs => obtain ⟨a, r, rfl, ha⟩ := one h; exact ⟨a, _, rfl, ha⟩

/-- Nothing but a slash or a family can come after a percentage. -/
theorem after_pct {L A : Type} [Zero L] [Oblique A] (q : Rat) (t : Tok L A) (r : List (Tok L A)) (m : Meaning L A) (h : Shorthand (.pct q :: t :: r) m) :
    t = .slash ∨ (∃ s, t = .ident s) ∨ ∃ s, t = .str s := by
  obtain ⟨lead, size, slash, fams, he, ⟨ps, hp, _⟩, _, hs, hf⟩ := h
  cases lead with
  | cons a lead =>
    simp only [List.cons_append, List.cons.injEq] at he
    exact absurd (by rw [← he.1]; simp) (partsText_pct hp q)
  | nil =>
    simp only [List.nil_append, List.cons.injEq] at he
    generalize m.line = ml at hs
    cases hs with
    | none =>
      obtain ⟨a, r', rfl, ha⟩ := families_ident hf
      simp only [List.nil_append, List.cons.injEq] at he
      rw [he.2.1]; exact .inr ha
    | slash h =>
      simp only [List.cons_append, List.nil_append, List.cons.injEq] at he
      exact .inl he.2.1

/-- C143 fails for a `font-stretch` in minified output: `font: expanded 12px a` is written as `font: 125% 12px a`, which no browser accepts, since `font-stretch` in the shorthand is a keyword. -/
theorem C143_stretch_fails : ∃ f : Font Nat Nat, Font.parse [.ident cs!"expanded", .len 12, .ident cs!"a"] = some f ∧
    f.print true List.length = [.pct 125, .len 12, .ident cs!"a"] ∧ ∀ m, ¬Shorthand (f.print true List.length) m := by
  refine ⟨⟨[.name cs!"a"], .len 12, .normal, .normal, .kw .expanded, .normal, .normal⟩, by decide +kernel, by decide +kernel, ?_⟩
  have e : (⟨[.name cs!"a"], .len 12, .normal, .normal, .kw .expanded, .normal, .normal⟩ : Font Nat Nat).print true List.length =
    [.pct 125, .len 12, .ident cs!"a"] := by decide +kernel
  intro m h
  rw [e] at h
  rcases after_pct _ _ _ m h with h | ⟨s, h⟩ | ⟨s, h⟩ <;> cases h

theorem partText_num {L A : Type} [Oblique A] {t : List (Tok L A)} {p : Part A} (h : PartText t p) : ∀ q, .num q ∈ t → 1 ≤ q := by
  cases h with
  | number q h => intro q' hq; simp only [List.mem_singleton, Tok.num.injEq] at hq; rw [hq]; exact h.1
  | _ => simp

theorem partsText_num {L A : Type} [Oblique A] {t : List (Tok L A)} {ps : List (Part A)} (h : PartsText t ps) : ∀ q, .num q ∈ t → 1 ≤ q := by
  induction h with
  | nil => simp
  | cons h _ ih => intro q hq; rcases List.mem_append.1 hq with hq | hq
                   · exact partText_num h q hq
                   · exact ih q hq

/-- C142 fails for the size `0` without a weight: `font: 0 large` (the family `large`) is read as a declaration with the weight 0, and then has no family. -/
theorem C142_zero_fails : ∃ m : Meaning Nat Nat, Shorthand [.num 0, .ident cs!"large"] m ∧ Font.parse ([.num 0, .ident cs!"large"] : List (Tok Nat Nat)) = none := by
  refine ⟨⟨.normal, false, .abs 400, 100, .len 0, .normal, [.name cs!"large"]⟩, ⟨[], .num 0, [], [.ident cs!"large"], rfl, ⟨[], .nil, by simp, ?_⟩, .zero, .none, .one ?_⟩, by decide +kernel⟩
  · intro k; exact .inr ⟨by simp, by cases k <;> rfl⟩
  · exact .idents [cs!"large"] (by simp) (by unfold word; decide) (by intro w hw; simp only [List.cons.injEq, and_true] at hw; subst hw; unfold word; decide)

/-- C142 fails for weights out of range: `font: 2000 1px a` is accepted although it is invalid. -/
theorem C142_weight_fails : ∃ f, Font.parse ([.num 2000, .len 1, .ident cs!"a"] : List (Tok Nat Nat)) = some f ∧
    ∀ m : Meaning Nat Nat, ¬Shorthand ([.num 2000, .len 1, .ident cs!"a"] : List (Tok Nat Nat)) m := by
  refine ⟨⟨[.name cs!"a"], .len 1, .normal, .num 2000, .kw .normal, .normal, .normal⟩, by decide +kernel, ?_⟩
  intro m ⟨lead, size, slash, fams, he, ⟨ps, hp, _⟩, hz, _⟩
  cases hp with
  | nil =>
    simp only [List.nil_append, List.cons.injEq] at he
    rw [← he.1] at hz
    have : (2000 : Rat) = 0 := by
      generalize m.size = ms at hz
      generalize h2 : (Tok.num 2000 : Tok Nat Nat) = t at hz
      cases hz <;> cases h2
    exact absurd this (by decide +kernel)
  | cons h hs =>
    obtain ⟨a, r, rfl, _⟩ := partText_head h
    simp only [List.cons_append, List.cons.injEq] at he
    cases h with
    | number q h =>
      have hq : (2000 : Rat) = q := by have := he.1; injection this
      rw [← hq] at h
      exact absurd h.2 (by decide +kernel)
    | _ => exact absurd he.1 (by simp)

end Verif.Font
