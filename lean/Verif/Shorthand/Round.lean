import Verif.Shorthand.Samples
import Mathlib.Tactic.Choose
/-!
Printing and reading `caret`, `border`, `outline`, `flex-flow`, `flex`, `gap`, `container`.
-/
namespace Verif.Shorthand

/-! ### `caret` -/

theorem ColorOrAuto.parse_ws {C} (color : Codec C) {V} {sem : C → V} (H : ColorLaw color sem) (i) :
    ColorOrAuto.parse color (.ws :: i) = ColorOrAuto.parse color i := by
  simp only [ColorOrAuto.parse, H.skip]; rfl

theorem ColorOrAuto.back {C V} {color : Codec C} {sem : C → V} (H : ColorLaw color sem) (c : ColorOrAuto C) (r) :
    ∃ c', ColorOrAuto.parse color (c.print color ++ r) = some (c', r) ∧ c'.map sem = c.map sem := by
  cases c with
  | auto => exact ⟨.auto, rfl, rfl⟩
  | color c =>
    obtain ⟨c', e, h⟩ := H.back c r
    refine ⟨.color c', ?_, by simp [map, h]⟩
    simp only [parse, print, H.expectIdent_none (k := cs!"auto") (by decide), e]

theorem ColorOrAuto.ends {C V} {color : Codec C} {sem : C → V} (H : ColorLaw color sem) {r} (h : Ends r) :
    ColorOrAuto.parse color r = none := by
  simp only [parse, expectIdent_ends h, H.stop r h]

theorem ColorOrAuto.shape_none {C V} {color : Codec C} {sem : C → V} (H : ColorLaw color sem) (s : CaretShape)
    (hs : s ≠ .auto) (r) : ColorOrAuto.parse color (Kw.print s ++ r) = none := by
  have : color.parse (Kw.print s ++ r) = none := H.no_keyword _ r (by cases s <;> decide)
  simp only [parse, this]
  cases s <;> first | exact absurd rfl hs | rfl

/-- **C63, `caret`**: every value is printed as text that reads back as a value that means the same. -/
theorem C63_caret {C V} [DecidableEq C] (color : Codec C) (sem : C → V) (H : ColorLaw color sem)
    (c : Caret C) (r : List Tok) (hr : Ends r) :
    (∃ c', Caret.parse color (c.print color ++ r) = some (c', r) ∧ c'.map sem = c.map sem) ∧
    Separated (c.print color) := by
  obtain ⟨k, s⟩ := c
  have stop : ∀ t : Option (ColorOrAuto C) × Option CaretShape, Caret.step color t r = (t, r, false) := by
    intro t
    rcases t with ⟨_ | _, _ | _⟩ <;> simp [Caret.step, tryOne, ColorOrAuto.ends H hr, kw_ends hr]
  have shape : ∀ (t : Option (ColorOrAuto C)), s ≠ .auto →
      Caret.step color (t, none) (Kw.print s ++ r) = ((t, some s), r, true) := by
    intro t hs
    rcases t with _ | t <;> simp [Caret.step, tryOne, ColorOrAuto.shape_none H s hs, kw_back]
  have sepc : Separated (k.print color) := by
    cases k with
    | auto => trivial
    | color c => exact H.sep c
  obtain ⟨k', ek, hk⟩ := ColorOrAuto.back H k r
  obtain ⟨k2, ek2, hk2⟩ := ColorOrAuto.back H k (.ws :: (Kw.print s ++ r))
  by_cases h1 : k = .auto <;> by_cases h2 : s = .auto
  · subst h1; subst h2
    refine ⟨⟨⟨k', .auto⟩, ?_, by simp [Caret.map, hk]⟩, by simpa [Caret.print] using sepc⟩
    have := run_reach (step := Caret.step color) (s := (none, none)) (i := ColorOrAuto.auto.print color ++ r)
      (.one (s1 := (some k', none)) (i1 := r) (by simp [Caret.step, tryOne, ek])) (stop _) 3 (by omega)
    simp [Caret.parse, Caret.print, this]
  · subst h1
    refine ⟨⟨⟨.auto, s⟩, ?_, by simp [Caret.map]⟩, by simp [Caret.print, h2, Kw.print, Separated]⟩
    have := run_reach (.one (shape none h2)) (stop _) 3 (by omega)
    simp [Caret.parse, Caret.print, h2, this]
  · subst h2
    refine ⟨⟨⟨k', .auto⟩, ?_, by simp [Caret.map, hk]⟩, by simpa [Caret.print, h1] using sepc⟩
    have := run_reach (step := Caret.step color) (s := (none, none)) (i := k.print color ++ r)
      (.one (s1 := (some k', none)) (i1 := r) (by simp [Caret.step, tryOne, ek])) (stop _) 3 (by omega)
    simp [Caret.parse, Caret.print, h1, this]
  · refine ⟨⟨⟨k2, s⟩, ?_, by simp [Caret.map, hk2]⟩, ?_⟩
    · have e2 : Caret.step color (some k2, none) (.ws :: (Kw.print s ++ r)) = ((some k2, some s), r, true) := by
        simp [Caret.step, tryOne, kw_ws, kw_back]
      have := run_reach (step := Caret.step color) (s := (none, none))
        (i := k.print color ++ .ws :: (Kw.print s ++ r))
        (.step (s1 := (some k2, none)) (by simp [Caret.step, tryOne, ek2]) (.one e2)) (stop _) 3 (by omega)
      simp [Caret.parse, Caret.print, h1, h2, this]
    · simp only [Caret.print, ne_eq, h1, h2, not_false_eq_true, if_true, decide_true, Bool.true_or,
        Bool.not_true, Bool.false_eq_true, if_false, List.append_nil, List.cons_append, List.nil_append]
      exact sep_append_ws sepc (sep_kw s)

/-! ### `border`, `outline` -/

theorem BorderWidth.parse_ws {L V} {length : Codec L} {sem : L → V} (H : Leaf length sem) (i) :
    BorderWidth.parse length (.ws :: i) = BorderWidth.parse length i := by
  simp only [BorderWidth.parse, H.skip]; rfl

theorem BorderWidth.back {L V} {length : Codec L} {sem : L → V} (H : Plain length sem) (w : BorderWidth L) (r) :
    ∃ w', BorderWidth.parse length (w.print length ++ r) = some (w', r) ∧ w'.map sem = w.map sem := by
  cases w with
  | thin => exact ⟨.thin, rfl, rfl⟩
  | medium => exact ⟨.medium, rfl, rfl⟩
  | thick => exact ⟨.thick, rfl, rfl⟩
  | length l =>
    obtain ⟨l', e, h⟩ := H.back l r
    refine ⟨.length l', ?_, by simp [map, h]⟩
    obtain ⟨t, x, et, ht⟩ := H.first l
    simp only [parse, print, e]
    rw [et]
    rcases ht with ⟨s, rfl⟩ | ⟨f, rfl, _⟩ <;> rfl

theorem BorderWidth.ends {L V} {length : Codec L} {sem : L → V} (H : Plain length sem) {r} (h : Ends r) :
    BorderWidth.parse length r = none := by
  simp only [parse, H.stop r h]
  rcases h with rfl | ⟨l, rfl | rfl⟩ <;> rfl

theorem BorderWidth.ident_none {L V} {length : Codec L} {sem : L → V} (H : Plain length sem) {s r}
    (h : lower s ∉ [cs!"thin", cs!"medium", cs!"thick"]) :
    BorderWidth.parse length (.ident s :: r) = none := by
  simp only [List.mem_cons, List.not_mem_nil, or_false, not_or] at h
  simp only [parse, next_ident, H.no_ident, h.1, h.2.1, h.2.2, if_false]

theorem BorderWidth.color_none {L V C W} {length : Codec L} {sem : L → V} (H : Plain length sem)
    {color : Codec C} {csem : C → W} (HC : ColorLaw color csem) (ha : Apart length.parse color) (c r) :
    BorderWidth.parse length (color.print c ++ r) = none := by
  have e := ha c r
  simp only [parse, e]
  obtain ⟨t, x, et, ht⟩ := HC.first c
  rw [et]
  rcases ht with ⟨s, rfl, hs⟩ | ⟨s, rfl⟩ | ⟨f, rfl, _⟩
  · have h1 : lower s ≠ cs!"thin" := fun h => hs (h ▸ by decide)
    have h2 : lower s ≠ cs!"medium" := fun h => hs (h ▸ by decide)
    have h3 : lower s ≠ cs!"thick" := fun h => hs (h ▸ by decide)
    simp only [List.cons_append, next_ident, h1, h2, h3, if_false]
  · rfl
  · rfl

/-- What `border` needs of its style. -/
structure StyleLaw {S C : Type} (style : Codec S) (color : Codec C) : Prop where
  skip : ∀ i, style.parse (.ws :: i) = style.parse i
  back : ∀ a r, style.parse (style.print a ++ r) = some (a, r)
  stop : ∀ r, Ends r → style.parse r = none
  color : ∀ c r, style.parse (color.print c ++ r) = none
  ident : ∀ a, ∃ s, style.print a = [.ident s] ∧ lower s ∉ [cs!"thin", cs!"medium", cs!"thick"]

theorem lineStyle_law {C V} {color : Codec C} {sem : C → V} (H : ColorLaw color sem) :
    StyleLaw lineStyle color where
  skip _ := rfl
  back := kw_back
  stop _ := kw_ends
  color c r := H.kw_none (β := LineStyle) (by intro b _; cases b <;> decide) c r
  ident a := ⟨_, rfl, by cases a <;> decide⟩

theorem outlineStyle_law {C V} {color : Codec C} {sem : C → V} (H : ColorLaw color sem) :
    StyleLaw outlineStyle color where
  skip _ := rfl
  back a r := by
    rcases a with _ | s
    · rfl
    · cases s <;> rfl
  stop r h := by
    simp only [outlineStyle, OutlineStyle.parse, expectIdent_ends h, kw_ends h]
  color c r := by
    simp only [outlineStyle, OutlineStyle.parse, H.expectIdent_none (k := cs!"auto") (by decide),
      H.kw_none (β := LineStyle) (by intro b _; cases b <;> decide)]
  ident a := by
    rcases a with _ | s
    · exact ⟨_, rfl, by decide⟩
    · exact ⟨_, rfl, by cases s <;> decide⟩

theorem border_round {L U S C W} [DecidableEq L] [DecidableEq S] [DecidableEq C] (length : Codec L)
    (style : Codec S) (color : Codec C) (style0 : S) (currentColor : C) (lsem : L → U) (csem : C → W)
    (HL : Plain length lsem) (HS : StyleLaw style color) (HC : ColorLaw color csem)
    (ha : Apart length.parse color) (b : Border L S C) (r : List Tok) (hr : Ends r) :
    (∃ b', Border.parse length style color style0 currentColor
        (b.print length style color style0 currentColor ++ r) = some (b', r) ∧
      b'.map lsem csem = b.map lsem csem) ∧
    Separated (b.print length style color style0 currentColor) := by
  obtain ⟨w, s, c⟩ := b
  choose wb ewb hwb using BorderWidth.back HL w
  choose cb ecb hcb using HC.back c
  have wn : ∀ a x, BorderWidth.parse length (style.print a ++ x) = none := by
    intro a x
    obtain ⟨k, ek, hk⟩ := HS.ident a
    rw [ek]; exact BorderWidth.ident_none HL hk
  have wc := BorderWidth.color_none HL HC ha
  have wr := BorderWidth.ends HL hr
  have cr := HC.stop r hr
  have sr := HS.stop r hr
  have sepw : Separated (w.print length) := by
    cases w <;> first | trivial | exact HL.sep _
  have seps : ∀ a, Separated (style.print a) := by
    intro a
    obtain ⟨k, ek, hk⟩ := HS.ident a
    rw [ek]; trivial
  have sepc := HC.sep c
  by_cases h1 : w = .medium <;> by_cases h2 : s = style0 <;> by_cases h3 : c = currentColor
  · subst h1; subst h2; subst h3
    refine ⟨⟨⟨.medium, s, c⟩, ?_, rfl⟩, by simpa [Border.print] using seps s⟩
    simp [Border.parse, Border.print, run, Border.step, tryOne, wn, HS.back, wr, cr]
  · subst h1; subst h2
    refine ⟨⟨⟨.medium, s, cb r⟩, ?_, by simp [Border.map, hcb]⟩, by simpa [Border.print, h3] using sepc⟩
    simp [Border.parse, Border.print, run, Border.step, tryOne, wc, ecb, wr, HS.color, sr, h3]
  · subst h1; subst h3
    refine ⟨⟨⟨.medium, s, c⟩, ?_, rfl⟩, by simpa [Border.print, h2] using seps s⟩
    simp [Border.parse, Border.print, run, Border.step, tryOne, wn, HS.back, wr, cr, h2]
  · subst h1
    refine ⟨⟨⟨.medium, s, cb r⟩, ?_, by simp [Border.map, hcb]⟩, by
      simpa [Border.print, h2, h3] using sep_append_ws (seps s) sepc⟩
    simp [Border.parse, Border.print, run, Border.step, tryOne, wn, wc, HS.back, HC.skip, ecb, wr,
      BorderWidth.parse_ws HL.toLeaf, h2, h3]
  · subst h2; subst h3
    refine ⟨⟨⟨wb r, s, c⟩, ?_, by simp [Border.map, hwb]⟩, by simpa [Border.print, h1] using sepw⟩
    simp [Border.parse, Border.print, run, Border.step, tryOne, ewb, cr, sr, h1]
  · subst h2
    refine ⟨⟨⟨wb (.ws :: (color.print c ++ r)), s, cb r⟩, ?_, by simp [Border.map, hwb, hcb]⟩, by
      simpa [Border.print, h1, h3] using sep_append_ws sepw sepc⟩
    simp [Border.parse, Border.print, run, Border.step, tryOne, ewb, HS.skip, HS.color, HC.skip, ecb, sr, h1, h3]
  · subst h3
    refine ⟨⟨⟨wb (.ws :: (style.print s ++ r)), s, c⟩, ?_, by simp [Border.map, hwb]⟩, by
      simpa [Border.print, h1, h2] using sep_append_ws sepw (seps s)⟩
    simp [Border.parse, Border.print, run, Border.step, tryOne, ewb, HS.skip, HS.back, cr, h1, h2]
  · refine ⟨⟨⟨wb (.ws :: (style.print s ++ .ws :: (color.print c ++ r))), s, cb r⟩, ?_,
      by simp [Border.map, hwb, hcb]⟩, by
      simpa [Border.print, h1, h2, h3] using sep_append_ws sepw (sep_append_ws (seps s) sepc)⟩
    simp [Border.parse, Border.print, run, Border.step, tryOne, ewb, HS.skip, HS.back, HC.skip, ecb, h1, h2, h3]

/-- **C63, `border` and its sides**: every value is printed as text that reads back as a value that means
the same. -/
theorem C63_border {L U C W} [DecidableEq L] [DecidableEq C] (length : Codec L) (color : Codec C)
    (currentColor : C) (lsem : L → U) (csem : C → W) (HL : Plain length lsem) (HC : ColorLaw color csem)
    (ha : Apart length.parse color) (b : Border L LineStyle C) (r : List Tok) (hr : Ends r) :
    (∃ b', Border.parse length lineStyle color .none currentColor
        (b.print length lineStyle color .none currentColor ++ r) = some (b', r) ∧
      b'.map lsem csem = b.map lsem csem) ∧
    Separated (b.print length lineStyle color .none currentColor) :=
  border_round _ _ _ _ _ _ _ HL (lineStyle_law HC) HC ha b r hr

/-- **C63, `outline`**: every value is printed as text that reads back as a value that means the same. -/
theorem C63_outline {L U C W} [DecidableEq L] [DecidableEq C] (length : Codec L) (color : Codec C)
    (currentColor : C) (lsem : L → U) (csem : C → W) (HL : Plain length lsem) (HC : ColorLaw color csem)
    (ha : Apart length.parse color) (b : Border L OutlineStyle C) (r : List Tok) (hr : Ends r) :
    (∃ b', Border.parse length outlineStyle color (.line .none) currentColor
        (b.print length outlineStyle color (.line .none) currentColor ++ r) = some (b', r) ∧
      b'.map lsem csem = b.map lsem csem) ∧
    Separated (b.print length outlineStyle color (.line .none) currentColor) :=
  border_round _ _ _ _ _ _ _ HL (outlineStyle_law HC) HC ha b r hr

/-! ### `flex-flow`, `flex`, `gap` -/

/-- **C63, `flex-flow`**: every value is printed as text that reads back as the same value. -/
theorem C63_flex_flow (f : FlexFlow) (r : List Tok) (hr : Ends r) :
    FlexFlow.parse (f.print ++ r) = some (f, r) ∧ Separated f.print := by
  obtain ⟨d, w⟩ := f
  rcases hr with rfl | ⟨l, rfl | rfl⟩ <;> cases d <;> cases w <;>
    exact ⟨rfl, by simp [FlexFlow.print, Kw.print, Separated, Sticks]⟩

theorem GapValue.back {T V} {lp : Codec T} {sem : T → V} (H : Plain lp sem) (g : GapValue T) (r) :
    ∃ g', GapValue.parse lp (g.print lp ++ r) = some (g', r) ∧ g'.map sem = g.map sem := by
  cases g with
  | normal => exact ⟨.normal, rfl, rfl⟩
  | length t =>
    obtain ⟨t', e, h⟩ := H.back t r
    refine ⟨.length t', ?_, by simp [map, h]⟩
    simp only [parse, print, H.expectIdent_none, e]

theorem GapValue.parse_ws {T V} {lp : Codec T} {sem : T → V} (H : Leaf lp sem) (i) :
    GapValue.parse lp (.ws :: i) = GapValue.parse lp i := by
  simp only [GapValue.parse, H.skip]; rfl

/-- **C63, `gap`**: every value is printed as text that reads back as a value that means the same. -/
theorem C63_gap {T V} [DecidableEq T] (lp : Codec T) (sem : T → V) (H : Plain lp sem) (g : Gap T)
    (r : List Tok) (hr : Ends r) :
    (∃ g', Gap.parse lp (g.print lp ++ r) = some (g', r) ∧ g'.map sem = g.map sem) ∧
    Separated (g.print lp) := by
  obtain ⟨a, b⟩ := g
  have sep : ∀ a : GapValue T, Separated (a.print lp) := by
    intro a
    cases a with
    | normal => trivial
    | length t => exact H.sep t
  have er : GapValue.parse lp r = none := by
    simp only [GapValue.parse, expectIdent_ends hr, H.stop r hr]
  choose f ef hf using GapValue.back H
  by_cases h : b = a
  · subst h
    exact ⟨⟨⟨f b r, f b r⟩, by simp [Gap.parse, Gap.print, ef, er], by simp [Gap.map, hf]⟩,
      by simpa [Gap.print] using sep b⟩
  · exact ⟨⟨⟨f a (.ws :: (b.print lp ++ r)), f b r⟩, by
      simp [Gap.parse, Gap.print, h, ef, GapValue.parse_ws H.toLeaf], by simp [Gap.map, hf]⟩, by simpa [Gap.print, h] using sep_append_ws (sep a) (sep b)⟩

/-- **C63, `flex`**: every value is printed as text that reads back as a value with the same grow and
shrink factors and the same basis. -/
theorem C63_flex {N L P K U V} [DecidableEq N] (p : FlexParts N L P K) (num : N → U)
    (basis : Basis L P K → V) (H : FlexLaw p num basis) (f : Flex N L P K) (r : List Tok) (hr : Ends r) :
    (∃ f', Flex.parse p (f.print p ++ r) = some (f', r) ∧
      num f'.grow = num f.grow ∧ num f'.shrink = num f.shrink ∧ basis f'.basis = basis f.basis) ∧
    Separated (f.print p) := by
  obtain ⟨g, s, b⟩ := f
  choose nb enb hnb using H.numbers.back
  choose bb ebb hbb using H.bases.back
  have nr := H.numbers.stop r hr
  have br := H.bases.stop r hr
  have nn := H.numbers.expectIdent_none cs!"none"
  have ns := H.numbers.skip
  have bs := H.bases.skip
  by_cases h0 : g = p.zero ∧ s = p.zero ∧ b = .auto
  · obtain ⟨rfl, rfl, rfl⟩ := h0
    exact ⟨⟨_, by simp only [Flex.print, and_self, if_true]; rfl, rfl, rfl, rfl⟩, by
      simp [Flex.print, Separated]⟩
  · have ep : Flex.print p ⟨g, s, b⟩ =
        (if g ≠ p.one ∨ s ≠ p.one ∨ Flex.basisKind p b ≠ .nonZero then
          p.num.print g ++
            if s ≠ p.one ∨ Flex.basisKind p b = .length then .ws :: p.num.print s else []
         else []) ++
        if Flex.basisKind p b ≠ .percentage then
          (if g ≠ p.one ∨ s ≠ p.one ∨ Flex.basisKind p b = .length then [.ws] else []) ++ p.basis.print b
        else [] := by
      rw [Flex.print, if_neg]
      rintro ⟨rfl, rfl, h⟩
      apply h0
      refine ⟨rfl, rfl, ?_⟩
      cases b <;> simp_all
    rw [ep]; clear ep
    cases hk : Flex.basisKind p b with
    | nonZero =>
      have ha : ∀ x, p.num.parse (p.basis.print b ++ x) = none := by
        intro x
        apply H.apart
        rintro l rfl
        simp only [Flex.basisKind] at hk
        split at hk <;> simp_all
      by_cases h1 : g = p.one
      · by_cases h2 : s = p.one
        · subst h1; subst h2
          refine ⟨⟨⟨p.one, p.one, bb b r⟩, ?_, rfl, rfl, hbb _ _⟩, by simpa using H.bases.sep b⟩
          simp [Flex.parse, H.no_none, run, Flex.step, tryOne, ha, ebb, nr]
        · subst h1
          refine ⟨⟨⟨nb p.one (.ws :: (p.num.print s ++ .ws :: (p.basis.print b ++ r))), nb s (.ws :: (p.basis.print b ++ r)), bb b r⟩, ?_, hnb _ _, hnb _ _, hbb _ _⟩, by
            simpa [h2] using sep_append_ws (H.numbers.sep p.one) (sep_append_ws (H.numbers.sep s) (H.bases.sep b))⟩
          · simp [Flex.parse, nn, run, Flex.step, tryOne, ebb, enb, ns, bs, h2]
      · by_cases h2 : s = p.one
        · subst h2
          refine ⟨⟨⟨nb g (.ws :: (p.basis.print b ++ r)), p.one, bb b r⟩, ?_, hnb _ _, rfl, hbb _ _⟩, by
            simpa [h1] using sep_append_ws (H.numbers.sep g) (H.bases.sep b)⟩
          · simp [Flex.parse, nn, run, Flex.step, tryOne, ebb, enb, ns, bs, h1, ha]
        · refine ⟨⟨⟨nb g (.ws :: (p.num.print s ++ .ws :: (p.basis.print b ++ r))), nb s (.ws :: (p.basis.print b ++ r)), bb b r⟩, ?_, hnb _ _, hnb _ _, hbb _ _⟩, by
            simpa [h1, h2] using sep_append_ws (H.numbers.sep g) (sep_append_ws (H.numbers.sep s) (H.bases.sep b))⟩
          · simp [Flex.parse, nn, run, Flex.step, tryOne, ebb, enb, ns, bs, h1, h2]
    | length =>
      refine ⟨⟨⟨nb g (.ws :: (p.num.print s ++ .ws :: (p.basis.print b ++ r))), nb s (.ws :: (p.basis.print b ++ r)), bb b r⟩, ?_, hnb _ _, hnb _ _, hbb _ _⟩, by
        simpa using sep_append_ws (H.numbers.sep g) (sep_append_ws (H.numbers.sep s) (H.bases.sep b))⟩
      · simp [Flex.parse, nn, run, Flex.step, tryOne, ebb, enb, ns, bs]
    | percentage =>
      have eb : basis (.pct p.pct0) = basis b := by
        cases b with
        | pct q =>
          simp only [Flex.basisKind] at hk
          split at hk
          · rename_i h; exact (H.zero q h).symm
          · cases hk
        | dim l => simp only [Flex.basisKind] at hk; split at hk <;> cases hk
        | auto => cases hk
        | math => cases hk
      by_cases h2 : s = p.one
      · subst h2
        refine ⟨⟨⟨nb g r, p.one, .pct p.pct0⟩, ?_, hnb _ _, rfl, eb⟩, by simpa using H.numbers.sep g⟩
        simp [Flex.parse, nn, run, Flex.step, tryOne, enb, nr, br]
      · refine ⟨⟨⟨nb g (.ws :: (p.num.print s ++ r)), nb s r, .pct p.pct0⟩, ?_, hnb _ _, hnb _ _, eb⟩, by
          simpa [h2] using sep_append_ws (H.numbers.sep g) (H.numbers.sep s)⟩
        simp [Flex.parse, nn, run, Flex.step, tryOne, enb, ns, br, h2]

/-! ### `container` -/

theorem parseContainerName_ok {s r} (h : NameOk s) : parseContainerName (.ident s :: r) = some (s, r) := by
  simp only [NameOk, List.mem_cons, List.not_mem_nil, or_false, not_or] at h
  simp [parseContainerName, parseCustomIdent, next_ident, h]

theorem printNames_length (l : List Str) (b) : l.length ≤ (printNames b l).length := by
  induction l generalizing b with
  | nil => simp
  | cons s l ih =>
    have := ih false
    cases b <;> simp [printNames] <;> omega

theorem parseNames_print (l : List Str) (hl : ∀ s ∈ l, NameOk s) (b : Bool) (x : List Tok)
    (hx : parseContainerName x = none) (n : Nat) (hn : l.length < n) :
    parseNames n (printNames b l ++ x) = (l, x) := by
  induction l generalizing b n with
  | nil =>
    obtain ⟨k, rfl⟩ : ∃ k, n = k + 1 := ⟨n - 1, by omega⟩
    simp [parseNames, printNames, hx]
  | cons s l ih =>
    simp only [List.length_cons] at hn
    obtain ⟨k, rfl⟩ : ∃ k, n = k + 1 := ⟨n - 1, by omega⟩
    have e : parseContainerName (printNames b (s :: l) ++ x) = some (s, printNames false l ++ x) := by
      cases b
      · exact parseContainerName_ok (hl s (by simp))
      · exact parseContainerName_ok (hl s (by simp))
    simp only [parseNames, e]
    rw [ih (fun s hs => hl s (by simp [hs])) false k (by omega)]

theorem sep_printNames (l : List Str) (b : Bool) : Separated (printNames b l) := by
  have h : ∀ l : List Str, ∀ s, Separated (.ident s :: printNames false l) := by
    intro l
    induction l with
    | nil => intro s; trivial
    | cons t l ih => intro s; exact ⟨by simp [Sticks], sep_ws_cons.mpr (ih t)⟩
  cases l with
  | nil => trivial
  | cons s l =>
    cases b
    · exact sep_ws_cons.mpr (h l s)
    · exact h l s

theorem ContainerNames.back (c : ContainerNames) (hc : c.Ok) (t : Tok) (x : List Tok)
    (ht : parseContainerName (t :: x) = Option.none) :
    ContainerNames.parse (c.print ++ t :: x) = some (c, t :: x) := by
  cases c with
  | none => rfl
  | names l =>
    obtain ⟨h0, h⟩ := hc
    cases l with
    | nil => exact absurd rfl h0
    | cons s l =>
      have hs := h s (by simp)
      simp only [NameOk, List.mem_cons, List.not_mem_nil, or_false, not_or] at hs
      have e : expectIdent cs!"none" (printNames true (s :: l) ++ t :: x) = Option.none := by
        simp [printNames, expectIdent, next_ident, hs]
      simp only [parse, print, e]
      rw [parseNames_print _ h true _ ht _ (by
        have := printNames_length (s :: l) true
        simp only [List.length_append, List.length_cons] at *
        omega)]

theorem ContainerNames.back_nil (c : ContainerNames) (hc : c.Ok) :
    ContainerNames.parse (c.print ++ []) = some (c, []) := by
  cases c with
  | none => rfl
  | names l =>
    obtain ⟨h0, h⟩ := hc
    cases l with
    | nil => exact absurd rfl h0
    | cons s l =>
      have hs := h s (by simp)
      simp only [NameOk, List.mem_cons, List.not_mem_nil, or_false, not_or] at hs
      have e : expectIdent cs!"none" (printNames true (s :: l) ++ []) = Option.none := by
        simp [printNames, expectIdent, next_ident, hs]
      simp only [parse, print, e]
      cases l with
      | nil =>
        have := parseContainerName_ok (r := []) (h s (by simp))
        simp [printNames, parseNames, this]
      | cons s2 l =>
        rw [parseNames_print _ h true _ rfl _ (by
          have := printNames_length l false
          simp [printNames]
          omega)]

theorem parseContainerName_good {i s r} (h : parseContainerName i = some (s, r)) : NameOk s := by
  simp only [parseContainerName] at h
  split at h
  · rename_i s' r' e
    simp only [parseCustomIdent] at e
    split at e
    · split at e
      · cases e
      · rename_i h1
        split at h
        · cases h
        · rename_i h2
          cases h; cases e
          simp only [List.mem_cons, List.not_mem_nil, or_false, not_or] at h1 h2
          simp [NameOk, h1, h2]
    · cases e
  · cases h

theorem parseNames_good (n i) : ∀ s ∈ (parseNames n i).1, NameOk s := by
  induction n generalizing i with
  | zero => simp [parseNames]
  | succ n ih =>
    simp only [parseNames]
    split
    · rename_i s j e
      intro s' hs'
      simp only [List.mem_cons] at hs'
      rcases hs' with rfl | hs'
      · exact parseContainerName_good e
      · exact ih _ _ hs'
    · simp

/-- **C63, `container`**: every value is printed as text that reads back as the same value, in both
printing modes. -/
theorem C63_container (minify : Bool) (c : Container) (hc : c.name.Ok) (r : List Tok) (hr : Ends r) :
    Container.parse (c.print minify ++ r) = some (c, r) ∧ Separated (c.print minify) := by
  obtain ⟨n, t⟩ := c
  have sepn : Separated n.print := by
    cases n with
    | none => trivial
    | names l => exact sep_printNames l true
  by_cases ht : t = .normal
  · subst ht
    refine ⟨?_, by simpa [Container.print] using sepn⟩
    have e : ContainerNames.parse (n.print ++ r) = some (n, r) := by
      rcases hr with rfl | ⟨l, rfl | rfl⟩
      · exact n.back_nil hc
      · exact n.back hc _ _ rfl
      · exact n.back hc _ _ rfl
    have e2 : expectDelim '/' r = none := by
      rcases hr with rfl | ⟨l, rfl | rfl⟩ <;> rfl
    simp [Container.parse, Container.print, e, e2]
  · cases minify
    · refine ⟨?_, ?_⟩
      · have e : ContainerNames.parse (n.print ++ .ws :: .delim '/' :: .ws :: (Kw.print t ++ r)) =
            some (n, .ws :: .delim '/' :: .ws :: (Kw.print t ++ r)) := n.back hc _ _ rfl
        have e2 : expectDelim '/' (.ws :: .delim '/' :: .ws :: (Kw.print t ++ r)) =
            some (.ws :: (Kw.print t ++ r)) := rfl
        simp [Container.parse, Container.print, ht, printDelim, e, e2, kw_ws, kw_back]
      · simp only [Container.print, ne_eq, ht, not_false_eq_true, if_true, printDelim, Bool.not_false,
          Bool.and_self, Bool.false_eq_true, if_false, List.cons_append, List.nil_append]
        exact sep_append_ws sepn (sep_cons_loose (by simp) (sep_ws_cons.mpr (sep_kw t)))
    · refine ⟨?_, ?_⟩
      · have e : ContainerNames.parse (n.print ++ .delim '/' :: (Kw.print t ++ r)) =
            some (n, .delim '/' :: (Kw.print t ++ r)) := n.back hc _ _ rfl
        have e2 : expectDelim '/' (.delim '/' :: (Kw.print t ++ r)) = some (Kw.print t ++ r) := rfl
        simp [Container.parse, Container.print, ht, printDelim, e, e2, kw_back]
      · simp only [Container.print, ne_eq, ht, not_false_eq_true, if_true, printDelim, Bool.not_true,
          Bool.and_false, Bool.false_eq_true, if_false, List.cons_append, List.nil_append]
        exact sep_append_loose sepn (by simp) (sep_cons_loose (by simp) (sep_kw t))

/-- Every value of `container` that is read from text meets the hypothesis of `C63_container`. -/
theorem C63_container_names (i r : List Tok) (c : Container) (h : Container.parse i = some (c, r)) :
    c.name.Ok := by
  have hn : ∀ n j, ContainerNames.parse i = some (n, j) → n.Ok := by
    intro n j e
    simp only [ContainerNames.parse] at e
    split at e
    · cases e; trivial
    · split at e
      · cases e
      · rename_i l k hl h'
        cases e
        refine ⟨?_, ?_⟩
        · rintro rfl; exact hl rfl
        · have := parseNames_good i.length i
          rw [h'] at this; exact this
  simp only [Container.parse] at h
  split at h
  · cases h
  · rename_i n j e
    have := hn n j e
    split at h
    · split at h
      · cases h; exact this
      · cases h
    · cases h; exact this

/-- A container with two names and a type. -/
example : let c : Container := ⟨.names [cs!"main", cs!"Side"], .inlineSize⟩
    c.name.Ok ∧ c.print true = [.ident cs!"main", .ws, .ident cs!"Side", .delim '/', .ident cs!"inline-size"] ∧
    Container.parse (c.print false) = some (c, []) :=
  ⟨⟨by decide, by decide⟩, by decide, by decide⟩

/-! ### Examples -/

/-- A caret with both parts. -/
example : ColorLaw sampleColor id ∧ (Caret.mk (.color (some cs!"f00")) .bar).print sampleColor =
    [.other cs!"#f00", .ws, .ident cs!"bar"] ∧
    (Caret.mk (.auto : ColorOrAuto (Option Str)) .auto).print sampleColor = [.ident cs!"auto"] :=
  ⟨sampleColor_law, by decide, by decide⟩

/-- A border with all parts, and the initial border. -/
example : Plain (sample 'l') id ∧ ColorLaw sampleColor id ∧ Apart (sample 'l').parse sampleColor ∧
    (Border.mk (.length cs!"2px") LineStyle.solid (some cs!"f00")).print (sample 'l') lineStyle sampleColor .none none =
      [.other cs!"l2px", .ws, .ident cs!"solid", .ws, .other cs!"#f00"] ∧
    (Border.mk (.medium : BorderWidth Str) LineStyle.none (none : Option Str)).print (sample 'l') lineStyle sampleColor
      .none none = [.ident cs!"none"] ∧
    (Border.mk (.thin : BorderWidth Str) OutlineStyle.auto (none : Option Str)).print (sample 'l') outlineStyle
      sampleColor (.line .none) none = [.ident cs!"thin", .ws, .ident cs!"auto"] :=
  ⟨sample_plain _, sampleColor_law, sample_apart _ (by decide), by decide, by decide, by decide⟩

/-- The different ways of printing `flex`. -/
example : FlexLaw sampleFlex id id ∧
    (Flex.mk cs!"0" cs!"0" .auto).print sampleFlex = [.ident cs!"none"] ∧
    (Flex.mk cs!"2" cs!"1" (.pct cs!"0")).print sampleFlex = [.other cs!"n2"] ∧
    (Flex.mk cs!"1" cs!"1" (.dim cs!"0")).print sampleFlex =
      [.other cs!"n1", .ws, .other cs!"n1", .ws, .other cs!"n0"] ∧
    (Flex.mk cs!"1" cs!"1" (.dim cs!"5")).print sampleFlex = [.other cs!"l5"] ∧
    (Flex.mk cs!"2" cs!"1" .auto).print sampleFlex = [.other cs!"n2", .ws, .ident cs!"auto"] :=
  ⟨sampleFlex_law, by decide, by decide, by decide, by decide, by decide⟩

/-- A gap with two parts, and a flow with two parts. -/
example : Plain (sample 'l') id ∧
    (Gap.mk (.length cs!"1px") .normal).print (sample 'l') = [.other cs!"l1px", .ws, .ident cs!"normal"] ∧
    (FlexFlow.mk .columnReverse .wrap).print = [.ident cs!"column-reverse", .ws, .ident cs!"wrap"] :=
  ⟨sample_plain _, by decide, by decide⟩

end Verif.Shorthand
