import Verif.Shorthand.Round
/-!
The components of a shorthand can be written in any order, and left out.
-/
namespace Verif.Shorthand

/-- Texts with a space between each two. -/
def spaced : List (List Tok) → List Tok
  | [] => []
  | [a] => a
  | a :: l => a ++ .ws :: spaced l

/-- A component of `border`. -/
inductive BorderPart where
  /-- the width -/
  | width
  /-- the style -/
  | style
  /-- the color -/
  | color
  deriving DecidableEq

/-- The text of a component. -/
def BorderPart.text {L S C} (length : Codec L) (style : Codec S) (color : Codec C) (b : Border L S C) :
    BorderPart → List Tok
  | .width => b.width.print length
  | .style => style.print b.style
  | .color => color.print b.color

set_option linter.unusedSimpArgs false in
theorem border_order {L U S C W} (length : Codec L)
    (style : Codec S) (color : Codec C) (style0 : S) (currentColor : C) (lsem : L → U) (csem : C → W)
    (HL : Plain length lsem) (HS : StyleLaw style color) (HC : ColorLaw color csem)
    (hs : ∀ a r, color.parse (style.print a ++ r) = none) (hcw : ∀ w r, color.parse (BorderWidth.print length w ++ r) = none)
    (hsw : ∀ w r, style.parse (BorderWidth.print length w ++ r) = none)
    (ha : Apart length.parse color) (b : Border L S C) (ks : List BorderPart) (hne : ks ≠ []) (hks : ks.Nodup)
    (r : List Tok) (hr : Ends r) :
    ∃ b', Border.parse length style color style0 currentColor
        (spaced (ks.map (BorderPart.text length style color b)) ++ r) = some (b', r) ∧
      b'.width.map lsem = (if .width ∈ ks then b.width.map lsem else .medium) ∧
      b'.style = (if .style ∈ ks then b.style else style0) ∧
      csem b'.color = csem (if .color ∈ ks then b.color else currentColor) := by
  obtain ⟨w, s, c⟩ := b
  choose wb ewb hwb using BorderWidth.back HL w
  choose cb ecb hcb using HC.back c
  have wn : ∀ a x, BorderWidth.parse length (style.print a ++ x) = none := by
    intro a x
    obtain ⟨k, ek, hk⟩ := HS.ident a
    rw [ek]; exact BorderWidth.ident_none HL hk
  have wc := BorderWidth.color_none HL HC ha
  have wr := BorderWidth.ends HL hr
  have cr := HC.stop r hr
  have sr := HS.stop r hr
  have wws := BorderWidth.parse_ws HL.toLeaf
  have md : (BorderWidth.medium : BorderWidth L).map lsem = .medium := rfl
  match ks, hks with
  | [], _ => exact absurd rfl hne
  | [a], _ =>
    cases a <;> simp [spaced, BorderPart.text, Border.parse, run, Border.step, tryOne, ewb, ecb, wn, wc, wr, cr, sr,
      HS.back, HS.color, hs, hwb, hcb, md]
  | [a, a'], h =>
    cases a <;> cases a' <;> simp at h <;> simp [spaced, BorderPart.text, Border.parse, run, Border.step, tryOne, ewb, ecb, wn, wc, wr, cr, sr,
      HS.back, HS.color, HS.skip, HC.skip, wws, hs, hcw, hsw, hwb, hcb, md]
  | [a, a', a''], h =>
    cases a <;> cases a' <;> cases a'' <;> simp at h <;> simp [spaced, BorderPart.text, Border.parse, run, Border.step, tryOne, ewb, ecb, wn, wc, wr, cr, sr,
      HS.back, HS.color, HS.skip, HC.skip, wws, hs, hcw, hsw, hwb, hcb, md]
  | a :: a' :: a'' :: a''' :: _, h =>
    cases a <;> cases a' <;> cases a'' <;> cases a''' <;> simp at h

theorem BorderWidth.print_cases {L U} {length : Codec L} {lsem : L → U} (HL : Plain length lsem) (w : BorderWidth L) :
    (∃ s, w.print length = [.ident s] ∧ s ∈ [cs!"thin", cs!"medium", cs!"thick"]) ∨
    ∃ t l, w.print length = t :: l ∧ ((∃ s, t = .other s) ∨ ∃ f, t = .func f) := by
  cases w with
  | thin => exact .inl ⟨_, rfl, by decide⟩
  | medium => exact .inl ⟨_, rfl, by decide⟩
  | thick => exact .inl ⟨_, rfl, by decide⟩
  | length l =>
    obtain ⟨t, x, e, h⟩ := HL.first l
    exact .inr ⟨t, x, e, h.imp id (fun ⟨f, e, _⟩ => ⟨f, e⟩)⟩

/-- **C67, `border`**: the width, the style and the color can be written in any order, and each can be left out;
what is left out has its initial value (`medium`, `none`, `currentcolor`). Colors are not read where a length is
printed. -/
theorem C67_border_order {L U C W} (length : Codec L) (color : Codec C) (currentColor : C) (lsem : L → U) (csem : C → W)
    (HL : Plain length lsem) (HC : ColorLaw color csem) (ha : Apart length.parse color) (ha' : Apart color.parse length)
    (b : Border L LineStyle C) (ks : List BorderPart) (hne : ks ≠ []) (hks : ks.Nodup) (r : List Tok) (hr : Ends r) :
    ∃ b', Border.parse length lineStyle color .none currentColor
        (spaced (ks.map (BorderPart.text length lineStyle color b)) ++ r) = some (b', r) ∧
      b'.width.map lsem = (if .width ∈ ks then b.width.map lsem else .medium) ∧
      b'.style = (if .style ∈ ks then b.style else .none) ∧
      csem b'.color = csem (if .color ∈ ks then b.color else currentColor) := by
  refine border_order _ _ _ _ _ lsem _ HL (lineStyle_law HC) HC ?_ ?_ ?_ ha b ks hne hks r hr
  · intro a r; exact HC.kw a (by cases a <;> decide) r
  · intro w r
    cases w with
    | length l => exact ha' l r
    | _ => exact HC.no_keyword _ _ (by decide)
  · intro w r
    rcases BorderWidth.print_cases HL w with ⟨s, e, h⟩ | ⟨t, l, e, ⟨s, rfl⟩ | ⟨f, rfl⟩⟩
    · rw [e]
      simp only [List.mem_cons, List.not_mem_nil, or_false] at h
      rcases h with rfl | rfl | rfl <;> rfl
    · rw [e]; rfl
    · rw [e]; rfl

/-- `border: #fff 1px` has all that is assumed. -/
example : Apart (sample 'l').parse sampleColor ∧ Apart sampleColor.parse (sample 'l') ∧
    ([.color, .width] : List BorderPart).Nodup ∧
    Border.parse (sample 'l') lineStyle sampleColor .none none
      (spaced ([.color, .width].map (BorderPart.text (sample 'l') lineStyle sampleColor
        ⟨.length cs!"1px", .solid, some cs!"fff"⟩))) = some (⟨.length cs!"1px", .none, some cs!"fff"⟩, []) :=
  ⟨sample_apart _ (by decide), fun _ _ => rfl, by decide, rfl⟩

/-- **C67, `flex-flow`**: the direction and the wrapping can be written in either order, and each can be left out. -/
theorem C67_flex_flow_order (f : FlexFlow) (r : List Tok) (hr : Ends r) :
    FlexFlow.parse (Kw.print f.direction ++ .ws :: (Kw.print f.wrap ++ r)) = some (f, r) ∧
    FlexFlow.parse (Kw.print f.wrap ++ .ws :: (Kw.print f.direction ++ r)) = some (f, r) ∧
    FlexFlow.parse (Kw.print f.direction ++ r) = some (⟨f.direction, .nowrap⟩, r) ∧
    FlexFlow.parse (Kw.print f.wrap ++ r) = some (⟨.row, f.wrap⟩, r) := by
  obtain ⟨d, w⟩ := f
  rcases hr with rfl | ⟨l, rfl | rfl⟩ <;> cases d <;> cases w <;> exact ⟨rfl, rfl, rfl, rfl⟩

/-- `flex-flow: wrap column`. -/
example : FlexFlow.parse [.ident cs!"wrap", .ws, .ident cs!"column"] = some (⟨.column, .wrap⟩, []) := rfl

end Verif.Shorthand
