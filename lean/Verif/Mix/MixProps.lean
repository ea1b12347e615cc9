import Verif.Mix.Hue
/-! `color-mix()`. -/
namespace Verif.Mix

theorem share_add {p q : ℝ} (h : p + q ≠ 0) : share p q + share q p = 1 := by
  unfold share; rw [add_comm q p, ← add_div, div_self h]

theorem mix_eq (s : Space) (m : HueMethod) {p q : ℝ} (x y : Col) :
    mix s m p x q y = (((adjustHue s m (x.fill y) (y.fill (x.fill y))).1.premultiply s).interpolate (share p q)
      ((adjustHue s m (x.fill y) (y.fill (x.fill y))).2.premultiply s) (share q p)).unpremultiply s (min 1 (p + q)) := by
  unfold mix share
  simp only
  split
  · rename_i h; rw [h, add_comm q p, h]; simp
  · rename_i h
    rw [add_comm q p]
    congr 1
    split
    · rw [min_eq_left (by linarith)]
    · rw [min_eq_right (by linarith)]

theorem some_or (x : ℝ) (y : F) : F.or (some x) y = some x := rfl
theorem none_or (y : F) : F.or none y = y := rfl

theorem filled (x y : F) : (x.or y = none ∧ y.or (x.or y) = none ∧ Filled x y none) ∨
    ∃ u v, x.or y = some u ∧ y.or (x.or y) = some v ∧ Filled x y (some (u, v)) := by
  rcases x with _ | x <;> rcases y with _ | y
  · exact .inl ⟨rfl, rfl, .neither⟩
  · exact .inr ⟨y, y, rfl, rfl, .second y⟩
  · exact .inr ⟨x, x, rfl, rfl, .first x⟩
  · exact .inr ⟨x, y, rfl, rfl, .both x y⟩

/-- A component without an opacity. -/
theorem comp_plain {p q : ℝ} (x y : F) : Mixed p q none x y (((x.or y).mul (some (share p q))).add ((y.or (x.or y)).mul (some (share q p)))) := by
  rcases filled x y with ⟨h1, h2, h⟩ | ⟨u, v, h1, h2, h⟩ <;> rw [h2, h1]
  · exact .missing h
  · have := Mixed.plain (p := p) (q := q) h rfl
    simpa [F.add, F.mul, mul_comm] using this

/-- A component with an opacity. -/
theorem comp_weighted {p q s t : ℝ} (x y : F) (h0 : share p q * s + share q p * t ≠ 0) :
    Mixed p q (some (s, t)) x y (((((x.or y).mul (some s)).mul (some (share p q))).add (((y.or (x.or y)).mul (some t)).mul (some (share q p)))).div
      (some (s * share p q + t * share q p))) := by
  rcases filled x y with ⟨h1, h2, h⟩ | ⟨u, v, h1, h2, h⟩ <;> rw [h2, h1]
  · exact .missing h
  · have := Mixed.weighted (p := p) (q := q) h rfl h0
    rw [show s * share p q + t * share q p = share p q * s + share q p * t by ring]
    simp only [F.add, F.mul, F.div, Option.map₂_some_some, Option.bind_some, if_neg h0]
    rw [show u * s * share p q + v * t * share q p = share p q * s * u + share q p * t * v by ring]
    exact this

/-- A component of a transparent mixture, divided or not. -/
theorem comp_transparent {p q s t : ℝ} (x y : F) (h0 : share p q * s + share q p * t = 0) (h1 : share p q * s = 0) (h2 : share q p * t = 0) :
    Mixed p q (some (s, t)) x y ((((x.or y).mul (some s)).mul (some (share p q))).add (((y.or (x.or y)).mul (some t)).mul (some (share q p)))) ∧
    ∀ r, Mixed p q (some (s, t)) x y (F.div r (some (s * share p q + t * share q p))) := by
  refine ⟨.transparent rfl h0 ?_, fun r => .transparent rfl h0 (.inl ?_)⟩
  · rcases filled x y with ⟨h1', h2', h⟩ | ⟨u, v, h1', h2', h⟩ <;> rw [h2', h1']
    · exact .inl rfl
    · refine .inr ?_
      simp only [F.add, F.mul, Option.map₂_some_some, Option.some.injEq]
      rw [mul_assoc u, mul_assoc v, mul_comm s, mul_comm t, h1, h2]; simp
  · rw [show s * share p q + t * share q p = 0 by linarith]
    cases r <;> simp [F.div]

/-- A hue. -/
theorem comp_hue (m : HueMethod) {p q : ℝ} (x y : F) : MixedHue m p q x y
    (((((m.interpolate (x.or y) (y.or (x.or y))).1).mul (some (share p q))).add ((m.interpolate (x.or y) (y.or (x.or y))).2.mul (some (share q p)))).map rem360) := by
  rcases filled x y with ⟨h1, h2, h⟩ | ⟨u, v, h1, h2, h⟩ <;> rw [h2, h1]
  · exact .missing h
  · simp only [HueMethod.interpolate, F.mul, F.add, Option.map₂_some_some, Option.map_some]
    refine .turn h (adjust_fix m u v) ?_ (rem360_abs _)
    rw [mul_comm (share p q), mul_comm (share q p)]
    exact rem360_same _

theorem share_nonneg {p q : ℝ} (hp : 0 ≤ p) (hq : 0 ≤ q) : 0 ≤ share p q := by unfold share; positivity

/-- **C90.** The result of mixing two colors (after conversion to the color space) is the mixture of the specification: missing components are taken from the other color, hues are
mixed after the adjustment, the other components are weighted by opacity and share, and percentages that add up to less than 100% reduce the opacity. -/
theorem C90_mix (s : Space) (m : HueMethod) {p q : ℝ} (x y : Col) (hp : 0 ≤ p) (hq : 0 ≤ q)
    (hx : ∀ t, x.alpha = some t → 0 ≤ t) (hy : ∀ t, y.alpha = some t → 0 ≤ t) : IsMix s m p q x y (mix s m p x q y) := by
  rw [mix_eq]
  rcases filled x.alpha y.alpha with ⟨h1, h2, h⟩ | ⟨u, v, h1, h2, h⟩
  · have h3 := h2; rw [h1] at h3
    refine ⟨none, h, ?_⟩
    cases s <;> simp only [adjustHue, Col.fill, Col.premultiply, h1, h3, Col.interpolate, Col.unpremultiply, F.mul, F.add, Option.map₂_none_left]
    · exact ⟨.missing, comp_plain _ _, comp_plain _ _, comp_plain _ _⟩
    · exact ⟨.missing, comp_plain _ _, comp_plain _ _, comp_hue m _ _⟩
    · exact ⟨.missing, comp_hue m _ _, comp_plain _ _, comp_plain _ _⟩
  · have h3 := h2; rw [h1] at h3
    refine ⟨some (u, v), h, ?_⟩
    have ha : MixedAlpha p q (some (u, v)) (some ((u * share p q + v * share q p) * min 1 (p + q))) := by
      rw [mul_comm u, mul_comm v]; exact .some
    have hu : 0 ≤ u := by
      cases hax : x.alpha with
      | none => rw [hax] at h1; exact hy u h1
      | some t => rw [hax] at h1; cases h1; exact hx u hax
    have hv : 0 ≤ v := by
      cases hay : y.alpha with
      | none => rw [h1, hay, none_or] at h2; cases h2; exact hu
      | some t => rw [hay] at h2; cases h2; exact hy v hay
    by_cases h0 : share p q * u + share q p * v = 0
    · have z1 : 0 ≤ share p q * u := mul_nonneg (share_nonneg hp hq) hu
      have z2 : 0 ≤ share q p * v := mul_nonneg (share_nonneg hq hp) hv
      have e1 : share p q * u = 0 := by linarith
      have e2 : share q p * v = 0 := by linarith
      have e0 : u * share p q + v * share q p = 0 := by linarith
      have ct := fun a b => comp_transparent (p := p) (q := q) a b h0 e1 e2
      cases s <;> simp only [adjustHue, Col.fill, Col.premultiply, h1, h3, Col.interpolate, Col.unpremultiply]
      · simp only [F.mul, F.add, Option.map₂_some_some, if_pos e0]
        refine ⟨?_, (ct _ _).1, (ct _ _).1, (ct _ _).1⟩
        rw [e0, zero_mul] at ha; rw [e0]; exact ha
      · exact ⟨ha, (ct _ _).2 _, (ct _ _).2 _, comp_hue m _ _⟩
      · exact ⟨ha, comp_hue m _ _, (ct _ _).2 _, (ct _ _).2 _⟩
    · have cw := fun a b => comp_weighted (p := p) (q := q) (s := u) (t := v) a b h0
      cases s <;> simp only [adjustHue, Col.fill, Col.premultiply, h1, h3, Col.interpolate, Col.unpremultiply]
      · have e0 : ¬ u * share p q + v * share q p = 0 := by intro e; apply h0; linarith
        simp only [F.mul, F.add, Option.map₂_some_some, if_neg e0]
        exact ⟨ha, cw _ _, cw _ _, cw _ _⟩
      · exact ⟨ha, cw _ _, cw _ _, comp_hue m _ _⟩
      · exact ⟨ha, comp_hue m _ _, cw _ _, cw _ _⟩

/-! ## Percentages -/

/-- **C91 (partial).** Percentages of `color-mix()` that are valid are used as specified, and there is no result exactly if they are both zero. Not covered: percentages outside
of the range from 0% to 100%, which are accepted (`C91_out_of_range`). -/
theorem C91_percentages_partial (f g : Option ℝ) (hf : InRange f) (hg : InRange g) (p q : ℝ) : percentages f g = some (p, q) ↔ Shares f g p q := by
  unfold percentages
  rcases f with _ | a <;> rcases g with _ | b
  · simp
    constructor
    · rintro ⟨rfl, rfl⟩; convert Shares.neither <;> norm_num
    · rintro ⟨⟩; norm_num
  · simp
    constructor
    · rintro ⟨rfl, rfl⟩; exact .second hg
    · rintro ⟨⟩; exact ⟨rfl, rfl⟩
  · simp
    constructor
    · rintro ⟨rfl, rfl⟩; exact .first hf
    · rintro ⟨⟩; exact ⟨rfl, rfl⟩
  · simp
    constructor
    · rintro ⟨h, rfl, rfl⟩; exact .both hf hg h
    · rintro ⟨⟩; rename_i h; exact ⟨h, rfl, rfl⟩

/-- **C91, what goes wrong.** `color-mix(in srgb, red 150%, blue -50%)` is invalid, but a color is computed for it; its red component is 150%. -/
theorem C91_out_of_range : percentages (some (3 / 2)) (some (-1 / 2)) = some (3 / 2, -1 / 2) ∧
    (¬ ∃ p q, Shares (some (3 / 2)) (some (-1 / 2)) p q) ∧
    colorMix (fun c : Col => c) .rect .shorter (.color ⟨some 1, some 0, some 0, some 1⟩) (some (3 / 2)) (.color ⟨some 0, some 0, some 1, some 1⟩) (some (-1 / 2))
      = some (.color ⟨some (3 / 2), some 0, some (-1 / 2), some 1⟩) := by
  have h1 : percentages (some (3 / 2)) (some (-1 / 2)) = some (3 / 2, -1 / 2) := by
    unfold percentages; simp; norm_num
  refine ⟨h1, ?_, ?_⟩
  · rintro ⟨p, q, h⟩
    cases h with
    | both h _ _ => have := (h _ rfl).2; norm_num at this
  · unfold colorMix
    rw [h1]
    simp only [Option.bind_eq_bind, Option.bind_some, Css.interpolate, mix]
    rw [if_pos (by norm_num)]
    simp only [adjustHue, Col.fill, some_or, Col.premultiply, Col.interpolate, Col.unpremultiply, F.mul, F.add, F.div, Option.map₂_some_some]
    norm_num

/-! ## Light and dark -/

/-- **C92.** In the light and in the dark color scheme, the mixture of two colors that may be `light-dark()`, also nested, is the mixture of the colors of that scheme. -/
theorem C92_light_dark {α : Type} (conv : α → Col) (s : Space) (m : HueMethod) (p q : ℝ) (dark : Bool) :
    ∀ {x y : Css α} {z : Css Col}, x.interpolate conv s m p q y = some z →
      ∃ a b, x.resolve dark = some a ∧ y.resolve dark = some b ∧ z.resolve dark = some (mix s m p (conv a) q (conv b))
  | .keyword, _, _, h => by simp [Css.interpolate] at h
  | .color _, .keyword, _, h => by simp [Css.interpolate] at h
  | .lightDark _ _, .keyword, _, h => by simp [Css.interpolate] at h
  | .color x, .color y, z, h => by
    simp only [Css.interpolate, Option.some.injEq] at h; subst h; exact ⟨x, y, rfl, rfl, rfl⟩
  | .color x, .lightDark bl bd, z, h => by
    simp only [Css.interpolate, Option.bind_eq_bind, Option.bind_eq_some_iff, Option.some.injEq] at h
    obtain ⟨l, hl, d, hd, rfl⟩ := h
    cases dark
    · obtain ⟨a, b, h1, h2, h3⟩ := C92_light_dark conv s m p q false hl
      exact ⟨a, b, by simpa [Css.resolve] using h1, by simpa [Css.resolve] using h2, by simpa [Css.resolve] using h3⟩
    · obtain ⟨a, b, h1, h2, h3⟩ := C92_light_dark conv s m p q true hd
      exact ⟨a, b, by simpa [Css.resolve] using h1, by simpa [Css.resolve] using h2, by simpa [Css.resolve] using h3⟩
  | .lightDark al ad, .color y, z, h => by
    simp only [Css.interpolate, Option.bind_eq_bind, Option.bind_eq_some_iff, Option.some.injEq] at h
    obtain ⟨l, hl, d, hd, rfl⟩ := h
    cases dark
    · obtain ⟨a, b, h1, h2, h3⟩ := C92_light_dark conv s m p q false hl
      exact ⟨a, b, by simpa [Css.resolve] using h1, by simpa [Css.resolve] using h2, by simpa [Css.resolve] using h3⟩
    · obtain ⟨a, b, h1, h2, h3⟩ := C92_light_dark conv s m p q true hd
      exact ⟨a, b, by simpa [Css.resolve] using h1, by simpa [Css.resolve] using h2, by simpa [Css.resolve] using h3⟩
  | .lightDark al ad, .lightDark bl bd, z, h => by
    simp only [Css.interpolate, Option.bind_eq_bind, Option.bind_eq_some_iff, Option.some.injEq] at h
    obtain ⟨l, hl, d, hd, rfl⟩ := h
    cases dark
    · obtain ⟨a, b, h1, h2, h3⟩ := C92_light_dark conv s m p q false hl
      exact ⟨a, b, by simpa [Css.resolve] using h1, by simpa [Css.resolve] using h2, by simpa [Css.resolve] using h3⟩
    · obtain ⟨a, b, h1, h2, h3⟩ := C92_light_dark conv s m p q true hd
      exact ⟨a, b, by simpa [Css.resolve] using h1, by simpa [Css.resolve] using h2, by simpa [Css.resolve] using h3⟩

/-- A color without keywords. -/
def Css.Concrete {α : Type} : Css α → Prop
  | .keyword => False
  | .color _ => True
  | .lightDark l d => l.Concrete ∧ d.Concrete

/-- **C92.** Colors without keywords can be mixed. -/
theorem C92_total {α : Type} (conv : α → Col) (s : Space) (m : HueMethod) (p q : ℝ) :
    ∀ {x y : Css α}, x.Concrete → y.Concrete → ∃ z, x.interpolate conv s m p q y = some z
  | .keyword, _, h, _ => h.elim
  | .color _, .keyword, _, h => h.elim
  | .lightDark _ _, .keyword, _, h => h.elim
  | .color x, .color y, _, _ => ⟨.color (mix s m p (conv x) q (conv y)), by simp only [Css.interpolate]⟩
  | .color x, .lightDark bl bd, hx, hy => by
    obtain ⟨l, hl⟩ := C92_total conv s m p q hx hy.1
    obtain ⟨d, hd⟩ := C92_total conv s m p q hx hy.2
    exact ⟨.lightDark l d, by simp only [Css.interpolate, hl, hd]; rfl⟩
  | .lightDark al ad, .color y, hx, hy => by
    obtain ⟨l, hl⟩ := C92_total conv s m p q hx.1 hy
    obtain ⟨d, hd⟩ := C92_total conv s m p q hx.2 hy
    exact ⟨.lightDark l d, by simp only [Css.interpolate, hl, hd]; rfl⟩
  | .lightDark al ad, .lightDark bl bd, hx, hy => by
    obtain ⟨l, hl⟩ := C92_total conv s m p q hx.1 hy.1
    obtain ⟨d, hd⟩ := C92_total conv s m p q hx.2 hy.2
    exact ⟨.lightDark l d, by simp only [Css.interpolate, hl, hd]; rfl⟩

/-- Non-vacuity of C90 and C92: half red and half transparent blue is red with half the opacity; `light-dark(red, blue)` mixed with white is pink in the light and light blue in the dark scheme. -/
example : mix .rect .shorter (1 / 2) ⟨some 1, some 0, some 0, some 1⟩ (1 / 2) ⟨some 0, some 0, some 1, some 0⟩ = ⟨some 1, some 0, some 0, some (1 / 2)⟩ := by
  simp only [mix, adjustHue, Col.fill, some_or, Col.premultiply, Col.interpolate, Col.unpremultiply, F.mul, F.add, F.div, Option.map₂_some_some]
  norm_num

example : ∃ z, (Css.lightDark (.color ⟨some 1, some 0, some 0, some 1⟩) (.color ⟨some 0, some 0, some 1, some 1⟩)).interpolate id .rect .shorter (1 / 2) (1 / 2)
      (.color ⟨some 1, some 1, some 1, some 1⟩) = some z ∧
    z.resolve true = some ⟨some (1 / 2), some (1 / 2), some 1, some 1⟩ := by
  refine ⟨_, by simp only [Css.interpolate]; rfl, ?_⟩
  simp only [Css.resolve, if_true, id, mix, adjustHue, Col.fill, some_or, Col.premultiply, Col.interpolate, Col.unpremultiply, F.mul, F.add, F.div, Option.map₂_some_some]
  norm_num

end Verif.Mix
