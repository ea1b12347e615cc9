import Verif.Mix.Hue
/-!
# Properties C93–C95: conversions between RGB, HSL and HWB, and between Lab and LCH
-/
namespace Verif.Mix

/-! ## HSL and HWB to RGB -/

theorem hueToRgb_rise (m1 m2 : ℝ) {y : ℝ} (h0 : 0 ≤ y) (h1 : y ≤ 1 / 2) : hueToRgb m1 m2 y = m1 + (m2 - m1) * y * 2 := by
  unfold hueToRgb
  simp only [not_lt.mpr h0, if_false, not_lt.mpr (show y ≤ 3 by linarith)]
  split_ifs with h2 h3
  · rfl
  · have : y = 1 / 2 := by linarith
    subst this; ring
  · linarith
  · linarith

theorem hueToRgb_top (m1 m2 : ℝ) {y : ℝ} (h0 : 1 / 2 ≤ y) (h1 : y ≤ 3 / 2) : hueToRgb m1 m2 y = m2 := by
  unfold hueToRgb
  simp only [not_lt.mpr (show 0 ≤ y by linarith), if_false, not_lt.mpr (show y ≤ 3 by linarith)]
  split_ifs with h2 h3 h4
  · linarith
  · rfl
  · have : y = 3 / 2 := by linarith
    subst this; ring
  · linarith

theorem hueToRgb_fall (m1 m2 : ℝ) {y : ℝ} (h0 : 3 / 2 ≤ y) (h1 : y ≤ 2) : hueToRgb m1 m2 y = m1 + (m2 - m1) * (2 - y) * 2 := by
  unfold hueToRgb
  simp only [not_lt.mpr (show 0 ≤ y by linarith), if_false, not_lt.mpr (show y ≤ 3 by linarith)]
  split_ifs with h2 h3 h4
  · linarith
  · linarith
  · rfl
  · have : y = 2 := by linarith
    subst this; ring

theorem hueToRgb_bottom (m1 m2 : ℝ) {y : ℝ} (h0 : 2 ≤ y) (h1 : y ≤ 3) : hueToRgb m1 m2 y = m1 := by
  unfold hueToRgb
  simp only [not_lt.mpr (show 0 ≤ y by linarith), if_false, not_lt.mpr h1]
  split_ifs with h2 h3 h4
  · linarith
  · linarith
  · linarith
  · rfl

theorem hueToRgb_below (m1 m2 : ℝ) {y : ℝ} (h0 : -1 ≤ y) (h1 : y < 0) : hueToRgb m1 m2 y = hueToRgb m1 m2 (y + 3) := by
  simp only [hueToRgb, h1, if_true, not_lt.mpr (show 0 ≤ y + 3 by linarith), if_false]

theorem hueToRgb_above (m1 m2 : ℝ) {y : ℝ} (h0 : 3 ≤ y) (h1 : y ≤ 4) : hueToRgb m1 m2 y = hueToRgb m1 m2 (y - 3) := by
  rcases h0.eq_or_lt with h | h
  · subst h
    rw [hueToRgb_bottom _ _ (by norm_num) le_rfl, hueToRgb_rise _ _ (by norm_num) (by norm_num)]; ring
  · unfold hueToRgb
    simp only [gt_iff_lt, h, if_true, not_lt.mpr (show 0 ≤ y by linarith), if_false, not_lt.mpr (show 0 ≤ y - 3 by linarith), not_lt.mpr (show y - 3 ≤ 3 by linarith)]

/-- The ramp of `hueToRgb` is the one of the specification. -/
theorem hueToRgb_ramp (l a : ℝ) {y k : ℝ} (hy : -1 ≤ y) (hy' : y ≤ 4) (k0 : 0 ≤ k) (k1 : k < 12) (j : ℤ) (hk : k = 4 * (y - 1) + 12 * j) :
    hueToRgb (l - a) (l + a) y = l - a * max (-1) (min (min (k - 3) (9 - k)) 1) := by
  -- reduce to 0 ≤ y < 3
  have main : ∀ y : ℝ, 0 ≤ y → y ≤ 3 → ∀ j : ℤ, k = 4 * (y - 1) + 12 * j → hueToRgb (l - a) (l + a) y = l - a * max (-1) (min (min (k - 3) (9 - k)) 1) := by
    intro y hy hy' j hk
    have hj : j = 0 ∨ j = 1 := by
      have h1 : (-1 : ℝ) < j := by linarith
      have h2 : (j : ℝ) < 2 := by linarith
      have h1' : (-1 : ℤ) < j := by exact_mod_cast h1
      have h2' : j < 2 := by exact_mod_cast h2
      omega
    rcases le_total y (1 / 2) with h | h
    · rcases hj with rfl | rfl
      · norm_num at hk; linarith
      · rw [hueToRgb_rise _ _ hy h]
        norm_num at hk
        rw [min_eq_right (a := k - 3) (by linarith), min_eq_left (by linarith), max_eq_right (by linarith), hk]; ring
    · rcases le_total y (3 / 2) with h' | h'
      · rw [hueToRgb_top _ _ h h']
        have : max (-1) (min (min (k - 3) (9 - k)) 1) = -1 := by
          apply max_eq_left
          apply min_le_of_left_le
          rcases hj with rfl | rfl
          · norm_num at hk; apply min_le_of_left_le; linarith
          · norm_num at hk; apply min_le_of_right_le; linarith
        rw [this]; ring
      · have : j = 0 := by
          rcases hj with rfl | rfl
          · rfl
          · norm_num at hk; linarith
        subst this
        norm_num at hk
        rcases le_total y 2 with h2 | h2
        · rw [hueToRgb_fall _ _ h' h2]
          rw [min_eq_left (a := k - 3) (by linarith), min_eq_left (by linarith), max_eq_right (by linarith), hk]; ring
        · rw [hueToRgb_bottom _ _ h2 hy']
          rw [min_eq_right (a := min (k - 3) (9 - k)) (le_min (by linarith) (by linarith)), max_eq_right (by norm_num)]; ring
  rcases lt_or_ge y 0 with h | h
  · rw [hueToRgb_below _ _ hy h]
    refine main (y + 3) (by linarith) (by linarith) (j - 1) ?_
    push_cast; linarith
  · rcases lt_or_ge 3 y with h' | h'
    · rw [hueToRgb_above _ _ h'.le hy']
      refine main (y - 3) (by linarith) (by linarith) (j + 1) ?_
      push_cast; linarith
    · exact main y h h' j hk

theorem hslToRgb_levels (h s l : ℝ) : hslToRgb h s l =
    ⟨hueToRgb (l - s * min l (1 - l)) (l + s * min l (1 - l)) (h * 3 + 1), hueToRgb (l - s * min l (1 - l)) (l + s * min l (1 - l)) (h * 3),
      hueToRgb (l - s * min l (1 - l)) (l + s * min l (1 - l)) (h * 3 - 1)⟩ := by
  have h2 : (if l ≤ 1 / 2 then l * (s + 1) else l + s - l * s) = l + s * min l (1 - l) := by
    split_ifs with h
    · rw [min_eq_left (by linarith)]; ring
    · rw [min_eq_right (by linarith)]; ring
  have h1 : l * 2 - (l + s * min l (1 - l)) = l - s * min l (1 - l) := by ring
  simp only [hslToRgb, h2, h1]

/-- The hue as a part of a turn. -/
theorem turn_range (h : ℝ) : 0 ≤ (h - 360 * ⌊h / 360⌋) / 360 ∧ (h - 360 * ⌊h / 360⌋) / 360 < 1 := by
  have h1 := Int.floor_le (h / 360)
  have h2 := Int.lt_floor_add_one (h / 360)
  constructor
  · apply div_nonneg _ (by norm_num); linarith
  · rw [div_lt_one (by norm_num)]; linarith

/-- **C93.** The color of `hsl()` is computed as in CSS Color 4, for every hue, also outside of 0 to 360 degrees, every saturation and every lightness. -/
theorem C93_hsl (h s l : ℝ) : srgbOfHsl h s l = hslColor h s l := by
  obtain ⟨t0, t1⟩ := turn_range h
  unfold srgbOfHsl hslColor hslChannel
  rw [hslToRgb_levels]
  set t := (h - 360 * ⌊h / 360⌋) / 360 with ht
  have hh : h = 360 * t + 360 * ⌊h / 360⌋ := by rw [ht]; ring
  have kr : ∀ n : ℝ, 0 ≤ (n + h / 30) - 12 * ⌊(n + h / 30) / 12⌋ ∧ (n + h / 30) - 12 * ⌊(n + h / 30) / 12⌋ < 12 := by
    intro n
    have h1 := Int.floor_le ((n + h / 30) / 12)
    have h2 := Int.lt_floor_add_one ((n + h / 30) / 12)
    constructor <;> linarith
  congr 1
  · exact hueToRgb_ramp _ _ (by linarith) (by linarith) (kr 0).1 (kr 0).2 (⌊h / 360⌋ - ⌊(0 + h / 30) / 12⌋) (by push_cast; linarith)
  · exact hueToRgb_ramp _ _ (by linarith) (by linarith) (kr 8).1 (kr 8).2 (⌊h / 360⌋ - ⌊(8 + h / 30) / 12⌋ + 1) (by push_cast; linarith)
  · exact hueToRgb_ramp _ _ (by linarith) (by linarith) (kr 4).1 (kr 4).2 (⌊h / 360⌋ - ⌊(4 + h / 30) / 12⌋ + 1) (by push_cast; linarith)

/-- **C93.** The color of `hwb()` is computed as in CSS Color 4. -/
theorem C93_hwb (h w b : ℝ) : srgbOfHwb h w b = hwbColor h w b := by
  unfold srgbOfHwb hwbColor
  have e : w / 100 / (w / 100 + b / 100) = w / (w + b) := by
    rw [← add_div, div_div_div_cancel_right₀ (by norm_num)]
  by_cases hc : 100 ≤ w + b
  · rw [if_pos (by linarith), if_pos hc]; simp only [e]
  · rw [if_neg (by linarith), if_neg hc]; simp only [C93_hsl]

/-- Non-vacuity of C93: `hsl(-120deg 100% 25%)` is `rgb(0 0 50%)`. -/
example : hslColor (-120) 100 25 = ⟨0, 0, 1 / 2⟩ := by
  rw [← C93_hsl]
  have f : ⌊(-120 : ℝ) / 360⌋ = -1 := by rw [Int.floor_eq_iff]; norm_num
  unfold srgbOfHsl
  rw [f]
  norm_num [hslToRgb, hueToRgb]

/-! ## RGB to HSL and HWB, and back -/

theorem srgbOfHsl_six (h s l : ℝ) (h0 : 0 ≤ h) (h6 : h < 6) (d : ℝ) (hd : s / 100 * min (l / 100) (1 - l / 100) = d) :
    srgbOfHsl (h * 60) s l = ⟨hueToRgb (l / 100 - d) (l / 100 + d) (h / 2 + 1), hueToRgb (l / 100 - d) (l / 100 + d) (h / 2), hueToRgb (l / 100 - d) (l / 100 + d) (h / 2 - 1)⟩ := by
  have f : ⌊h * 60 / 360⌋ = 0 := by rw [Int.floor_eq_zero_iff]; constructor <;> linarith
  unfold srgbOfHsl
  rw [hslToRgb_levels, f, hd]
  have e : (h * 60 - 360 * ((0 : ℤ) : ℝ)) / 360 * 3 = h / 2 := by push_cast; ring
  rw [e]

/-- The hue of a color that is not gray. -/
theorem hue_levels {r g b mx mn h : ℝ} (hmx : mx = max (max r g) b) (hmn : mn = min (min r g) b) (hd : mx - mn ≠ 0)
    (hh : h = if mx = r then (g - b) / (mx - mn) + (if g < b then 6 else 0) else if mx = g then (b - r) / (mx - mn) + 2 else (r - g) / (mx - mn) + 4) :
    0 ≤ h ∧ h < 6 ∧ hueToRgb mn mx (h / 2 + 1) = r ∧ hueToRgb mn mx (h / 2) = g ∧ hueToRgb mn mx (h / 2 - 1) = b := by
  have r1 : r ≤ mx := by rw [hmx]; exact le_max_of_le_left (le_max_left _ _)
  have g1 : g ≤ mx := by rw [hmx]; exact le_max_of_le_left (le_max_right _ _)
  have b1 : b ≤ mx := by rw [hmx]; exact le_max_right _ _
  have r0 : mn ≤ r := by rw [hmn]; exact min_le_of_left_le (min_le_left _ _)
  have g0 : mn ≤ g := by rw [hmn]; exact min_le_of_left_le (min_le_right _ _)
  have b0 : mn ≤ b := by rw [hmn]; exact min_le_right _ _
  have imn : mn = r ∨ mn = g ∨ mn = b := by
    rw [hmn]
    rcases min_choice (min r g) b with h | h <;> rw [h]
    · rcases min_choice r g with h | h <;> rw [h] <;> simp
    · simp
  have imx : mx = r ∨ mx = g ∨ mx = b := by
    rw [hmx]
    rcases max_choice (max r g) b with h | h <;> rw [h]
    · rcases max_choice r g with h | h <;> rw [h] <;> simp
    · simp
  have dpos : 0 < mx - mn := lt_of_le_of_ne (by linarith) (Ne.symm hd)
  have u : ∀ x, x / (mx - mn) ≤ 1 ↔ x ≤ mx - mn := fun x => by rw [div_le_one dpos]
  have v : ∀ x, (mx - mn) * (x / (mx - mn)) = x := fun x => by field_simp
  clear hmx hmn
  by_cases c1 : mx = r
  · rw [if_pos c1] at hh
    subst c1
    by_cases c2 : g < b
    · rw [if_pos c2] at hh
      have eg : mn = g := by rcases imn with h | h | h <;> linarith
      subst eg
      set x := (mn - b) / (mx - mn) with hx
      have x0 : x < 0 := by rw [hx]; apply div_neg_of_neg_of_pos <;> linarith
      have x1 : -1 ≤ x := by rw [hx, le_div_iff₀ dpos]; linarith
      have vx := v (mn - b); rw [← hx] at vx
      refine ⟨by linarith, by linarith, ?_, ?_, ?_⟩
      · rw [hueToRgb_above _ _ (by linarith) (by linarith), hueToRgb_top _ _ (by linarith) (by linarith)]
      · rw [hueToRgb_bottom _ _ (by linarith) (by linarith)]
      · rw [hueToRgb_fall _ _ (by linarith) (by linarith), hh]; linear_combination -vx
    · rw [if_neg c2] at hh
      have eb : mn = b := by rcases imn with h | h | h <;> linarith
      subst eb
      set x := (g - mn) / (mx - mn) with hx
      have x0 : 0 ≤ x := by rw [hx]; apply div_nonneg <;> linarith
      have x1 : x ≤ 1 := by rw [hx, u]; linarith
      have vx := v (g - mn); rw [← hx] at vx
      refine ⟨by linarith, by linarith, ?_, ?_, ?_⟩
      · rw [hueToRgb_top _ _ (by linarith) (by linarith)]
      · rw [hueToRgb_rise _ _ (by linarith) (by linarith), hh]; linear_combination vx
      · rcases lt_or_ge (h / 2 - 1) 0 with hn | hn
        · rw [hueToRgb_below _ _ (by linarith) hn, hueToRgb_bottom _ _ (by linarith) (by linarith)]
        · linarith
  · rw [if_neg c1] at hh
    by_cases c2 : mx = g
    · rw [if_pos c2] at hh
      subst c2
      set x := (b - r) / (mx - mn) with hx
      have vx := v (b - r); rw [← hx] at vx
      have x1 : x ≤ 1 := by rw [hx, u]; linarith
      have x1' : -1 ≤ x := by rw [hx, le_div_iff₀ dpos]; linarith
      rcases le_total b r with c3 | c3
      · have eb : mn = b := by rcases imn with h | h | h <;> linarith
        subst eb
        have x0 : x ≤ 0 := by rw [hx]; apply div_nonpos_of_nonpos_of_nonneg <;> linarith
        refine ⟨by linarith, by linarith, ?_, ?_, ?_⟩
        · rw [hueToRgb_fall _ _ (by linarith) (by linarith), hh]; linear_combination -vx
        · rw [hueToRgb_top _ _ (by linarith) (by linarith)]
        · rcases lt_or_ge (h / 2 - 1) 0 with hn | hn
          · rw [hueToRgb_below _ _ (by linarith) hn, hueToRgb_bottom _ _ (by linarith) (by linarith)]
          · have e0 : h / 2 - 1 = 0 := by linarith
            rw [e0, hueToRgb_rise _ _ le_rfl (by norm_num)]; ring
      · have eb : mn = r := by rcases imn with h | h | h <;> linarith
        subst eb
        have x0 : 0 ≤ x := by rw [hx]; apply div_nonneg <;> linarith
        refine ⟨by linarith, by linarith, ?_, ?_, ?_⟩
        · rw [hueToRgb_bottom _ _ (by linarith) (by linarith)]
        · rw [hueToRgb_top _ _ (by linarith) (by linarith)]
        · rw [hueToRgb_rise _ _ (by linarith) (by linarith), hh]; linear_combination vx
    · rw [if_neg c2] at hh
      have c3 : mx = b := by rcases imx with h | h | h <;> [exact absurd h c1; exact absurd h c2; exact h]
      subst c3
      set x := (r - g) / (mx - mn) with hx
      have vx := v (r - g); rw [← hx] at vx
      have x1 : x ≤ 1 := by rw [hx, u]; linarith
      have x1' : -1 ≤ x := by rw [hx, le_div_iff₀ dpos]; linarith
      rcases le_total g r with c3 | c3
      · have eb : mn = g := by rcases imn with h | h | h <;> linarith
        subst eb
        have x0 : 0 ≤ x := by rw [hx]; apply div_nonneg <;> linarith
        refine ⟨by linarith, by linarith, ?_, ?_, ?_⟩
        · rw [hueToRgb_above _ _ (by linarith) (by linarith), hueToRgb_rise _ _ (by linarith) (by linarith), hh]; linear_combination vx
        · rw [hueToRgb_bottom _ _ (by linarith) (by linarith)]
        · rw [hueToRgb_top _ _ (by linarith) (by linarith)]
      · have eb : mn = r := by rcases imn with h | h | h <;> linarith
        subst eb
        have x0 : x ≤ 0 := by rw [hx]; apply div_nonpos_of_nonpos_of_nonneg <;> linarith
        refine ⟨by linarith, by linarith, ?_, ?_, ?_⟩
        · rw [hueToRgb_bottom _ _ (by linarith) (by linarith)]
        · rw [hueToRgb_fall _ _ (by linarith) (by linarith), hh]; linear_combination -vx
        · rw [hueToRgb_top _ _ (by linarith) (by linarith)]

/-- A color of the sRGB gamut. -/
def InGamut (r g b : ℝ) : Prop := (0 ≤ r ∧ r ≤ 1) ∧ (0 ≤ g ∧ g ≤ 1) ∧ (0 ≤ b ∧ b ≤ 1)

theorem levels_range {r g b : ℝ} (h : InGamut r g b) : 0 ≤ min (min r g) b ∧ min (min r g) b ≤ max (max r g) b ∧ max (max r g) b ≤ 1 := by
  obtain ⟨⟨r0, r1⟩, ⟨g0, g1⟩, b0, b1⟩ := h
  refine ⟨le_min (le_min r0 g0) b0, (min_le_right _ _).trans (le_max_right _ _), max_le (max_le r1 g1) b1⟩

theorem gray {r g b : ℝ} (h : max (max r g) b - min (min r g) b = 0) : r = max (max r g) b ∧ g = max (max r g) b ∧ b = max (max r g) b := by
  have r1 : r ≤ max (max r g) b := le_max_of_le_left (le_max_left _ _)
  have g1 : g ≤ max (max r g) b := le_max_of_le_left (le_max_right _ _)
  have b1 : b ≤ max (max r g) b := le_max_right _ _
  have r0 : min (min r g) b ≤ r := min_le_of_left_le (min_le_left _ _)
  have g0 : min (min r g) b ≤ g := min_le_of_left_le (min_le_right _ _)
  have b0 : min (min r g) b ≤ b := min_le_right _ _
  refine ⟨?_, ?_, ?_⟩ <;> linarith

theorem hueToRgb_flat (m y : ℝ) : hueToRgb m m y = m := by
  unfold hueToRgb
  simp

/-- **C94.** Converting a color of the sRGB gamut to HSL and back gives the same color. The hue of a gray, which is missing, can be any. -/
theorem C94_hsl {r g b : ℝ} (hg : InGamut r g b) (hue : ℝ) : srgbOfHsl ((hslOfSrgb r g b).1.getD hue) (hslOfSrgb r g b).2.1 (hslOfSrgb r g b).2.2 = ⟨r, g, b⟩ := by
  obtain ⟨m0, mm, m1⟩ := levels_range hg
  by_cases hd : max (max r g) b - min (min r g) b = 0
  · obtain ⟨e1, e2, e3⟩ := gray hd
    unfold hslOfSrgb
    simp only [hd, if_true, srgbOfHsl, hslToRgb_levels, zero_mul, zero_div, sub_zero, add_zero, hueToRgb_flat]
    have : (min (min r g) b + max (max r g) b) / 2 * 100 / 100 = max (max r g) b := by linarith
    rw [this, ← e1]
    congr 1 <;> linarith
  · unfold hslOfSrgb
    simp only [hd, if_false, Option.getD_some]
    obtain ⟨a1, a2, a3, a4, a5⟩ := hue_levels rfl rfl hd rfl
    set mx := max (max r g) b
    set mn := min (min r g) b
    have dpos : 0 < mx - mn := lt_of_le_of_ne (by linarith) (Ne.symm hd)
    have l01 : ¬ ((mn + mx) / 2 = 0 ∨ (mn + mx) / 2 = 1) := by
      rintro (h | h) <;> linarith
    have lpos : 0 < min ((mn + mx) / 2) (1 - (mn + mx) / 2) := lt_min (by linarith) (by linarith)
    rw [if_neg l01, srgbOfHsl_six _ _ _ a1 a2 ((mx - mn) / 2)]
    · rw [mul_div_cancel_right₀ _ (by norm_num : (100 : ℝ) ≠ 0)]
      have e1 : (mn + mx) / 2 - (mx - mn) / 2 = mn := by ring
      have e2 : (mn + mx) / 2 + (mx - mn) / 2 = mx := by ring
      rw [e1, e2, a3, a4, a5]
    · rw [mul_div_cancel_right₀ _ (by norm_num : (100 : ℝ) ≠ 0), mul_div_cancel_right₀ _ (by norm_num : (100 : ℝ) ≠ 0), div_mul_cancel₀ _ lpos.ne']
      ring

/-- **C94.** The hue in HSL of a color that is not gray is at least 0 and less than 360 degrees; saturation and lightness are percentages from 0 to 100. -/
theorem C94_hsl_range {r g b : ℝ} (hg : InGamut r g b) : (∀ h, (hslOfSrgb r g b).1 = some h → 0 ≤ h ∧ h < 360) ∧ ((hslOfSrgb r g b).1 = none ↔ r = g ∧ g = b) ∧
    (0 ≤ (hslOfSrgb r g b).2.1 ∧ (hslOfSrgb r g b).2.1 ≤ 100) ∧ 0 ≤ (hslOfSrgb r g b).2.2 ∧ (hslOfSrgb r g b).2.2 ≤ 100 := by
  obtain ⟨m0, mm, m1⟩ := levels_range hg
  by_cases hd : max (max r g) b - min (min r g) b = 0
  · obtain ⟨e1, e2, e3⟩ := gray hd
    have e : r = g ∧ g = b := ⟨e1.trans e2.symm, e2.trans e3.symm⟩
    unfold hslOfSrgb
    simp only [hd, if_true]
    refine ⟨fun h hh => by simp at hh, by simp [e], by norm_num, by linarith, by linarith⟩
  · have ne : ¬ (r = g ∧ g = b) := by
      rintro ⟨rfl, rfl⟩; apply hd; simp
    unfold hslOfSrgb
    simp only [hd, if_false]
    obtain ⟨a1, a2, -⟩ := hue_levels (r := r) (g := g) (b := b) rfl rfl hd rfl
    refine ⟨fun h hh => ?_, by simp [ne], ?_, by linarith, by linarith⟩
    · simp only [Option.some.injEq] at hh
      rw [← hh]
      constructor <;> linarith
    · set mx := max (max r g) b
      set mn := min (min r g) b
      have dpos : 0 < mx - mn := lt_of_le_of_ne (by linarith) (Ne.symm hd)
      have l01 : ¬ ((mn + mx) / 2 = 0 ∨ (mn + mx) / 2 = 1) := by
        rintro (h | h) <;> linarith
      have lpos : 0 < min ((mn + mx) / 2) (1 - (mn + mx) / 2) := lt_min (by linarith) (by linarith)
      rw [if_neg l01]
      constructor
      · have : 0 ≤ (mx - (mn + mx) / 2) / min ((mn + mx) / 2) (1 - (mn + mx) / 2) := div_nonneg (by linarith) lpos.le
        linarith
      · have : (mx - (mn + mx) / 2) / min ((mn + mx) / 2) (1 - (mn + mx) / 2) ≤ 1 := by
          rw [div_le_one lpos]; exact le_min (by linarith) (by linarith)
        linarith

/-- **C94.** Converting a color of the sRGB gamut to HWB and back gives the same color. -/
theorem C94_hwb {r g b : ℝ} (hg : InGamut r g b) (hue : ℝ) : srgbOfHwb ((hwbOfSrgb r g b).1.getD hue) (hwbOfSrgb r g b).2.1 (hwbOfSrgb r g b).2.2 = ⟨r, g, b⟩ := by
  obtain ⟨m0, mm, m1⟩ := levels_range hg
  by_cases hd : max (max r g) b - min (min r g) b = 0
  · obtain ⟨e1, e2, e3⟩ := gray hd
    unfold hwbOfSrgb srgbOfHwb
    simp only
    set mx := max (max r g) b
    set mn := min (min r g) b
    rw [if_pos (by linarith)]
    have : mn * 100 / 100 / (mn * 100 / 100 + (1 - mx) * 100 / 100) = mx := by
      rw [mul_div_cancel_right₀ _ (by norm_num : (100 : ℝ) ≠ 0), mul_div_cancel_right₀ _ (by norm_num : (100 : ℝ) ≠ 0)]
      have : mn + (1 - mx) = 1 := by linarith
      rw [this]; linarith
    rw [this]
    congr 1 <;> linarith
  · unfold hwbOfSrgb hslOfSrgb srgbOfHwb
    simp only [hd, if_false, Option.getD_some]
    obtain ⟨a1, a2, a3, a4, a5⟩ := hue_levels rfl rfl hd rfl
    set mx := max (max r g) b
    set mn := min (min r g) b
    have dpos : 0 < mx - mn := lt_of_le_of_ne (by linarith) (Ne.symm hd)
    rw [mul_div_cancel_right₀ _ (by norm_num : (100 : ℝ) ≠ 0), mul_div_cancel_right₀ _ (by norm_num : (100 : ℝ) ≠ 0), if_neg (by linarith),
      srgbOfHsl_six _ _ _ a1 a2 (1 / 2) (by norm_num)]
    have lin : ∀ y, hueToRgb (50 / 100 - 1 / 2) (50 / 100 + 1 / 2) y * (1 - mn - (1 - mx)) + mn = hueToRgb mn mx y := by
      intro y
      unfold hueToRgb
      simp only
      split_ifs <;> ring
    simp only [lin, a3, a4, a5]

/-- Non-vacuity of C94: `rgb(20% 60% 40%)` is `hsl(150 50% 40%)`. -/
example : InGamut (1 / 5) (3 / 5) (2 / 5) ∧ hslOfSrgb (1 / 5) (3 / 5) (2 / 5) = (some 150, 50, 40) ∧ hwbOfSrgb (1 / 5) (3 / 5) (2 / 5) = (some 150, 20, 40) := by
  have m1 : max (max (1 / 5 : ℝ) (3 / 5)) (2 / 5) = 3 / 5 := by norm_num [max_def]
  have m2 : min (min (1 / 5 : ℝ) (3 / 5)) (2 / 5) = 1 / 5 := by norm_num [min_def]
  refine ⟨by unfold InGamut; norm_num, ?_, ?_⟩
  · unfold hslOfSrgb
    simp only [m1, m2]
    norm_num [min_def]
  · unfold hwbOfSrgb hslOfSrgb
    simp only [m1, m2]
    norm_num

/-! ## Lab and LCH -/

theorem polar_angle {x y : ℝ} (h : SameAngle x y) : Real.cos (x * Real.pi / 180) = Real.cos (y * Real.pi / 180) ∧ Real.sin (x * Real.pi / 180) = Real.sin (y * Real.pi / 180) := by
  obtain ⟨k, rfl⟩ := h
  have e : (y + 360 * k) * Real.pi / 180 = y * Real.pi / 180 + k * (2 * Real.pi) := by ring
  rw [e]
  exact ⟨Real.cos_add_int_mul_two_pi _ _, Real.sin_add_int_mul_two_pi _ _⟩

theorem toPolar_hue (a b : ℝ) : SameAngle (toPolar a b).2 (Complex.arg ⟨a, b⟩ * 180 / Real.pi) ∧ 0 ≤ (toPolar a b).2 ∧ (toPolar a b).2 < 360 := by
  unfold toPolar atan2
  set θ := Complex.arg ⟨a, b⟩ * 180 / Real.pi with hθ
  have l1 : -180 < θ := by
    have := Complex.neg_pi_lt_arg ⟨a, b⟩
    rw [hθ, lt_div_iff₀ Real.pi_pos]; linarith
  simp only
  have key : ∀ x, SameAngle x θ → 0 ≤ x → SameAngle (rem360 x) θ ∧ 0 ≤ rem360 x ∧ rem360 x < 360 := by
    intro x hx hx0
    refine ⟨?_, rem360_nonneg hx0⟩
    obtain ⟨j, hj⟩ := rem360_same x
    obtain ⟨k, hk⟩ := hx
    exact ⟨j + k, by rw [hj, hk]; push_cast; ring⟩
  split_ifs with h
  · exact key _ ⟨1, by push_cast; ring⟩ (by linarith)
  · exact key _ ⟨0, by simp⟩ (not_lt.mp h)

/-- **C95.** Converting a color from Lab (or Oklab) to LCH (or Oklch) and back gives the same color. -/
theorem C95_lab (a b : ℝ) : toRect (toPolar a b).1 (toPolar a b).2 = (a, b) := by
  obtain ⟨h, -⟩ := toPolar_hue a b
  obtain ⟨hc, hs⟩ := polar_angle h
  unfold toRect
  rw [hc, hs]
  have e : Complex.arg ⟨a, b⟩ * 180 / Real.pi * Real.pi / 180 = Complex.arg ⟨a, b⟩ := by
    field_simp
  have n : (toPolar a b).1 = ‖(⟨a, b⟩ : ℂ)‖ := by
    unfold toPolar
    simp only [Complex.norm_def, Complex.normSq_mk]
    congr 1; ring
  rw [e, n]
  ext
  · exact Complex.norm_mul_cos_arg ⟨a, b⟩
  · exact Complex.norm_mul_sin_arg ⟨a, b⟩

/-- **C95.** The chroma is not negative, and the hue is at least 0 and less than 360 degrees. -/
theorem C95_range (a b : ℝ) : 0 ≤ (toPolar a b).1 ∧ 0 ≤ (toPolar a b).2 ∧ (toPolar a b).2 < 360 :=
  ⟨Real.sqrt_nonneg _, (toPolar_hue a b).2⟩

/-- **C95.** Converting a color from LCH to Lab and back gives the same color, if it is not gray and the hue is at least 0 and less than 360 degrees. -/
theorem C95_lch {c h : ℝ} (hc : 0 < c) (h0 : 0 ≤ h) (h1 : h < 360) : toPolar (toRect c h).1 (toRect c h).2 = (c, h) := by
  have hr := C95_lab (toRect c h).1 (toRect c h).2
  obtain ⟨p0, p1, p2⟩ := C95_range (toRect c h).1 (toRect c h).2
  obtain ⟨sa, -⟩ := toPolar_hue (toRect c h).1 (toRect c h).2
  have n : (toPolar (toRect c h).1 (toRect c h).2).1 = c := by
    unfold toPolar toRect
    simp only
    have : (c * Real.cos (h * Real.pi / 180)) ^ 2 + (c * Real.sin (h * Real.pi / 180)) ^ 2 = c ^ 2 := by
      rw [mul_pow, mul_pow, ← mul_add, Real.cos_sq_add_sin_sq, mul_one]
    rw [this, Real.sqrt_sq hc.le]
  have arg : SameAngle (Complex.arg ⟨(toRect c h).1, (toRect c h).2⟩ * 180 / Real.pi) h := by
    have e : (⟨(toRect c h).1, (toRect c h).2⟩ : ℂ) = c * (Complex.cos (h * Real.pi / 180 : ℝ) + Complex.sin (h * Real.pi / 180 : ℝ) * Complex.I) := by
      apply Complex.ext <;> simp [toRect, ← Complex.ofReal_cos, ← Complex.ofReal_sin, -Complex.ofReal_div, -Complex.ofReal_mul]
    rw [e, Complex.arg_mul_cos_add_sin_mul_I_eq_toIocMod hc]
    rw [toIocMod]
    refine ⟨- toIocDiv Real.two_pi_pos (-Real.pi) (h * Real.pi / 180), ?_⟩
    simp only [zsmul_eq_mul]
    push_cast
    field_simp
    ring
  obtain ⟨j, hj⟩ := sa
  obtain ⟨k, hk⟩ := arg
  have hjk : j + k = 0 := by
    have e : (toPolar (toRect c h).1 (toRect c h).2).2 = h + 360 * ((j + k : ℤ) : ℝ) := by rw [hj, hk]; push_cast; ring
    have u1 : ((j + k : ℤ) : ℝ) < 1 := by rw [e] at p2; linarith
    have u2 : (-1 : ℝ) < ((j + k : ℤ) : ℝ) := by rw [e] at p1; linarith
    have u1' : j + k < 1 := by exact_mod_cast u1
    have u2' : -1 < j + k := by exact_mod_cast u2
    omega
  refine Prod.ext n ?_
  rw [hj, hk]
  have : ((j : ℝ) + k) = 0 := by exact_mod_cast hjk
  linear_combination 360 * this

/-- Non-vacuity of C95: `lch(50 20 90deg)` is `lab(50 0 20)`. -/
example : toRect 20 90 = (0, 20) ∧ toPolar 0 20 = (20, 90) := by
  have h : toRect 20 90 = (0, 20) := by
    unfold toRect
    have : (90 : ℝ) * Real.pi / 180 = Real.pi / 2 := by ring
    rw [this]; simp
  refine ⟨h, ?_⟩
  have := C95_lch (c := 20) (h := 90) (by norm_num) (by norm_num) (by norm_num)
  rwa [h] at this

end Verif.Mix
