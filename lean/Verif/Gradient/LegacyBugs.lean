import Verif.Gradient.Legacy
/-! Prefixed linear gradients: cases, and cases in which what is printed is not what was written. -/
namespace Verif.Gradient
open Transform (Env lengthPct Arg LP Ang lpVal parseLP radians angle)
open Position (HSide VSide)

theorem len_right : lineLength unitBox ⟨1, 0⟩ = 1 := by simp [lineLength, unitBox]
theorem len_left : lineLength unitBox ⟨-1, 0⟩ = 1 := by simp [lineLength, unitBox]
theorem place_right (x y : ℝ) : place unitBox ⟨1, 0⟩ x y = x := by simp [place, len_right]; simp [unitBox]
theorem place_left (x y : ℝ) : place unitBox ⟨-1, 0⟩ x y = 1 - x := by simp [place, len_left]; simp [unitBox]; ring

/-- `red 0%, blue 100%`. -/
def redBlue : List Seg := [[.color 0, pctTok 0], [.color 1, pctTok 1]]
/-- `blue 0%, red 100%` as it is printed when `redBlue` is turned around. -/
noncomputable def blueRed : List Seg := [[.color 1, pctTok (1 - 1)], [.color 0, pctTok (1 - 0)]]

/-- The items of `redBlue`. -/
noncomputable def redBlueItems : List (Item LP) := twoItems 0 1 0 1

theorem parse_redBlue : parseItems lpOps redBlue = some redBlueItems := rfl
theorem print_redBlue (dp : Bool) : printItems lpOps dp redBlueItems = redBlue := print_two (by decide) dp
theorem flip_redBlue (dp : Bool) : printItems lpOps dp (redBlueItems.reverse.map flipItem) = blueRed := by
  have : redBlueItems.reverse.map flipItem = twoItems 1 0 (1 - 1) (1 - 0) := by simp [redBlueItems, twoItems, flipItem]
  rw [this]; exact print_two (by decide) dp

/-- The colour of `redBlue` on a line of length one. -/
theorem colour_redBlue {t : ℝ} {p : numbers.Paint} (h0 : 0 < t) (h1 : t < 1) :
    Colour numbers false 1 [⟨none, 0, some (0 * 1)⟩, ⟨none, 1, some (1 * 1)⟩] t p ↔ p = numbers.mix 0 1 t := by
  rw [colour_two (by simp) (by norm_num)]
  constructor
  · rintro (⟨h, _⟩ | ⟨h, _⟩ | ⟨_, _, h⟩)
    · norm_num at h; linarith
    · norm_num at h; linarith
    · rw [h]; simp [weight]
  · rintro rfl
    exact .inr (.inr ⟨by simpa using h0, by simpa using h1, by simp [weight]⟩)

theorem colour_blueRed {t : ℝ} {p : numbers.Paint} (h0 : 0 < t) (h1 : t < 1) :
    Colour numbers false 1 [⟨none, 1, some ((1 - 1) * 1)⟩, ⟨none, 0, some ((1 - 0) * 1)⟩] t p ↔ p = numbers.mix 1 0 t := by
  rw [colour_two (by simp) (by norm_num)]
  constructor
  · rintro (⟨h, _⟩ | ⟨h, _⟩ | ⟨_, _, h⟩)
    · norm_num at h; linarith
    · norm_num at h; linarith
    · rw [h]; simp [weight]
  · rintro rfl
    exact .inr (.inr ⟨by simpa using h0, by simpa using h1, by simp [weight]⟩)

/-- The colours of `redBlue` in the box of one by one pixel, for the two syntaxes and a direction. -/
theorem legacy_redBlue {s : Seg} {d : Vec} (h : IsLegacyDir unitBox s d) (hl : lineLength unitBox d = 1) {x y : ℝ} {p : numbers.Paint}
    (h0 : 0 < place unitBox d x y) (h1 : place unitBox d x y < 1) :
    LegacyColour numbers unitBox false (s :: redBlue) x y p ↔ p = numbers.mix 0 1 (place unitBox d x y) := by
  unfold redBlue; rw [legacyColour_iff (.dir h (stops_two 0 1)), hl, colour_redBlue h0 h1]

theorem linear_redBlue {s : Seg} {d : Vec} (h : IsDir unitBox s d) (hl : lineLength unitBox d = 1) {x y : ℝ} {p : numbers.Paint}
    (h0 : 0 < place unitBox d x y) (h1 : place unitBox d x y < 1) :
    LinearColour numbers unitBox false (s :: redBlue) x y p ↔ p = numbers.mix 0 1 (place unitBox d x y) := by
  unfold redBlue; rw [linearColour_iff (.dir h (stops_two 0 1)), hl, colour_redBlue h0 h1]

theorem legacy_redBlue' {x y : ℝ} {p : numbers.Paint} (h0 : 0 < y) (h1 : y < 1) :
    LegacyColour numbers unitBox false redBlue x y p ↔ p = numbers.mix 0 1 y := by
  unfold redBlue
  rw [legacyColour_iff (.default (stops_two 0 1)), len_down, place_down, colour_redBlue h0 h1]

theorem linear_redBlue' {x y : ℝ} {p : numbers.Paint} (h0 : 0 < y) (h1 : y < 1) :
    LinearColour numbers unitBox false redBlue x y p ↔ p = numbers.mix 0 1 y := by
  unfold redBlue
  rw [linearColour_iff (.default (stops_two 0 1)), len_down, place_down, colour_redBlue h0 h1]

theorem legacy_blueRed' {x y : ℝ} {p : numbers.Paint} (h0 : 0 < y) (h1 : y < 1) :
    LegacyColour numbers unitBox false blueRed x y p ↔ p = numbers.mix 1 0 y := by
  unfold blueRed
  rw [legacyColour_iff (.default (stops_two 1 0)), len_down, place_down, colour_blueRed h0 h1]

theorem safe_deg {m : Bool} {v : ℝ} (h : v ≠ 180) (h' : v ≠ 0) : Safe m (.angle (.deg v)) := by
  refine ⟨h, fun _ => ⟨h', ?_, ?_⟩⟩ <;> intro _ h <;> cases h

/-- Non-vacuity of `C83_prefixed_partial`: `-webkit-linear-gradient(90deg, red 0%, blue 100%)` is kept; its first quarter from the bottom is a quarter blue. -/
example (m dp : Bool) : ∃ g, parseLinear true ([.pos (.arg (.ang (.deg 90)))] :: redBlue) = some g ∧
    g.print m dp = [.pos (.arg (.ang (.deg 90)))] :: redBlue ∧
    LegacyColour numbers unitBox false ([.pos (.arg (.ang (.deg 90)))] :: redBlue) 0 (3 / 4) (numbers.mix 0 1 (1 / 4)) := by
  refine ⟨⟨true, .angle (.deg 90), redBlueItems⟩, rfl, ?_, ?_⟩
  · rw [print_safe (safe_deg (by norm_num) (by norm_num)) rfl,
      print_redBlue]
    rw [show (Dir.angle (.deg 90)).print m true = [.pos (.arg (Ang.print (.deg 90)))] from rfl]
    simp [Ang.print]
  · have hv : vecOf (Real.pi / 2 - 90 / 360 * (2 * Real.pi)) = ⟨0, -1⟩ := by
      rw [show Real.pi / 2 - 90 / 360 * (2 * Real.pi) = 0 by ring]; simp [vecOf]
    have hd : IsLegacyDir unitBox [.pos (.arg (.ang (.deg 90)))] ⟨0, -1⟩ := by rw [← hv]; exact .angle rfl
    rw [legacy_redBlue hd len_up (by rw [place_up]; norm_num) (by rw [place_up]; norm_num), place_up]
    norm_num

theorem mix_ne {a b : ℝ} (h : a ≠ b) : ¬ numbers.mix 0 1 a = numbers.mix 0 1 b := by simpa [numbers] using h

/-- **C83, what goes wrong.** `-webkit-linear-gradient(bottom, red 0%, blue 100%)`, which is red at the bottom, is printed without its direction. -/
theorem C83_bottom (m dp : Bool) : ∃ g, parseLinear true ([.pos (.kw .bottom)] :: redBlue) = some g ∧ g.print m dp = redBlue ∧
    ∃ p, LegacyColour numbers unitBox false ([.pos (.kw .bottom)] :: redBlue) 0 (1 / 4) p ∧ ¬ LegacyColour numbers unitBox false redBlue 0 (1 / 4) p := by
  refine ⟨⟨true, .vertical .bottom, redBlueItems⟩, rfl, ?_, numbers.mix 0 1 (3 / 4), ?_, ?_⟩
  · unfold Linear.print; rw [if_pos (by rfl), print_redBlue]
  · rw [legacy_redBlue .bottom len_up (by rw [place_up]; norm_num) (by rw [place_up]; norm_num), place_up]; norm_num
  · rw [legacy_redBlue' (by norm_num) (by norm_num)]; exact mix_ne (by norm_num)

/-- **C83, what goes wrong.** `-webkit-linear-gradient(left, red 0%, blue 100%)`, which is red at the left, is minified to
`-webkit-linear-gradient(270deg, red 0%, blue 100%)`, which is red at the top. -/
theorem C83_minified_sides (dp : Bool) : ∃ g, parseLinear true ([.pos (.kw .left)] :: redBlue) = some g ∧
    g.print true dp = [.pos (.arg (.ang (.deg 270)))] :: redBlue ∧
    ∃ p, LegacyColour numbers unitBox false ([.pos (.kw .left)] :: redBlue) (1 / 4) (3 / 4) p ∧
      ¬ LegacyColour numbers unitBox false ([.pos (.arg (.ang (.deg 270)))] :: redBlue) (1 / 4) (3 / 4) p := by
  refine ⟨⟨true, .horizontal .left, redBlueItems⟩, rfl, ?_, numbers.mix 0 1 (1 / 4), ?_, ?_⟩
  · unfold Linear.print
    rw [if_neg (by simp [Dir.degrees]; norm_num), if_neg (by simp [Dir.degrees]), if_neg (by simp [isBottom]), print_redBlue]
    simp [Dir.print]
  · rw [legacy_redBlue .left len_right (by rw [place_right]; norm_num) (by rw [place_right]; norm_num), place_right]
  · have hv : vecOf (Real.pi / 2 - 270 / 360 * (2 * Real.pi)) = ⟨0, 1⟩ := by
      rw [show Real.pi / 2 - 270 / 360 * (2 * Real.pi) = -Real.pi by ring]; simp [vecOf]
    have hd : IsLegacyDir unitBox [.pos (.arg (.ang (.deg 270)))] ⟨0, 1⟩ := by rw [← hv]; exact .angle rfl
    rw [legacy_redBlue hd len_down (by rw [place_down]; norm_num) (by rw [place_down]; norm_num), place_down]
    exact mix_ne (by norm_num)

/-- **C83, what goes wrong.** `-webkit-linear-gradient(top, red 0%, blue 100%)` is minified to `-webkit-linear-gradient(blue 0%, red 100%)`. -/
theorem C83_minified_top (dp : Bool) : ∃ g, parseLinear true ([.pos (.kw .top)] :: redBlue) = some g ∧ g.print true dp = blueRed ∧
    ∃ p, LegacyColour numbers unitBox false ([.pos (.kw .top)] :: redBlue) 0 (1 / 4) p ∧ ¬ LegacyColour numbers unitBox false blueRed 0 (1 / 4) p := by
  refine ⟨⟨true, .vertical .top, redBlueItems⟩, rfl, ?_, numbers.mix 0 1 (1 / 4), ?_, ?_⟩
  · unfold Linear.print
    rw [if_neg (by simp [Dir.degrees]), if_pos (by simp [Dir.degrees, redBlueItems, twoItems, percentages]), flip_redBlue]
  · rw [legacy_redBlue .top len_down (by rw [place_down]; norm_num) (by rw [place_down]; norm_num), place_down]
  · rw [legacy_blueRed' (by norm_num) (by norm_num), numbers.symm]; simp [numbers]; norm_num

/-- **C83, what goes wrong.** `-webkit-linear-gradient(180deg, red 0%, blue 100%)`, which is red at the right, is printed without its direction. -/
theorem C83_180 (m dp : Bool) : ∃ g, parseLinear true ([.pos (.arg (.ang (.deg 180)))] :: redBlue) = some g ∧ g.print m dp = redBlue ∧
    ∃ p, LegacyColour numbers unitBox false ([.pos (.arg (.ang (.deg 180)))] :: redBlue) (1 / 4) (1 / 4) p ∧
      ¬ LegacyColour numbers unitBox false redBlue (1 / 4) (1 / 4) p := by
  refine ⟨⟨true, .angle (.deg 180), redBlueItems⟩, rfl, ?_, numbers.mix 0 1 (3 / 4), ?_, ?_⟩
  · unfold Linear.print; rw [if_pos (by rfl), print_redBlue]
  · have hv : vecOf (Real.pi / 2 - 180 / 360 * (2 * Real.pi)) = ⟨-1, 0⟩ := by
      rw [show Real.pi / 2 - 180 / 360 * (2 * Real.pi) = -(Real.pi / 2) by ring]; simp [vecOf]
    have hd : IsLegacyDir unitBox [.pos (.arg (.ang (.deg 180)))] ⟨-1, 0⟩ := by rw [← hv]; exact .angle rfl
    rw [legacy_redBlue hd len_left (by rw [place_left]; norm_num) (by rw [place_left]; norm_num), place_left]; norm_num
  · rw [legacy_redBlue' (by norm_num) (by norm_num)]; exact mix_ne (by norm_num)

/-- **C83, what goes wrong.** `-webkit-linear-gradient(0deg, red 0%, blue 100%)`, which is red at the left, is minified to
`-webkit-linear-gradient(blue 0%, red 100%)`. -/
theorem C83_0 (dp : Bool) : ∃ g, parseLinear true ([.pos (.arg (.ang (.deg 0)))] :: redBlue) = some g ∧ g.print true dp = blueRed ∧
    ∃ p, LegacyColour numbers unitBox false ([.pos (.arg (.ang (.deg 0)))] :: redBlue) (1 / 4) (1 / 4) p ∧
      ¬ LegacyColour numbers unitBox false blueRed (1 / 4) (1 / 4) p := by
  refine ⟨⟨true, .angle (.deg 0), redBlueItems⟩, rfl, ?_, numbers.mix 0 1 (1 / 4), ?_, ?_⟩
  · unfold Linear.print
    rw [if_neg (by simp [Dir.degrees, toDegrees]), if_pos (by simp [Dir.degrees, toDegrees, redBlueItems, twoItems, percentages]), flip_redBlue]
  · have hv : vecOf (Real.pi / 2 - 0 / 360 * (2 * Real.pi)) = ⟨1, 0⟩ := by simp [vecOf]
    have hd : IsLegacyDir unitBox [.pos (.arg (.ang (.deg 0)))] ⟨1, 0⟩ := by rw [← hv]; exact .angle rfl
    rw [legacy_redBlue hd len_right (by rw [place_right]; norm_num) (by rw [place_right]; norm_num), place_right]
  · rw [legacy_blueRed' (by norm_num) (by norm_num), numbers.symm]; simp [numbers]; norm_num

/-- **C83, what goes wrong.** For a browser that needs a prefix, `linear-gradient(red 0%, blue 100%)` is minified to
`-webkit-linear-gradient(blue 0%, red 100%)`. -/
theorem C83_prefix_default (dp : Bool) : ∃ g, parseLinear false redBlue = some g ∧ g.getPrefixed.print true dp = blueRed ∧
    ∃ p, LinearColour numbers unitBox false redBlue 0 (1 / 4) p ∧ ¬ LegacyColour numbers unitBox false blueRed 0 (1 / 4) p := by
  refine ⟨⟨false, .vertical .bottom, redBlueItems⟩, rfl, ?_, numbers.mix 0 1 (1 / 4), ?_, ?_⟩
  · unfold Linear.print
    rw [if_neg (by simp [Linear.getPrefixed, legacyDir, vOpp, Dir.degrees]),
      if_pos (by simp [Linear.getPrefixed, legacyDir, vOpp, Dir.degrees, redBlueItems, twoItems, percentages])]
    exact flip_redBlue dp
  · rw [linear_redBlue' (by norm_num) (by norm_num)]
  · rw [legacy_blueRed' (by norm_num) (by norm_num), numbers.symm]; simp [numbers]; norm_num

/-- **C83, what goes wrong.** For a browser that needs a prefix, `linear-gradient(to top, red 0%, blue 100%)` is printed as
`-webkit-linear-gradient(red 0%, blue 100%)`, which is red at the top. -/
theorem C83_prefix_top (m dp : Bool) : ∃ g, parseLinear false ([.to, .pos (.kw .top)] :: redBlue) = some g ∧ g.getPrefixed.print m dp = redBlue ∧
    ∃ p, LinearColour numbers unitBox false ([.to, .pos (.kw .top)] :: redBlue) 0 (1 / 4) p ∧ ¬ LegacyColour numbers unitBox false redBlue 0 (1 / 4) p := by
  refine ⟨⟨false, .vertical .top, redBlueItems⟩, rfl, ?_, numbers.mix 0 1 (3 / 4), ?_, ?_⟩
  · unfold Linear.print; rw [if_pos (by rfl)]; exact print_redBlue dp
  · rw [linear_redBlue .top len_up (by rw [place_up]; norm_num) (by rw [place_up]; norm_num), place_up]; norm_num
  · rw [legacy_redBlue' (by norm_num) (by norm_num)]; exact mix_ne (by norm_num)

/-- **C83, what goes wrong.** For a browser that needs a prefix, `linear-gradient(270deg, red 0%, blue 100%)`, which is red at the right, is printed as
`-webkit-linear-gradient(red 0%, blue 100%)`, which is red at the top. -/
theorem C83_prefix_270 (m dp : Bool) : ∃ g, parseLinear false ([.pos (.arg (.ang (.deg 270)))] :: redBlue) = some g ∧
    g.getPrefixed.print m dp = redBlue ∧
    ∃ p, LinearColour numbers unitBox false ([.pos (.arg (.ang (.deg 270)))] :: redBlue) (1 / 4) (1 / 4) p ∧
      ¬ LegacyColour numbers unitBox false redBlue (1 / 4) (1 / 4) p := by
  refine ⟨⟨false, .angle (.deg 270), redBlueItems⟩, rfl, ?_, numbers.mix 0 1 (3 / 4), ?_, ?_⟩
  · have : legacyDegree 270 = 180 := by
      obtain ⟨n, h, h1, h2⟩ := legacyDegree_eq (v := 270) (by norm_num) (k := 270000) (by norm_num)
      have : n = 0 := by
        rw [h] at h1 h2
        have h3 : (n : ℝ) < 1 := by linarith
        have h4 : (-1 : ℝ) < n := by linarith
        have h5 : n < 1 := by exact_mod_cast h3
        have h6 : -1 < n := by exact_mod_cast h4
        omega
      rw [h, this]; norm_num
    unfold Linear.print
    rw [if_pos (by simpa [Linear.getPrefixed, legacyDir, Dir.degrees, toDegrees] using this)]
    exact print_redBlue dp
  · have hd : IsDir unitBox [.pos (.arg (.ang (.deg 270)))] ⟨-1, 0⟩ := by rw [← vec_270]; exact .angle rfl
    rw [linear_redBlue hd len_left (by rw [place_left]; norm_num) (by rw [place_left]; norm_num), place_left]; norm_num
  · rw [legacy_redBlue' (by norm_num) (by norm_num)]; exact mix_ne (by norm_num)

/-- **C83, what goes wrong.** For a browser that needs a prefix, `linear-gradient(720deg, red 0%, blue 100%)`, which is red at the bottom, is printed as
`-webkit-linear-gradient(270deg, red 0%, blue 100%)`, which is red at the top. -/
theorem C83_prefix_720 (m dp : Bool) : ∃ g, parseLinear false ([.pos (.arg (.ang (.deg 720)))] :: redBlue) = some g ∧
    g.getPrefixed.print m dp = [.pos (.arg (.ang (.deg 270)))] :: redBlue ∧
    ∃ p, LinearColour numbers unitBox false ([.pos (.arg (.ang (.deg 720)))] :: redBlue) 0 (1 / 4) p ∧
      ¬ LegacyColour numbers unitBox false ([.pos (.arg (.ang (.deg 270)))] :: redBlue) 0 (1 / 4) p := by
  refine ⟨⟨false, .angle (.deg 720), redBlueItems⟩, rfl, ?_, numbers.mix 0 1 (3 / 4), ?_, ?_⟩
  · have : legacyDegree 720 = 270 := by
      unfold legacyDegree
      rw [show |(450 : ℝ) - 720| / 360 = 3 / 4 by norm_num [abs_of_neg], Int.fract_eq_self.2 ⟨by norm_num, by norm_num⟩]
      show ((round (3 / 4 * 360 * 1000 : ℝ) : ℤ) : ℝ) / 1000 = 270
      rw [show (3 / 4 * 360 * 1000 : ℝ) = ((270000 : ℤ) : ℝ) by norm_num, round_intCast]; norm_num
    have e : (Linear.getPrefixed ⟨false, .angle (.deg 720), redBlueItems⟩).direction = .angle (.deg 270) := by
      simp [Linear.getPrefixed, legacyDir, this]
    rw [print_safe (by rw [e]; exact safe_deg (by norm_num) (by norm_num)) rfl, e]
    rw [show (Dir.angle (.deg 270)).print m true = [.pos (.arg (Ang.print (.deg 270)))] from rfl]
    rw [show printItems lpOps dp (Linear.getPrefixed ⟨false, .angle (.deg 720), redBlueItems⟩).items = redBlue from print_redBlue dp]
    simp [Ang.print]
  · have hv : vecOf (720 / 360 * (2 * Real.pi)) = ⟨0, -1⟩ := by
      have := vecOf_turns 0 2
      rw [show (0 : ℝ) + (2 : ℤ) * (2 * Real.pi) = 720 / 360 * (2 * Real.pi) by push_cast; ring] at this
      rw [this]; simp [vecOf]
    have hd : IsDir unitBox [.pos (.arg (.ang (.deg 720)))] ⟨0, -1⟩ := by rw [← hv]; exact .angle rfl
    rw [linear_redBlue hd len_up (by rw [place_up]; norm_num) (by rw [place_up]; norm_num), place_up]; norm_num
  · have hv : vecOf (Real.pi / 2 - 270 / 360 * (2 * Real.pi)) = ⟨0, 1⟩ := by
      rw [show Real.pi / 2 - 270 / 360 * (2 * Real.pi) = -Real.pi by ring]; simp [vecOf]
    have hd : IsLegacyDir unitBox [.pos (.arg (.ang (.deg 270)))] ⟨0, 1⟩ := by rw [← hv]; exact .angle rfl
    rw [legacy_redBlue hd len_down (by rw [place_down]; norm_num) (by rw [place_down]; norm_num), place_down]
    exact mix_ne (by norm_num)

/-- Non-vacuity of `C83_prefix_partial`: `linear-gradient(to right, red 0%, blue 100%)` becomes `-webkit-linear-gradient(left, red 0%, blue 100%)`. -/
example (dp : Bool) : ∃ g, parseLinear false ([.to, .pos (.kw .right)] :: redBlue) = some g ∧
    g.getPrefixed.print false dp = [.pos (.kw .left)] :: redBlue ∧
    LinearColour numbers unitBox false ([.to, .pos (.kw .right)] :: redBlue) (1 / 4) (1 / 8) (numbers.mix 0 1 (1 / 4)) := by
  refine ⟨⟨false, .horizontal .right, redBlueItems⟩, rfl, ?_, ?_⟩
  · have hs : Safe false (Linear.getPrefixed ⟨false, .horizontal .right, redBlueItems⟩).direction :=
      ⟨by simp [Linear.getPrefixed, legacyDir, Dir.degrees]; norm_num, fun h => by cases h⟩
    rw [print_safe hs rfl]
    rw [show printItems lpOps dp (Linear.getPrefixed ⟨false, .horizontal .right, redBlueItems⟩).items = redBlue from print_redBlue dp]
    rfl
  · rw [linear_redBlue .right len_right (by rw [place_right]; norm_num) (by rw [place_right]; norm_num), place_right]

end Verif.Gradient
