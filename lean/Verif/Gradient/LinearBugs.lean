import Verif.Gradient.Linear
/-! Linear gradients: a case in full, and cases in which what is printed is not what was written. -/
namespace Verif.Gradient
open Transform (Env lengthPct Arg LP Ang lpVal parseLP radians angle)

/-- Colours are numbers. -/
@[reducible] noncomputable def numbers : Mixer := ⟨ℝ, fun c => c, fun a b w => a * (1 - w) + b * w, fun a b w => by ring⟩

theorem paints_two {M : Mixer} {a b : Point} {t : ℝ} {m : M.Paint} : Paints M [a, b] t m ↔
    (t < a.pos ∧ m = M.solid a.color) ∨ (b.pos < t ∧ m = M.solid b.color) ∨
      (a.pos < t ∧ t < b.pos ∧ m = M.mix a.color b.color (weight b.hint a.pos b.pos t)) := by
  constructor
  · intro h
    cases h with
    | before h1 h2 => cases h1; exact .inl ⟨h2, rfl⟩
    | after h1 h2 => simp at h1; subst h1; exact .inr (.inl ⟨h2, rfl⟩)
    | between h1 h2 h3 =>
      have := List.IsInfix.eq_of_length h1 rfl
      simp only [List.cons.injEq, and_true] at this
      obtain ⟨rfl, rfl⟩ := this
      exact .inr (.inr ⟨h2, h3, rfl⟩)
  · rintro (⟨h, rfl⟩ | ⟨h, rfl⟩ | ⟨h1, h2, rfl⟩)
    · exact .before rfl h
    · exact .after (by simp) h
    · exact .between (List.infix_refl _) h1 h2

theorem resolved_two {len p q : ℝ} {h : Option ℝ} {a b : Nat} {ps : List Point} (h1 : ∀ v, h = some v → p ≤ v ∧ v ≤ q) (h2 : p ≤ q) :
    Resolved len [⟨none, a, some p⟩, ⟨h, b, some q⟩] ps ↔ ps = [⟨none, a, p⟩, ⟨h, b, q⟩] := by
  have e : monotone (ends len [⟨none, a, some p⟩, ⟨h, b, some q⟩]) = [⟨none, a, some p⟩, ⟨h, b, some q⟩] := by
    cases h with
    | none => simp [ends, startAt, monotone, raise, h2]
    | some v =>
      obtain ⟨h3, h4⟩ := h1 v rfl
      simp [ends, startAt, monotone, raise, h3, h4]
  unfold Resolved
  rw [e]
  constructor
  · rintro ⟨hf, -⟩
    rcases hf with _ | ⟨f1, hf⟩
    rcases hf with _ | ⟨f2, hf⟩
    cases hf
    rename_i x y
    obtain ⟨xh, xc, xp⟩ := x
    obtain ⟨yh, yc, yp⟩ := y
    obtain ⟨i1, i2, i3⟩ := f1
    obtain ⟨j1, j2, j3⟩ := f2
    simp only at i1 i2 j1 j2
    subst i1 i2 j1 j2
    have := i3 p rfl
    have := j3 q rfl
    simp_all
  · rintro rfl
    refine ⟨.cons ⟨rfl, rfl, fun v hv => by simpa using hv⟩ (.cons ⟨rfl, rfl, fun v hv => by simpa using hv⟩ .nil), ?_⟩
    intro x y z hi _
    have := hi.length_le
    simp at this

theorem colour_two {M : Mixer} {len p q t : ℝ} {h : Option ℝ} {a b : Nat} {m : M.Paint} (h1 : ∀ v, h = some v → p ≤ v ∧ v ≤ q) (h2 : p ≤ q) :
    Colour M false len [⟨none, a, some p⟩, ⟨h, b, some q⟩] t m ↔
      (t < p ∧ m = M.solid a) ∨ (q < t ∧ m = M.solid b) ∨ (p < t ∧ t < q ∧ m = M.mix a b (weight h p q t)) := by
  unfold Colour
  constructor
  · rintro ⟨ps, h3, h4⟩
    rw [resolved_two h1 h2] at h3; subst h3
    exact paints_two.1 h4
  · intro h3
    exact ⟨_, (resolved_two h1 h2).2 rfl, paints_two.2 h3⟩

/-- A box of one by one pixel. -/
noncomputable def unitBox : Env := ⟨fun _ => 0, 1, 1, fun _ => 0, fun _ _ => 0⟩

/-- A percentage. -/
def pctTok (p : ℝ) : Tok := .pos (.arg (.pct p))

theorem len_down : lineLength unitBox ⟨0, 1⟩ = 1 := by simp [lineLength, unitBox]
theorem len_up : lineLength unitBox ⟨0, -1⟩ = 1 := by simp [lineLength, unitBox]
theorem place_down (x y : ℝ) : place unitBox ⟨0, 1⟩ x y = y := by simp [place, len_down]; simp [unitBox]
theorem place_up (x y : ℝ) : place unitBox ⟨0, -1⟩ x y = 1 - y := by simp [place, len_up]; simp [unitBox]; ring

/-- Two colours with percentages. -/
theorem stops_two {len p q : ℝ} (a b : Nat) :
    IsStops (lengthPct unitBox len) [[.color a, pctTok p], [.color b, pctTok q]] [⟨none, a, some (p * len)⟩, ⟨none, b, some (q * len)⟩] :=
  ⟨[[.color a (some (p * len))], [.color b (some (q * len))]], rfl, rfl, le_refl _, fun s hs => by cases hs; rfl⟩

/-- Two colours with percentages and a hint. -/
theorem stops_hint {len p h q : ℝ} (a b : Nat) :
    IsStops (lengthPct unitBox len) [[.color a, pctTok p], [pctTok h], [.color b, pctTok q]]
      [⟨none, a, some (p * len)⟩, ⟨some (h * len), b, some (q * len)⟩] :=
  ⟨[[.color a (some (p * len))], [.hint (h * len)], [.color b (some (q * len))]], rfl, rfl, le_refl _, fun s hs => by cases hs; rfl⟩

/-- The items of a gradient with two colours. -/
def twoItems (a b : Nat) (p q : ℝ) : List (Item LP) := [.stop a (some (.pct p)), .stop b (some (.pct q))]

theorem print_two {a b : Nat} {p q : ℝ} (h : a ≠ b) (dp : Bool) :
    printItems lpOps dp (twoItems a b p q) = [[.color a, pctTok p], [.color b, pctTok q]] := by
  cases dp <;> simp [printItems, twoItems, serialize, useless, merge, h, Item.toks, dTok, lpOps, LP.print, pctTok]

/-- Non-vacuity of `C82_linear_partial`: `linear-gradient(to top, red 10%, blue 60%)` is turned around to
`linear-gradient(blue 40%, red 90%)`; at a quarter of the height, both are blue. -/
example : ∃ g, parseLinear false [[.to, .pos (.kw .top)], [.color 0, pctTok (1 / 10)], [.color 1, pctTok (6 / 10)]] = some g ∧
    g.print true true = [[.color 1, pctTok (1 - 6 / 10)], [.color 0, pctTok (1 - 1 / 10)]] ∧
    LinearColour numbers unitBox false [[.to, .pos (.kw .top)], [.color 0, pctTok (1 / 10)], [.color 1, pctTok (6 / 10)]] 0 (1 / 4) (numbers.solid 1) ∧
    LinearColour numbers unitBox false [[.color 1, pctTok (1 - 6 / 10)], [.color 0, pctTok (1 - 1 / 10)]] 0 (1 / 4) (numbers.solid 1) := by
  refine ⟨⟨false, .vertical .top, twoItems 0 1 (1 / 10) (6 / 10)⟩, rfl, ?_, ?_, ?_⟩
  · have : (⟨false, .vertical .top, twoItems 0 1 (1 / 10) (6 / 10)⟩ : Linear).print true true = printItems lpOps true (twoItems 1 0 (1 - 6 / 10) (1 - 1 / 10)) := by
      unfold Linear.print
      rw [if_neg (by simp [Dir.degrees]), if_pos (by simp [Dir.degrees, twoItems, percentages])]
      simp [twoItems, flipItem]
    rw [this, print_two (by decide)]
  · rw [linearColour_iff (.dir .top (stops_two 0 1)), len_up, place_up, colour_two (by simp) (by norm_num)]
    exact .inr (.inl ⟨by norm_num, rfl⟩)
  · rw [linearColour_iff (.default (stops_two 1 0)), len_down, place_down, colour_two (by simp) (by norm_num)]
    exact .inl ⟨by norm_num, rfl⟩

/-- **C82, what goes wrong.** `linear-gradient(red 0%, 50%, blue 80%)` is printed as `linear-gradient(red 0%, blue 80%)`: the hint is
dropped although it is not in the middle, and half the height has another colour. -/
theorem C82_half_hint (m dp : Bool) : ∃ g,
    parseLinear false [[.color 0, pctTok 0], [pctTok (1 / 2)], [.color 1, pctTok (8 / 10)]] = some g ∧
    g.print m dp = [[.color 0, pctTok 0], [.color 1, pctTok (8 / 10)]] ∧
    ∃ p, LinearColour numbers unitBox false [[.color 0, pctTok 0], [pctTok (1 / 2)], [.color 1, pctTok (8 / 10)]] 0 (1 / 2) p ∧
      ¬ LinearColour numbers unitBox false [[.color 0, pctTok 0], [.color 1, pctTok (8 / 10)]] 0 (1 / 2) p := by
  refine ⟨⟨false, .vertical .bottom, [.stop 0 (some (.pct 0)), .hint (.pct (1 / 2)), .stop 1 (some (.pct (8 / 10)))]⟩, rfl, ?_, numbers.mix 0 1 (1 / 2), ?_, ?_⟩
  · unfold Linear.print
    rw [if_pos (by simp [Dir.degrees])]
    cases dp <;> simp [printItems, serialize, useless, merge, Item.toks, dTok, lpOps, LP.print, pctTok]
  · rw [linearColour_iff (.default (stops_hint 0 1)), len_down, place_down, colour_two (by rintro v hv; cases hv; norm_num) (by norm_num)]
    refine .inr (.inr ⟨by norm_num, by norm_num, ?_⟩)
    have hlog : Real.log (5 / 8 : ℝ) ≠ 0 := (Real.log_neg (by norm_num) (by norm_num)).ne
    have : weight (some (1 / 2 * 1)) (0 * 1) (8 / 10 * 1) (1 / 2) = 1 / 2 := by
      simp only [weight]
      rw [if_neg (by norm_num), if_neg (by norm_num)]
      rw [show ((1 / 2 - 0 * 1) / (8 / 10 * 1 - 0 * 1) : ℝ) = 5 / 8 by norm_num, show ((1 / 2 * 1 - 0 * 1) / (8 / 10 * 1 - 0 * 1) : ℝ) = 5 / 8 by norm_num,
        Real.rpow_def_of_pos (by norm_num), mul_div_assoc', mul_comm, mul_div_assoc, div_self hlog, mul_one, Real.exp_log (by norm_num)]
    rw [this]
  · rw [linearColour_iff (.default (stops_two 0 1)), len_down, place_down, colour_two (by simp) (by norm_num)]
    rintro (⟨h, _⟩ | ⟨h, _⟩ | ⟨_, _, h⟩)
    · norm_num at h
    · norm_num at h
    · simp [numbers, weight] at h; norm_num at h

/-- **C82, what goes wrong.** `linear-gradient(to top, red 0%, 25%, blue 100%)` is minified to `linear-gradient(blue 100%, 75%, red 0%)` turned
around. The colour curve of a hint is not symmetric: near the bottom the colours differ. -/
theorem C82_flip_hint (dp : Bool) : ∃ g,
    parseLinear false [[.to, .pos (.kw .top)], [.color 0, pctTok 0], [pctTok (1 / 4)], [.color 1, pctTok 1]] = some g ∧
    g.print true dp = [[.color 1, pctTok (1 - 1)], [pctTok (1 - 1 / 4)], [.color 0, pctTok (1 - 0)]] ∧
    ∃ p, LinearColour numbers unitBox false [[.to, .pos (.kw .top)], [.color 0, pctTok 0], [pctTok (1 / 4)], [.color 1, pctTok 1]] 0 (15 / 16) p ∧
      ¬ LinearColour numbers unitBox false [[.color 1, pctTok (1 - 1)], [pctTok (1 - 1 / 4)], [.color 0, pctTok (1 - 0)]] 0 (15 / 16) p := by
  refine ⟨⟨false, .vertical .top, [.stop 0 (some (.pct 0)), .hint (.pct (1 / 4)), .stop 1 (some (.pct 1))]⟩, rfl, ?_, numbers.mix 0 1 (1 / 4), ?_, ?_⟩
  · unfold Linear.print
    rw [if_neg (by simp [Dir.degrees]), if_pos (by simp [Dir.degrees, percentages])]
    have : ¬ (1 - 4⁻¹ : ℝ) = 2⁻¹ := by norm_num
    cases dp <;> simp [printItems, serialize, useless, merge, Item.toks, dTok, lpOps, LP.print, pctTok, flipItem, this]
  · rw [linearColour_iff (.dir .top (stops_hint 0 1)), len_up, place_up, colour_two (by rintro v hv; cases hv; norm_num) (by norm_num)]
    refine .inr (.inr ⟨by norm_num, by norm_num, ?_⟩)
    have hlog : Real.log (1 / 2 : ℝ) ≠ 0 := (Real.log_neg (by norm_num) (by norm_num)).ne
    have h4 : Real.log (1 / 4 : ℝ) = 2 * Real.log (1 / 2) := by
      rw [show (1 / 4 : ℝ) = (1 / 2) ^ 2 by norm_num, Real.log_pow]; norm_num
    have : weight (some (1 / 4 * 1)) (0 * 1) (1 * 1) (1 - 15 / 16) = 1 / 4 := by
      simp only [weight]
      rw [if_neg (by norm_num), if_neg (by norm_num)]
      rw [show ((1 - 15 / 16 - 0 * 1) / (1 * 1 - 0 * 1) : ℝ) = (1 / 4) ^ (2 : ℝ) by norm_num, show ((1 / 4 * 1 - 0 * 1) / (1 * 1 - 0 * 1) : ℝ) = 1 / 4 by norm_num,
        ← Real.rpow_mul (by norm_num), h4, show (2 * (Real.log (1 / 2) / (2 * Real.log (1 / 2))) : ℝ) = 1 by field_simp, Real.rpow_one]
    rw [this]
  · rw [linearColour_iff (.default (stops_hint 1 0)), len_down, place_down, colour_two (by rintro v hv; cases hv; norm_num) (by norm_num)]
    rintro (⟨h, _⟩ | ⟨h, _⟩ | ⟨_, _, h⟩)
    · norm_num at h
    · norm_num at h
    · have hw : weight (some ((1 - 1 / 4) * 1)) ((1 - 1) * 1) ((1 - 0) * 1) (15 / 16) = (15 / 16 : ℝ) ^ (Real.log (1 / 2) / Real.log (3 / 4)) := by
        simp only [weight]
        rw [if_neg (by norm_num), if_neg (by norm_num)]
        norm_num
      rw [hw] at h
      have hneg : Real.log (3 / 4 : ℝ) < 0 := Real.log_neg (by norm_num) (by norm_num)
      have hk : Real.log (1 / 2) / Real.log (3 / 4 : ℝ) ≤ (3 : ℕ) := by
        rw [div_le_iff_of_neg hneg, ← Real.log_pow]
        exact Real.log_le_log (by norm_num) (by norm_num)
      have := Real.rpow_le_rpow_of_exponent_ge (show (0 : ℝ) < 15 / 16 by norm_num) (by norm_num) hk
      rw [Real.rpow_natCast] at this
      generalize (15 / 16 : ℝ) ^ (Real.log (1 / 2) / Real.log (3 / 4)) = w at this h
      simp [numbers] at h
      norm_num at this h
      linarith

/-- **C82, what goes wrong.** `linear-gradient(to top, red 50%, blue 20%)`, which is red up to the middle, is minified to
`linear-gradient(blue 80%, red 50%)`, which is blue down to 80% of the height. -/
theorem C82_flip_order (dp : Bool) : ∃ g,
    parseLinear false [[.to, .pos (.kw .top)], [.color 0, pctTok (1 / 2)], [.color 1, pctTok (2 / 10)]] = some g ∧
    g.print true dp = [[.color 1, pctTok (1 - 2 / 10)], [.color 0, pctTok (1 - 1 / 2)]] ∧
    ∃ p, LinearColour numbers unitBox false [[.to, .pos (.kw .top)], [.color 0, pctTok (1 / 2)], [.color 1, pctTok (2 / 10)]] 0 (7 / 10) p ∧
      ¬ LinearColour numbers unitBox false [[.color 1, pctTok (1 - 2 / 10)], [.color 0, pctTok (1 - 1 / 2)]] 0 (7 / 10) p := by
  have key : ∀ {len p q t : ℝ} {a b : Nat} {m : numbers.Paint}, q ≤ p → (Colour numbers false len [⟨none, a, some p⟩, ⟨none, b, some q⟩] t m ↔
      Colour numbers false len [⟨none, a, some p⟩, ⟨none, b, some p⟩] t m) := by
    intro len p q t a b m h
    have e : monotone (ends len [⟨none, a, some p⟩, ⟨none, b, some q⟩]) = monotone (ends len [⟨none, a, some p⟩, ⟨none, b, some p⟩]) := by
      simp [ends, startAt, monotone, raise, h]
    unfold Colour Resolved
    rw [e]
  refine ⟨⟨false, .vertical .top, twoItems 0 1 (1 / 2) (2 / 10)⟩, rfl, ?_, numbers.solid 0, ?_, ?_⟩
  · have : (⟨false, .vertical .top, twoItems 0 1 (1 / 2) (2 / 10)⟩ : Linear).print true dp = printItems lpOps dp (twoItems 1 0 (1 - 2 / 10) (1 - 1 / 2)) := by
      unfold Linear.print
      rw [if_neg (by simp [Dir.degrees]), if_pos (by simp [Dir.degrees, twoItems, percentages])]
      simp [twoItems, flipItem]
    rw [this, print_two (by decide)]
  · rw [linearColour_iff (.dir .top (stops_two 0 1)), len_up, place_up, key (by norm_num), colour_two (by simp) (by norm_num)]
    exact .inl ⟨by norm_num, rfl⟩
  · rw [linearColour_iff (.default (stops_two 1 0)), len_down, place_down, key (by norm_num), colour_two (by simp) (by norm_num)]
    rintro (⟨_, h⟩ | ⟨h, _⟩ | ⟨h1, h2, _⟩)
    · simp [numbers] at h
    · norm_num at h
    · linarith

end Verif.Gradient
