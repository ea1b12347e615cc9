import Verif.Gradient.Webkit
import Verif.Gradient.LegacyBugs
/-! `-webkit-gradient()`: cases, and cases in which the conversion has other colours. -/
namespace Verif.Gradient
open Transform (Env lengthPct Arg LP Ang lpVal)
open Position (HSide VSide)

/-- The stops of a `-webkit-gradient()` from red to blue. -/
def wRedBlue : List WStop := [⟨0, 0⟩, ⟨1, 1⟩]

theorem toW_redBlue : toWStops redBlueItems = some wRedBlue := rfl

theorem print_wRedBlue : wRedBlue.map WStop.print = [.from 0, .to 1] := by simp [wRedBlue, WStop.print]

theorem print_pct (m : Bool) (x y : ℝ) (hx : x = 0 ∨ x = 1) (hy : y = 0 ∨ y = 1) : (pctPoint (x, y)).print m =
    .point (if x = 0 then .arg (.num 0) else .arg (.pct x)) (if y = 0 then .arg (.num 0) else .arg (.pct y)) := by
  rcases hx with rfl | rfl <;> rcases hy with rfl | rfl <;> simp [pctPoint, WPoint.print, WComp.print]

/-- Points of two marks. -/
theorem paints_marks {t : ℝ} {p : numbers.Paint} (h0 : 0 < t) (h1 : t < 1) :
    Paints numbers ((sortMarks [⟨0, 0⟩, ⟨1, 1⟩]).map Mark.point) t p ↔ p = numbers.mix 0 1 t := by
  have hs : sortMarks [⟨0, 0⟩, ⟨1, 1⟩] = [⟨0, 0⟩, ⟨1, 1⟩] := sort_id (ws := wRedBlue) (by simp [wRedBlue])
  rw [hs]
  constructor
  · rintro (⟨h, h'⟩ | ⟨h, h'⟩ | ⟨h, h2, h3⟩)
    · simp only [List.map_cons, List.head?_cons, Option.some.injEq] at h; subst h; simp [Mark.point] at h'; linarith
    · simp only [List.map_cons, List.map_nil, List.getLast?_cons_cons, List.getLast?_singleton, Option.some.injEq] at h; subst h; simp [Mark.point] at h'; linarith
    · have := List.IsInfix.eq_of_length h rfl
      simp only [List.map_cons, List.map_nil, List.cons.injEq, and_true] at this
      obtain ⟨rfl, rfl⟩ := this
      simp [Mark.point, weight]
  · rintro rfl
    have := Paints.between (M := numbers) (ps := [(⟨0, 0⟩ : Mark), ⟨1, 1⟩].map Mark.point) (a := ⟨none, 0, 0⟩) (b := ⟨none, 1, 1⟩) (List.infix_refl _) h0 h1
    simpa [weight, Mark.point] using this

/-- A gradient from red to blue between two points. -/
theorem webkit_two {env : Env} {a b c d : Position.Tok} {x0 y0 x1 y1 x y t : ℝ} {p : numbers.Paint} (h1 : xCoord env a = some x0) (h2 : yCoord env b = some y0)
    (h3 : xCoord env c = some x1) (h4 : yCoord env d = some y1) (hne : (x1 - x0) ^ 2 + (y1 - y0) ^ 2 ≠ 0)
    (ht : ((x - x0) * (x1 - x0) + (y - y0) * (y1 - y0)) / ((x1 - x0) ^ 2 + (y1 - y0) ^ 2) = t) (hp : 0 < t) (hp' : t < 1) :
    WebkitColour numbers env [.linear, .point a b, .point c d, .from 0, .to 1] x y p ↔ p = numbers.mix 0 1 t := by
  rw [webkitColour_iff (.linear (ms := [⟨0, 0⟩, ⟨1, 1⟩]) h1 h2 h3 h4 (by simp) (by simp [mark]))]
  constructor
  · rintro (⟨_, h⟩ | _); rw [ht] at h; exact (paints_marks hp hp').1 h
  · intro h; exact .linear hne (by rw [ht]; exact (paints_marks hp hp').2 h)

/-- Non-vacuity of `C86_webkit`: `-webkit-gradient(linear, left top, right bottom, from(red), to(blue))` in a box of two by one pixels. -/
example : ∃ G w, IsWebkit ⟨fun _ => 0, 2, 1, fun _ => 0, fun _ _ => 0⟩ [.linear, .point (.kw .left) (.kw .top), .point (.kw .right) (.kw .bottom), .from 0, .to 1] G ∧
    G = .linear 0 0 2 1 [⟨0, 0⟩, ⟨1, 1⟩] ∧
    Webkit.parse [.linear, .point (.kw .left) (.kw .top), .point (.kw .right) (.kw .bottom), .from 0, .to 1] = some w ∧
    w.print true = [.linear, .point (.arg (.num 0)) (.arg (.num 0)), .point (.arg (.pct 1)) (.arg (.pct 1)), .from 0, .to 1] := by
  refine ⟨_, .linear ⟨.side .left, .side .top⟩ ⟨.side .right, .side .bottom⟩ wRedBlue, .linear rfl rfl rfl rfl (by simp) (by simp [mark]), rfl, rfl, ?_⟩
  simp [Webkit.print, WPoint.print, WComp.print, HSide.toLP, VSide.toLP, LP.print, LP.zero, Transform.printLV, print_wRedBlue]

/-- Non-vacuity of `C87_linear_partial`: `linear-gradient(to right, red 0%, blue 100%)` becomes `-webkit-gradient(linear, 0 0, 100% 0, from(red), to(blue))`. -/
example (m : Bool) : ∃ g w, parseLinear false ([.to, .pos (.kw .right)] :: redBlue) = some g ∧ g.toWebkit = some w ∧
    w.print m = [.linear, .point (.arg (.num 0)) (.arg (.num 0)), .point (.arg (.pct 1)) (.arg (.num 0)), .from 0, .to 1] ∧
    IsLinear unitBox ([.to, .pos (.kw .right)] :: redBlue) ⟨1, 0⟩ [⟨none, 0, some (0 * 1)⟩, ⟨none, 1, some (1 * 1)⟩] ∧
    ((ends (lineLength unitBox ⟨1, 0⟩) [⟨none, 0, some (0 * 1)⟩, ⟨none, 1, some (1 * 1)⟩]).filterMap Stop.pos).Pairwise (· ≤ ·) := by
  refine ⟨⟨false, .horizontal .right, redBlueItems⟩, .linear (pctPoint (0, 0)) (pctPoint (1, 0)) wRedBlue, rfl, rfl, ?_, ?_, ?_⟩
  · simp [Webkit.print, print_pct, print_wRedBlue]
  · have := stops_two (len := lineLength unitBox ⟨1, 0⟩) (p := 0) (q := 1) 0 1
    rw [len_right] at this
    exact .dir .right (by rw [len_right]; exact this)
  · simp [ends, startAt]

/-- A box of two by one pixels. -/
noncomputable def flatBox : Env := ⟨fun _ => 0, 2, 1, fun _ => 0, fun _ _ => 0⟩

theorem stops_flat {len p q : ℝ} (a b : Nat) :
    IsStops (lengthPct flatBox len) [[.color a, pctTok p], [.color b, pctTok q]] [⟨none, a, some (p * len)⟩, ⟨none, b, some (q * len)⟩] :=
  ⟨[[.color a (some (p * len))], [.color b (some (q * len))]], rfl, rfl, le_refl _, fun s hs => by cases hs; rfl⟩

/-- **C87, what goes wrong.** `linear-gradient(to bottom right, red 0%, blue 100%)` has the same colour in the two other corners. In a box that is not a square, this
does not hold for the `-webkit-gradient(linear, 0 0, 100% 100%, …)` that it is converted to. -/
theorem C87_corner (m : Bool) : ∃ g w, parseLinear false ([.to, .pos (.kw .bottom), .pos (.kw .right)] :: redBlue) = some g ∧ g.toWebkit = some w ∧
    w.print m = [.linear, .point (.arg (.num 0)) (.arg (.num 0)), .point (.arg (.pct 1)) (.arg (.pct 1)), .from 0, .to 1] ∧
    ∃ p, LinearColour numbers flatBox false ([.to, .pos (.kw .bottom), .pos (.kw .right)] :: redBlue) 2 0 p ∧ ¬ WebkitColour numbers flatBox (w.print m) 2 0 p := by
  have hpr : (Webkit.linear (pctPoint (0, 0)) (pctPoint (1, 1)) wRedBlue).print m =
      [.linear, .point (.arg (.num 0)) (.arg (.num 0)), .point (.arg (.pct 1)) (.arg (.pct 1)), .from 0, .to 1] := by
    simp [Webkit.print, print_pct, print_wRedBlue]
  refine ⟨⟨false, .corner .right .bottom, redBlueItems⟩, .linear (pctPoint (0, 0)) (pctPoint (1, 1)) wRedBlue, rfl, rfl, hpr, numbers.mix 0 1 (1 / 2), ?_, ?_⟩
  · have hq : (0 : ℝ) < Real.sqrt 5 := Real.sqrt_pos.2 (by norm_num)
    have hv : cornerVec flatBox 1 1 = ⟨1 / Real.sqrt 5, 2 / Real.sqrt 5⟩ := by
      simp only [cornerVec, flatBox]; norm_num
    have hl : lineLength flatBox (cornerVec flatBox 1 1) = 4 / Real.sqrt 5 := by
      rw [hv]; simp only [lineLength, flatBox]
      rw [abs_of_nonneg (by positivity), abs_of_nonneg (by positivity)]; ring
    have hpl : place flatBox (cornerVec flatBox 1 1) 2 0 = 2 / Real.sqrt 5 := by
      unfold place; rw [hl, hv]; simp only [flatBox]; ring
    unfold redBlue
    rw [linearColour_iff (.dir .bottomRight (stops_flat 0 1)), hl, hpl, colour_two (by simp) (by simp; positivity)]
    refine .inr (.inr ⟨by simp, by simp; gcongr; norm_num, ?_⟩)
    have : weight none (0 * (4 / Real.sqrt 5)) (1 * (4 / Real.sqrt 5)) (2 / Real.sqrt 5) = 1 / 2 := by
      simp only [weight]; field_simp; norm_num
    rw [this]
  · rw [hpr, webkit_two (t := 4 / 5) rfl rfl rfl rfl (by simp [flatBox]; norm_num) (by simp [flatBox]; norm_num) (by norm_num) (by norm_num)]
    exact mix_ne (by norm_num)

/-- **C87, what goes wrong.** A prefixed gradient is converted as though its direction were that of a standard one: `-webkit-linear-gradient(top, red 0%, blue 100%)`,
which is red at the top, becomes `-webkit-gradient(linear, 0 100%, 0 0, from(red), to(blue))`, which is red at the bottom. -/
theorem C87_prefixed (m : Bool) : ∃ g w, parseLinear true ([.pos (.kw .top)] :: redBlue) = some g ∧ g.toWebkit = some w ∧
    w.print m = [.linear, .point (.arg (.num 0)) (.arg (.pct 1)), .point (.arg (.num 0)) (.arg (.num 0)), .from 0, .to 1] ∧
    ∃ p, LegacyColour numbers unitBox false ([.pos (.kw .top)] :: redBlue) 0 (1 / 4) p ∧ ¬ WebkitColour numbers unitBox (w.print m) 0 (1 / 4) p := by
  have hpr : (Webkit.linear (pctPoint (0, 1)) (pctPoint (0, 0)) wRedBlue).print m =
      [.linear, .point (.arg (.num 0)) (.arg (.pct 1)), .point (.arg (.num 0)) (.arg (.num 0)), .from 0, .to 1] := by
    simp [Webkit.print, print_pct, print_wRedBlue]
  refine ⟨⟨true, .vertical .top, redBlueItems⟩, .linear (pctPoint (0, 1)) (pctPoint (0, 0)) wRedBlue, rfl, rfl, hpr, numbers.mix 0 1 (1 / 4), ?_, ?_⟩
  · rw [legacy_redBlue .top len_down (by rw [place_down]; norm_num) (by rw [place_down]; norm_num), place_down]
  · rw [hpr, webkit_two (t := 3 / 4) rfl rfl rfl rfl (by simp [unitBox]) (by simp [unitBox]; norm_num) (by norm_num) (by norm_num)]
    exact mix_ne (by norm_num)

/-- Non-vacuity of `C87_radial_partial`: `radial-gradient(circle 1px, red 0%, blue 100%)` becomes
`-webkit-gradient(radial, 50% 50%, 0, 50% 50%, 1, from(red), to(blue))`. -/
example : ∃ g w, parseRadial ([.circle, .pos (.arg (.len 1 .px))] :: redBlue) = some g ∧ g.toWebkit = some w ∧
    w.print true = [.radial, .point (.arg (.pct (1 / 2))) (.arg (.pct (1 / 2))), .number 0, .point (.arg (.pct (1 / 2))) (.arg (.pct (1 / 2))), .number 1, .from 0, .to 1] ∧
    IsRadial unitBox ([.circle, .pos (.arg (.len 1 .px))] :: redBlue) (.circle (1 * 1)) (1 / 2) (1 / 2) redBlue ∧
    IsStops (lengthPct unitBox 1) redBlue [⟨none, 0, some (0 * 1)⟩, ⟨none, 1, some (1 * 1)⟩] := by
  refine ⟨⟨.radius (.val 1 .px), .centered, redBlueItems⟩, .radial ⟨.center, .center⟩ 0 ⟨.center, .center⟩ 1 wRedBlue, rfl, rfl, ?_, ?_, stops_two 0 1⟩
  · simp [Webkit.print, WPoint.print, WComp.print, print_wRedBlue]
  · exact .given (s := [.circle, .pos (.arg (.len 1 .px))]) (u := []) (by simp) (.some (.circleLen rfl)) .none

end Verif.Gradient
