import Mathlib.Analysis.SpecialFunctions.Trigonometric.Basic
import Mathlib.Analysis.SpecialFunctions.Complex.Arg
/-!
# Model of `color-mix()` and of the conversions between RGB, HSL, HWB and between Lab and LCH (`/repo/src/values/color.rs`)

A floating point number is `none` if it is NaN, which stands for a missing component (`none` in CSS), and a real number otherwise. Rounding and infinities are not modelled.
-/
namespace Verif.Mix

/-- A floating point number: a real number or NaN. -/
abbrev F := Option ℝ

/-- Multiplication of floating point numbers. -/
noncomputable def F.mul (x y : F) : F := Option.map₂ (· * ·) x y
/-- Addition of floating point numbers. -/
noncomputable def F.add (x y : F) : F := Option.map₂ (· + ·) x y

open Classical in
/-- Division of floating point numbers. Zero divided by zero is NaN; other divisions by zero, which are infinite, are also NaN here. -/
noncomputable def F.div (x y : F) : F := x.bind fun a => y.bind fun b => if b = 0 then none else some (a / b)

/-- `if self.$a.is_nan() { self.$a = other.$a }`, `color.rs:3455-3457`. -/
def F.or (x y : F) : F := Option.or x y

/-- `x % 360.0`: the remainder has the sign of `x`. -/
noncomputable def rem360 (x : ℝ) : ℝ := x - 360 * (if 0 ≤ x / 360 then (⌊x / 360⌋ : ℝ) else (⌈x / 360⌉ : ℝ))

/-! ## Mixing -/

/-- `HueInterpolationMethod`, `color.rs:265-280`. -/
inductive HueMethod
  | shorter | longer | increasing | decreasing | specified
deriving DecidableEq

/-- `((*a % 360.0) + 360.0) % 360.0`, `color.rs:3646-3647`. -/
noncomputable def norm360 (x : ℝ) : ℝ := rem360 (rem360 x + 360)

open Classical in
/-- `HueInterpolationMethod::interpolate`, `color.rs:3643-3684`, for two numbers. -/
noncomputable def HueMethod.adjust (m : HueMethod) (a b : ℝ) : ℝ × ℝ :=
  let a := if m = .specified then a else norm360 a
  let b := if m = .specified then b else norm360 b
  match m with
  | .shorter => if b - a > 180 then (a + 360, b) else if b - a < -180 then (a, b + 360) else (a, b)
  | .longer => if 0 < b - a ∧ b - a < 180 then (a + 360, b) else if -180 < b - a ∧ b - a < 0 then (a, b + 360) else (a, b)
  | .increasing => if b < a then (a, b + 360) else (a, b)
  | .decreasing => if a < b then (a + 360, b) else (a, b)
  | .specified => (a, b)

/-- The same for floating point numbers: with a NaN every comparison is false, and NaN stays NaN. -/
noncomputable def HueMethod.interpolate (m : HueMethod) : F → F → F × F
  | some a, some b => (some (m.adjust a b).1, some (m.adjust a b).2)
  | some a, none => (some (if m = .specified then a else norm360 a), none)
  | none, some b => (none, some (if m = .specified then b else norm360 b))
  | none, none => (none, none)

/-- The kinds of colour spaces: rectangular ones (sRGB, XYZ, Lab, Oklab), those with the hue in the third component (LCH, Oklch) and with the hue in the first one (HSL, HWB). -/
inductive Space
  | rect | hueThird | hueFirst
deriving DecidableEq

/-- A color in such a space, such as `LAB`, `color.rs:1689-1700`. -/
structure Col where
  a : F
  b : F
  c : F
  alpha : F

/-- `fill_missing_components`, `color.rs:3454-3470`. -/
def Col.fill (x other : Col) : Col := ⟨F.or x.a other.a, F.or x.b other.b, F.or x.c other.c, F.or x.alpha other.alpha⟩

/-- `adjust_hue`, `color.rs:3443`, `3551-3553`, `3617-3619` and `3635-3637`. -/
noncomputable def adjustHue (s : Space) (m : HueMethod) (x y : Col) : Col × Col :=
  match s with
  | .rect => (x, y)
  | .hueThird => let r := m.interpolate x.c y.c; ({ x with c := r.1 }, { y with c := r.2 })
  | .hueFirst => let r := m.interpolate x.a y.a; ({ x with a := r.1 }, { y with a := r.2 })

/-- `premultiply`, `color.rs:3485-3491` and `3506-3511`. -/
noncomputable def Col.premultiply (s : Space) (x : Col) : Col :=
  match x.alpha with
  | none => x
  | some t =>
    match s with
    | .rect => { x with a := F.mul x.a (some t), b := F.mul x.b (some t), c := F.mul x.c (some t) }
    | .hueThird => { x with a := F.mul x.a (some t), b := F.mul x.b (some t) }
    | .hueFirst => { x with b := F.mul x.b (some t), c := F.mul x.c (some t) }

/-- `interpolate`, `color.rs:3472-3479`. -/
noncomputable def Col.interpolate (x : Col) (p : ℝ) (y : Col) (q : ℝ) : Col :=
  ⟨(F.mul x.a (some p)).add (y.a.mul (some q)), (F.mul x.b (some p)).add (y.b.mul (some q)), (F.mul x.c (some p)).add (y.c.mul (some q)),
    (x.alpha.mul (some p)).add (y.alpha.mul (some q))⟩

open Classical in
/-- `unpremultiply`, `color.rs:3493-3500` and `3513-3520`. -/
noncomputable def Col.unpremultiply (s : Space) (k : ℝ) (x : Col) : Col :=
  match s with
  | .rect =>
    match x.alpha with
    | none => x
    | some t => if t = 0 then x else ⟨F.div x.a (some t), F.div x.b (some t), F.div x.c (some t), some (t * k)⟩
  | .hueThird =>
    let x := { x with c := x.c.map rem360 }
    match x.alpha with
    | none => x
    | some t => { x with a := F.div x.a (some t), b := F.div x.b (some t), alpha := some (t * k) }
  | .hueFirst =>
    let x := { x with a := x.a.map rem360 }
    match x.alpha with
    | none => x
    | some t => { x with b := F.div x.b (some t), c := F.div x.c (some t), alpha := some (t * k) }

open Classical in
/-- `CssColor::interpolate` from `color.rs:3399` on, for two colors that are already converted to the color space. -/
noncomputable def mix (s : Space) (m : HueMethod) (p : ℝ) (x : Col) (q : ℝ) (y : Col) : Col :=
  let x := x.fill y
  let y := y.fill x
  let r := adjustHue s m x y
  let x := r.1.premultiply s
  let y := r.2.premultiply s
  let k := p + q
  if k = 1 then (x.interpolate p y q).unpremultiply s k
  else (x.interpolate (p / k) y (q / k)).unpremultiply s (if k > 1 then 1 else k)

/-- `CssColor` as `interpolate` sees it, with `α` for the colors that can be converted: `CurrentColor` and `System` are keywords. -/
inductive Css (α : Type)
  | keyword
  | color (x : α)
  | lightDark (light dark : Css α)

/-- `CssColor::interpolate`, `color.rs:3348-3433`; `conv` is the conversion to the color space with gamut mapping and the adjustment of powerless
components (`color.rs:3377-3397`). -/
noncomputable def Css.interpolate {α : Type} (conv : α → Col) (s : Space) (m : HueMethod) (p q : ℝ) : Css α → Css α → Option (Css Col)
  | .keyword, _ => none
  | _, .keyword => none
  | .lightDark al ad, .lightDark bl bd => do some (.lightDark (← al.interpolate conv s m p q bl) (← ad.interpolate conv s m p q bd))
  | .lightDark al ad, .color y => do some (.lightDark (← al.interpolate conv s m p q (.color y)) (← ad.interpolate conv s m p q (.color y)))
  | .color x, .lightDark bl bd => do some (.lightDark (← (Css.color x).interpolate conv s m p q bl) (← (Css.color x).interpolate conv s m p q bd))
  | .color x, .color y => some (.color (mix s m p (conv x) q (conv y)))

open Classical in
/-- The percentages of `parse_color_mix`, `color.rs:3279-3291`. -/
noncomputable def percentages (first second : Option ℝ) : Option (ℝ × ℝ) :=
  let r := if first = none ∧ second = none then (1 / 2, 1 / 2) else (first.getD (1 - second.getD 0), second.getD (1 - first.getD 0))
  if r.1 + r.2 = 0 then none else some r

/-- `parse_color_mix`, `color.rs:3247-3308`, after the colors and percentages are read. -/
noncomputable def colorMix {α : Type} (conv : α → Col) (s : Space) (m : HueMethod) (x : Css α) (first : Option ℝ) (y : Css α) (second : Option ℝ) : Option (Css Col) := do
  let r ← percentages first second
  x.interpolate conv s m r.1 r.2 y

/-! ## RGB, HSL and HWB -/

/-- Three real numbers. -/
structure Triple where
  x : ℝ
  y : ℝ
  z : ℝ

open Classical in
/-- `hue_to_rgb` in `hsl_to_rgb` of the crate `cssparser-color`. -/
noncomputable def hueToRgb (m1 m2 h3 : ℝ) : ℝ :=
  let h3 := if h3 < 0 then h3 + 3 else h3
  let h3 := if h3 > 3 then h3 - 3 else h3
  if h3 * 2 < 1 then m1 + (m2 - m1) * h3 * 2
  else if h3 * 2 < 3 then m2
  else if h3 < 2 then m1 + (m2 - m1) * (2 - h3) * 2
  else m1

open Classical in
/-- `hsl_to_rgb` of the crate `cssparser-color`. -/
noncomputable def hslToRgb (hue saturation lightness : ℝ) : Triple :=
  let m2 := if lightness ≤ 1 / 2 then lightness * (saturation + 1) else lightness + saturation - lightness * saturation
  let m1 := lightness * 2 - m2
  let h3 := hue * 3
  ⟨hueToRgb m1 m2 (h3 + 1), hueToRgb m1 m2 h3, hueToRgb m1 m2 (h3 - 1)⟩

/-- `impl From<HSL> for SRGB`, `color.rs:2665-2678`, without missing components. -/
noncomputable def srgbOfHsl (h s l : ℝ) : Triple := hslToRgb ((h - 360 * ⌊h / 360⌋) / 360) (s / 100) (l / 100)

open Classical in
/-- `impl From<SRGB> for HSL`, `color.rs:2624-2663`, for a color in the gamut; the hue of a gray is missing. -/
noncomputable def hslOfSrgb (r g b : ℝ) : F × ℝ × ℝ :=
  let mx := max (max r g) b
  let mn := min (min r g) b
  let l := (mn + mx) / 2
  let d := mx - mn
  if d = 0 then (none, 0 * 100, l * 100)
  else
    let s := if l = 0 ∨ l = 1 then 0 else (mx - l) / min l (1 - l)
    let h := if mx = r then (g - b) / d + (if g < b then 6 else 0)
      else if mx = g then (b - r) / d + 2
      else (r - g) / d + 4
    (some (h * 60), s * 100, l * 100)

/-- `impl From<SRGB> for HWB`, `color.rs:2680-2696`. -/
noncomputable def hwbOfSrgb (r g b : ℝ) : F × ℝ × ℝ :=
  ((hslOfSrgb r g b).1, min (min r g) b * 100, (1 - max (max r g) b) * 100)

open Classical in
/-- `impl From<HWB> for SRGB`, `color.rs:2698-2728`. -/
noncomputable def srgbOfHwb (h w b : ℝ) : Triple :=
  let w := w / 100
  let b := b / 100
  if w + b ≥ 1 then ⟨w / (w + b), w / (w + b), w / (w + b)⟩
  else
    let t := srgbOfHsl h 100 50
    let x := 1 - w - b
    ⟨t.x * x + w, t.y * x + w, t.z * x + w⟩

/-! ## Lab and LCH -/

/-- `f32::atan2`: the angle of the point `(a, b)`, in (-π, π]. -/
noncomputable def atan2 (b a : ℝ) : ℝ := Complex.arg ⟨a, b⟩

open Classical in
/-- `rectangular_to_polar`, `color.rs:1866-1875`: chroma and hue. -/
noncomputable def toPolar (a b : ℝ) : ℝ × ℝ :=
  let h := atan2 b a * 180 / Real.pi
  let h := if h < 0 then h + 360 else h
  (Real.sqrt (a ^ 2 + b ^ 2), rem360 h)

/-- `polar_to_rectangular`, `color.rs:1878-1883`. -/
noncomputable def toRect (c h : ℝ) : ℝ × ℝ := (c * Real.cos (h * Real.pi / 180), c * Real.sin (h * Real.pi / 180))

end Verif.Mix
