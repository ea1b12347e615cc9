import Verif.Mix.Model
/-!
# What `color-mix()` and the conversions mean (CSS Color 4 and 5), written without the functions of the model
-/
namespace Verif.Mix

/-- Two angles in degrees are the same direction. -/
def SameAngle (x y : ℝ) : Prop := ∃ k : ℤ, x = y + 360 * k

/-- The differences that a method allows, CSS Color 4 §12.4. -/
def Allowed : HueMethod → ℝ → Prop
  | .shorter, d => -180 ≤ d ∧ d ≤ 180
  | .longer, d => d = 0 ∨ (180 ≤ d ∧ d < 360) ∨ (-360 < d ∧ d ≤ -180)
  | .increasing, d => 0 ≤ d ∧ d < 360
  | .decreasing, d => -360 < d ∧ d ≤ 0
  | .specified, _ => True

/-- Hue fix-up: the angles are taken between 0 and 360 degrees, and a turn is added to one of them if their difference is not allowed. -/
inductive FixUp : HueMethod → ℝ → ℝ → ℝ → ℝ → Prop
  | specified {a b : ℝ} : FixUp .specified a b a b
  | keep {m : HueMethod} {a b x y : ℝ} : m ≠ .specified → SameAngle x a → SameAngle y b → 0 ≤ x → x < 360 → 0 ≤ y → y < 360 → Allowed m (y - x) → FixUp m a b x y
  | first {m : HueMethod} {a b x y : ℝ} : m ≠ .specified → SameAngle x a → SameAngle y b → 0 ≤ x → x < 360 → 0 ≤ y → y < 360 → ¬ Allowed m (y - x) →
    Allowed m (y - (x + 360)) → FixUp m a b (x + 360) y
  | second {m : HueMethod} {a b x y : ℝ} : m ≠ .specified → SameAngle x a → SameAngle y b → 0 ≤ x → x < 360 → 0 ≤ y → y < 360 → ¬ Allowed m (y - x) →
    Allowed m (y + 360 - x) → FixUp m a b x (y + 360)

/-- A component that is missing in one color is taken from the other one; it is missing if it is missing in both. -/
inductive Filled : F → F → Option (ℝ × ℝ) → Prop
  | both (x y : ℝ) : Filled (some x) (some y) (some (x, y))
  | first (x : ℝ) : Filled (some x) none (some (x, x))
  | second (y : ℝ) : Filled none (some y) (some (y, y))
  | neither : Filled none none none

/-- The shares of the two colors, which add up to one. -/
noncomputable def share (p q : ℝ) : ℝ := p / (p + q)

/-- The mixture of a component that is not a hue: colors are weighted by their opacity. If the mixture is transparent, the component does not matter: it is zero or missing. -/
inductive Mixed (p q : ℝ) (alpha : Option (ℝ × ℝ)) : F → F → F → Prop
  | missing {x y : F} : Filled x y none → Mixed p q alpha x y none
  | plain {x y : F} {u v : ℝ} : Filled x y (some (u, v)) → alpha = none → Mixed p q alpha x y (some (share p q * u + share q p * v))
  | weighted {x y : F} {u v s t : ℝ} : Filled x y (some (u, v)) → alpha = some (s, t) → share p q * s + share q p * t ≠ 0 →
    Mixed p q alpha x y (some ((share p q * s * u + share q p * t * v) / (share p q * s + share q p * t)))
  | transparent {x y z : F} {s t : ℝ} : alpha = some (s, t) → share p q * s + share q p * t = 0 → z = none ∨ z = some 0 → Mixed p q alpha x y z

/-- The mixture of hues, up to whole turns. -/
inductive MixedHue (m : HueMethod) (p q : ℝ) : F → F → F → Prop
  | missing {x y : F} : Filled x y none → MixedHue m p q x y none
  | turn {x y : F} {u v θ φ h : ℝ} : Filled x y (some (u, v)) → FixUp m u v θ φ → SameAngle h (share p q * θ + share q p * φ) → |h| < 360 → MixedHue m p q x y (some h)

/-- The opacity: percentages that add up to less than 100% make the mixture more transparent. -/
inductive MixedAlpha (p q : ℝ) : Option (ℝ × ℝ) → F → Prop
  | missing : MixedAlpha p q none none
  | some {s t : ℝ} : MixedAlpha p q (some (s, t)) (some ((share p q * s + share q p * t) * min 1 (p + q)))

/-- The mixture of two colors of a color space. -/
def IsMix (s : Space) (m : HueMethod) (p q : ℝ) (x y z : Col) : Prop :=
  ∃ alpha, Filled x.alpha y.alpha alpha ∧ MixedAlpha p q alpha z.alpha ∧
    match s with
    | .rect => Mixed p q alpha x.a y.a z.a ∧ Mixed p q alpha x.b y.b z.b ∧ Mixed p q alpha x.c y.c z.c
    | .hueThird => Mixed p q alpha x.a y.a z.a ∧ Mixed p q alpha x.b y.b z.b ∧ MixedHue m p q x.c y.c z.c
    | .hueFirst => MixedHue m p q x.a y.a z.a ∧ Mixed p q alpha x.b y.b z.b ∧ Mixed p q alpha x.c y.c z.c

/-- A percentage of `color-mix()` that is valid. -/
def InRange (p : Option ℝ) : Prop := ∀ v, p = some v → 0 ≤ v ∧ v ≤ 1

/-- The percentages of `color-mix()`, CSS Color 5 §3.1. -/
inductive Shares : Option ℝ → Option ℝ → ℝ → ℝ → Prop
  | neither : Shares none none (1 / 2) (1 / 2)
  | first {p : ℝ} : InRange (some p) → Shares (some p) none p (1 - p)
  | second {q : ℝ} : InRange (some q) → Shares none (some q) (1 - q) q
  | both {p q : ℝ} : InRange (some p) → InRange (some q) → p + q ≠ 0 → Shares (some p) (some q) p q

/-- The color in a color scheme. -/
def Css.resolve {α : Type} (dark : Bool) : Css α → Option α
  | .keyword => none
  | .color x => some x
  | .lightDark l d => if dark then d.resolve dark else l.resolve dark

/-- `f(n)` of the conversion of HSL to RGB in CSS Color 4 §7.1; `h` in degrees, `s` and `l` between 0 and 1. `k = (n + h / 30) % 12`. -/
noncomputable def hslChannel (h s l n : ℝ) : ℝ :=
  let k := (n + h / 30) - 12 * ⌊(n + h / 30) / 12⌋
  l - s * min l (1 - l) * max (-1) (min (min (k - 3) (9 - k)) 1)

/-- The color of `hsl(h s% l%)`. -/
noncomputable def hslColor (h s l : ℝ) : Triple := ⟨hslChannel h (s / 100) (l / 100) 0, hslChannel h (s / 100) (l / 100) 8, hslChannel h (s / 100) (l / 100) 4⟩

open Classical in
/-- The color of `hwb(h w% b%)`, CSS Color 4 §8.1: the hue, mixed with white and black. -/
noncomputable def hwbColor (h w b : ℝ) : Triple :=
  if 100 ≤ w + b then ⟨w / (w + b), w / (w + b), w / (w + b)⟩
  else
    let t := hslColor h 100 50
    ⟨t.x * (1 - w / 100 - b / 100) + w / 100, t.y * (1 - w / 100 - b / 100) + w / 100, t.z * (1 - w / 100 - b / 100) + w / 100⟩

end Verif.Mix
