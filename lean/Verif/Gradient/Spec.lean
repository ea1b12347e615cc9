import Verif.Gradient.Model
import Verif.Position.Spec
import Mathlib.Analysis.SpecialFunctions.Pow.Real
/-!
# What gradients mean (CSS Images 3 and 4), written without the functions of the model
-/
namespace Verif.Gradient
open Transform (Env lengthPct length radians angle Arg)
open Position (IsPos)

/-! ## Colour stops -/

/-- A colour stop or a colour hint as it is written. -/
inductive Raw
  | color (c : Nat) (p : Option ℝ)
  | hint (p : ℝ)

/-- A position on the gradient line, given what the values mean. -/
def at? (val : Arg → Option ℝ) : Tok → Option ℝ
  | .pos (.arg a) => val a
  | _ => none

/-- What a segment says: a colour with up to two positions, or a hint. (A position may also stand before the colour; the parser
rejects that, so that the declaration is kept as it is.) -/
def rawSeg (val : Arg → Option ℝ) : Seg → Option (List Raw)
  | [.color c] => some [.color c none]
  | [.color c, t] => do some [.color c (some (← at? val t))]
  | [.color c, t, u] => do some [.color c (some (← at? val t)), .color c (some (← at? val u))]
  | [t] => do some [.hint (← at? val t)]
  | _ => none

/-- A colour stop with the hint that stands before it. -/
structure Stop where
  hint : Option ℝ
  color : Nat
  pos : Option ℝ

/-- Hints stand between two colour stops. -/
def attach : Option ℝ → List Raw → Option (List Stop)
  | none, [] => some []
  | some _, [] => none
  | none, .hint p :: r => attach (some p) r
  | some _, .hint _ :: _ => none
  | h, .color c p :: r => (attach none r).map (⟨h, c, p⟩ :: ·)

/-- The colour stops of a gradient: at least two, with no hint before the first. -/
def IsStops (val : Arg → Option ℝ) (segs : List Seg) (ss : List Stop) : Prop :=
  ∃ raws, segs.mapM (rawSeg val) = some raws ∧ attach none raws.flatten = some ss ∧ 2 ≤ ss.length ∧ ∀ s, ss.head? = some s → s.hint = none

/-- A colour stop with the position that is used. -/
structure Point where
  hint : Option ℝ
  color : Nat
  pos : ℝ

/-- A first stop without a position is put at `p`. -/
def startAt (p : ℝ) : List Stop → List Stop
  | ⟨h, c, none⟩ :: r => ⟨h, c, some p⟩ :: r
  | ss => ss

/-- Fix-up, step 1: the first stop is at the start, the last one at the end, of a gradient line of length `len`. -/
def ends (len : ℝ) (ss : List Stop) : List Stop := (startAt len (startAt 0 ss).reverse).reverse

/-- Fix-up, step 2: no hint and no stop comes before what precedes it. -/
noncomputable def raise : ℝ → List Stop → List Stop
  | _, [] => []
  | m, ⟨none, c, none⟩ :: r => ⟨none, c, none⟩ :: raise m r
  | m, ⟨some h, c, none⟩ :: r => ⟨some (max m h), c, none⟩ :: raise (max m h) r
  | m, ⟨none, c, some p⟩ :: r => ⟨none, c, some (max m p)⟩ :: raise (max m p) r
  | m, ⟨some h, c, some p⟩ :: r => ⟨some (max m h), c, some (max (max m h) p)⟩ :: raise (max (max m h) p) r

/-- Step 2 for a list that starts with a position. -/
noncomputable def monotone : List Stop → List Stop
  | ⟨h, c, some p⟩ :: r => ⟨h, c, some p⟩ :: raise p r
  | ss => ss

/-- A point is what the stop says. -/
def Fits (s : Stop) (p : Point) : Prop := s.hint = p.hint ∧ s.color = p.color ∧ ∀ v, s.pos = some v → p.pos = v

/-- Fix-up, step 3: a stop without a position is in the middle between its neighbours, so that runs of such stops are evenly spaced. -/
def Spaced (ss : List Stop) (ps : List Point) : Prop :=
  List.Forall₂ Fits ss ps ∧ ∀ a b c : Stop × Point, [a, b, c] <:+: ss.zip ps → b.1.pos = none → 2 * b.2.pos = a.2.pos + c.2.pos

/-- The positions that are used for a gradient line of length `len`. -/
def Resolved (len : ℝ) (ss : List Stop) (ps : List Point) : Prop := Spaced (monotone (ends len ss)) ps

/-- How colours are mixed: `mix a b w` is `a` for `w = 0` and `b` for `w = 1`. -/
structure Mixer where
  Paint : Type
  solid : Nat → Paint
  mix : Nat → Nat → ℝ → Paint
  symm : ∀ a b w, mix a b w = mix b a (1 - w)

open Classical in
/-- How much of the second colour there is at `t` between the stops at `a` and `b`. -/
noncomputable def weight (hint : Option ℝ) (a b t : ℝ) : ℝ :=
  match hint with
  | none => (t - a) / (b - a)
  | some h =>
    let m := (h - a) / (b - a)
    if m ≤ 0 then 1 else if 1 ≤ m then 0 else ((t - a) / (b - a)) ^ (Real.log (1 / 2) / Real.log m)

/-- The colour at the place `t` of the gradient line, if that is not the place of a stop. -/
inductive Paints (M : Mixer) (ps : List Point) (t : ℝ) : M.Paint → Prop
  | before {a : Point} : ps.head? = some a → t < a.pos → Paints M ps t (M.solid a.color)
  | after {a : Point} : ps.getLast? = some a → a.pos < t → Paints M ps t (M.solid a.color)
  | between {a b : Point} : [a, b] <:+: ps → a.pos < t → t < b.pos → Paints M ps t (M.mix a.color b.color (weight b.hint a.pos b.pos t))

/-- The same for a repeating gradient, whose stops do not all have the same place. -/
def Repeats (M : Mixer) (ps : List Point) (t : ℝ) (m : M.Paint) : Prop :=
  ∃ a b, ps.head? = some a ∧ ps.getLast? = some b ∧ ∃ k : ℤ,
    a.pos < t - k * (b.pos - a.pos) ∧ t - k * (b.pos - a.pos) < b.pos ∧ Paints M ps (t - k * (b.pos - a.pos)) m

/-- The colour at the place `t` of a line of length `len`. -/
def Colour (M : Mixer) (rep : Bool) (len : ℝ) (ss : List Stop) (t : ℝ) (m : M.Paint) : Prop :=
  ∃ ps, Resolved len ss ps ∧ (if rep then Repeats M ps t m else Paints M ps t m)

/-! ## Linear gradients -/

/-- A direction in the plane; `y` points down. -/
structure Vec where
  x : ℝ
  y : ℝ

/-- An angle: `0deg` points up, angles turn clockwise. -/
noncomputable def vecOf (a : ℝ) : Vec := ⟨Real.sin a, -Real.cos a⟩

/-- To a corner: at a right angle to the line between the two neighbouring corners, seen in a square. -/
noncomputable def cornerVec (env : Env) (sx sy : ℝ) : Vec :=
  ⟨sx * env.height / Real.sqrt (env.width ^ 2 + env.height ^ 2), sy * env.width / Real.sqrt (env.width ^ 2 + env.height ^ 2)⟩

/-- The direction of a segment such as `45deg`, `0`, `to left` or `to top left`. -/
inductive IsDir (env : Env) : Seg → Vec → Prop
  | angle {a : Arg} {v : ℝ} : angle a = some v → IsDir env [.pos (.arg a)] (vecOf v)
  | left : IsDir env [.to, .pos (.kw .left)] ⟨-1, 0⟩
  | right : IsDir env [.to, .pos (.kw .right)] ⟨1, 0⟩
  | top : IsDir env [.to, .pos (.kw .top)] ⟨0, -1⟩
  | bottom : IsDir env [.to, .pos (.kw .bottom)] ⟨0, 1⟩
  | topLeft : IsDir env [.to, .pos (.kw .top), .pos (.kw .left)] (cornerVec env (-1) (-1))
  | leftTop : IsDir env [.to, .pos (.kw .left), .pos (.kw .top)] (cornerVec env (-1) (-1))
  | topRight : IsDir env [.to, .pos (.kw .top), .pos (.kw .right)] (cornerVec env 1 (-1))
  | rightTop : IsDir env [.to, .pos (.kw .right), .pos (.kw .top)] (cornerVec env 1 (-1))
  | bottomLeft : IsDir env [.to, .pos (.kw .bottom), .pos (.kw .left)] (cornerVec env (-1) 1)
  | leftBottom : IsDir env [.to, .pos (.kw .left), .pos (.kw .bottom)] (cornerVec env (-1) 1)
  | bottomRight : IsDir env [.to, .pos (.kw .bottom), .pos (.kw .right)] (cornerVec env 1 1)
  | rightBottom : IsDir env [.to, .pos (.kw .right), .pos (.kw .bottom)] (cornerVec env 1 1)

/-- The length of the gradient line. -/
noncomputable def lineLength (env : Env) (d : Vec) : ℝ := |env.width * d.x| + |env.height * d.y|

/-- The place of a point of the box on the gradient line, which goes through the middle of the box. -/
noncomputable def place (env : Env) (d : Vec) (x y : ℝ) : ℝ := (x - env.width / 2) * d.x + (y - env.height / 2) * d.y + lineLength env d / 2

/-- The arguments of a `linear-gradient()`: its direction, or `to bottom`, and its stops. -/
inductive IsLinear (env : Env) : List Seg → Vec → List Stop → Prop
  | dir {s : Seg} {segs : List Seg} {d : Vec} {ss : List Stop} :
    IsDir env s d → IsStops (lengthPct env (lineLength env d)) segs ss → IsLinear env (s :: segs) d ss
  | default {segs : List Seg} {ss : List Stop} :
    IsStops (lengthPct env (lineLength env ⟨0, 1⟩)) segs ss → IsLinear env segs ⟨0, 1⟩ ss

/-- The colour of a linear gradient at the point `(x, y)` of the box. -/
def LinearColour (M : Mixer) (env : Env) (rep : Bool) (segs : List Seg) (x y : ℝ) (m : M.Paint) : Prop :=
  ∃ d ss, IsLinear env segs d ss ∧ Colour M rep (lineLength env d) ss (place env d x y) m

/-! ### Prefixed linear gradients -/

/-- The direction of a prefixed gradient: keywords name the side where the gradient starts, `0deg` points to the right, and angles turn
counterclockwise. -/
inductive IsLegacyDir (env : Env) : Seg → Vec → Prop
  | angle {a : Arg} {v : ℝ} : angle a = some v → IsLegacyDir env [.pos (.arg a)] (vecOf (Real.pi / 2 - v))
  | left : IsLegacyDir env [.pos (.kw .left)] ⟨1, 0⟩
  | right : IsLegacyDir env [.pos (.kw .right)] ⟨-1, 0⟩
  | top : IsLegacyDir env [.pos (.kw .top)] ⟨0, 1⟩
  | bottom : IsLegacyDir env [.pos (.kw .bottom)] ⟨0, -1⟩
  | topLeft : IsLegacyDir env [.pos (.kw .top), .pos (.kw .left)] (cornerVec env 1 1)
  | leftTop : IsLegacyDir env [.pos (.kw .left), .pos (.kw .top)] (cornerVec env 1 1)
  | topRight : IsLegacyDir env [.pos (.kw .top), .pos (.kw .right)] (cornerVec env (-1) 1)
  | rightTop : IsLegacyDir env [.pos (.kw .right), .pos (.kw .top)] (cornerVec env (-1) 1)
  | bottomLeft : IsLegacyDir env [.pos (.kw .bottom), .pos (.kw .left)] (cornerVec env 1 (-1))
  | leftBottom : IsLegacyDir env [.pos (.kw .left), .pos (.kw .bottom)] (cornerVec env 1 (-1))
  | bottomRight : IsLegacyDir env [.pos (.kw .bottom), .pos (.kw .right)] (cornerVec env (-1) (-1))
  | rightBottom : IsLegacyDir env [.pos (.kw .right), .pos (.kw .bottom)] (cornerVec env (-1) (-1))

/-- The arguments of a `-webkit-linear-gradient()`: the default is `top`. -/
inductive IsLegacy (env : Env) : List Seg → Vec → List Stop → Prop
  | dir {s : Seg} {segs : List Seg} {d : Vec} {ss : List Stop} :
    IsLegacyDir env s d → IsStops (lengthPct env (lineLength env d)) segs ss → IsLegacy env (s :: segs) d ss
  | default {segs : List Seg} {ss : List Stop} :
    IsStops (lengthPct env (lineLength env ⟨0, 1⟩)) segs ss → IsLegacy env segs ⟨0, 1⟩ ss

/-- The colour of a prefixed linear gradient at the point `(x, y)` of the box. -/
def LegacyColour (M : Mixer) (env : Env) (rep : Bool) (segs : List Seg) (x y : ℝ) (m : M.Paint) : Prop :=
  ∃ d ss, IsLegacy env segs d ss ∧ Colour M rep (lineLength env d) ss (place env d x y) m

/-! ## Radial and conic gradients -/

/-- An ending shape: an ellipse with two radii, a circle with a radius, or one that meets the box as a keyword says. -/
inductive Ending
  | ellipse (rx ry : ℝ)
  | circle (r : ℝ)
  | ellipseTo (e : Extent)
  | circleTo (e : Extent)

/-- `circle || [ <extent> | <length> ]` or `ellipse || [ <extent> | <length-percentage>{2} ]`. -/
inductive IsShape (env : Env) : Seg → Ending → Prop
  | circle : IsShape env [.circle] (.circleTo .farthestCorner)
  | circleExt {e : Extent} : IsShape env [.circle, .extent e] (.circleTo e)
  | extCircle {e : Extent} : IsShape env [.extent e, .circle] (.circleTo e)
  | circleLen {a : Arg} {r : ℝ} : length env a = some r → IsShape env [.circle, .pos (.arg a)] (.circle r)
  | lenCircle {a : Arg} {r : ℝ} : length env a = some r → IsShape env [.pos (.arg a), .circle] (.circle r)
  | len {a : Arg} {r : ℝ} : length env a = some r → IsShape env [.pos (.arg a)] (.circle r)
  | ellipse : IsShape env [.ellipse] (.ellipseTo .farthestCorner)
  | ext {e : Extent} : IsShape env [.extent e] (.ellipseTo e)
  | ellipseExt {e : Extent} : IsShape env [.ellipse, .extent e] (.ellipseTo e)
  | extEllipse {e : Extent} : IsShape env [.extent e, .ellipse] (.ellipseTo e)
  | size {a b : Arg} {x y : ℝ} : lengthPct env env.width a = some x → lengthPct env env.height b = some y →
    IsShape env [.pos (.arg a), .pos (.arg b)] (.ellipse x y)
  | ellipseSize {a b : Arg} {x y : ℝ} : lengthPct env env.width a = some x → lengthPct env env.height b = some y →
    IsShape env [.ellipse, .pos (.arg a), .pos (.arg b)] (.ellipse x y)
  | sizeEllipse {a b : Arg} {x y : ℝ} : lengthPct env env.width a = some x → lengthPct env env.height b = some y →
    IsShape env [.pos (.arg a), .pos (.arg b), .ellipse] (.ellipse x y)

/-- `at <position>`, or the middle of the box. -/
inductive IsAt (env : Env) : Seg → ℝ → ℝ → Prop
  | pos {ts : List Position.Tok} {x y : ℝ} : IsPos env ts x y → IsAt env (.at :: ts.map .pos) x y
  | none : IsAt env [] (env.width / 2) (env.height / 2)

/-- A shape, or an ellipse to the farthest corner. -/
inductive IsShapeOpt (env : Env) : Seg → Ending → Prop
  | some {s : Seg} {e : Ending} : IsShape env s e → IsShapeOpt env s e
  | none : IsShapeOpt env [] (.ellipseTo .farthestCorner)

/-- The arguments of a `radial-gradient()`: the shape, the centre and the segments of the stops. -/
inductive IsRadial (env : Env) : List Seg → Ending → ℝ → ℝ → List Seg → Prop
  | given {s u : Seg} {segs : List Seg} {e : Ending} {x y : ℝ} :
    s ++ u ≠ [] → IsShapeOpt env s e → IsAt env u x y → IsRadial env ((s ++ u) :: segs) e x y segs
  | absent {segs : List Seg} : IsRadial env segs (.ellipseTo .farthestCorner) (env.width / 2) (env.height / 2) segs

/-- `from <angle>`, or zero. -/
inductive IsFrom : Seg → ℝ → Prop
  | some {a : Arg} {v : ℝ} : angle a = some v → IsFrom [.from, .pos (.arg a)] v
  | none : IsFrom [] 0

/-- The arguments of a `conic-gradient()`: the angle, the centre and the segments of the stops. -/
inductive IsConic (env : Env) : List Seg → ℝ → ℝ → ℝ → List Seg → Prop
  | given {s u : Seg} {segs : List Seg} {v x y : ℝ} :
    s ++ u ≠ [] → IsFrom s v → IsAt env u x y → IsConic env ((s ++ u) :: segs) v x y segs
  | absent {segs : List Seg} : IsConic env segs 0 (env.width / 2) (env.height / 2) segs

/-- `<angle-percentage>` on the circle of a conic gradient. A bare zero is not accepted by the parser, which keeps the declaration as it is. -/
noncomputable def anglePct (env : Env) : Arg → Option ℝ
  | .ang a => some (radians a)
  | .pct p => some (p * (2 * Real.pi))
  | .mcalc i => some (env.mcalc i (2 * Real.pi))
  | _ => none

end Verif.Gradient
