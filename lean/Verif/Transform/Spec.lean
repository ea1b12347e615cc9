import Verif.Transform.Model
/-!
# What transforms mean (CSS Transforms 1 and 2), written without the functions of the model

A transform function is a map of homogeneous coordinates. The values of a style sheet are resolved in an environment.
-/
namespace Verif.Transform

/-- What values are resolved against. -/
structure Env where
  /-- pixels per relative unit -/
  unit : Nat → ℝ
  /-- the size of the reference box -/
  width : ℝ
  height : ℝ
  /-- calculations of lengths -/
  lcalc : Nat → ℝ
  /-- calculations with percentages, given what 100% stands for -/
  mcalc : Nat → ℝ → ℝ

/-- Pixels per unit, CSS Values 4 §6. -/
noncomputable def pixels (env : Env) : LUnit → ℝ
  | .px => 1
  | .inch => 96
  | .cm => 96 / 2.54
  | .mm => 96 / 25.4
  | .q => 96 / 101.6
  | .pt => 96 / 72
  | .pc => 16
  | .rel k => env.unit k

open Classical in
/-- `<length>`: the only number that is a length is zero. -/
noncomputable def length (env : Env) : Arg → Option ℝ
  | .len v u => some (v * pixels env u)
  | .num v => if v = 0 then some 0 else none
  | .lcalc i => some (env.lcalc i)
  | _ => none

open Classical in
/-- `<length-percentage>`. -/
noncomputable def lengthPct (env : Env) (base : ℝ) : Arg → Option ℝ
  | .len v u => some (v * pixels env u)
  | .num v => if v = 0 then some 0 else none
  | .pct p => some (p * base)
  | .mcalc i => some (env.mcalc i base)
  | _ => none

/-- An angle in radians: a circle is 360 degrees, 400 gradians, one turn or 2π radians. -/
noncomputable def radians : Ang → ℝ
  | .deg v => v / 360 * (2 * Real.pi)
  | .grad v => v / 400 * (2 * Real.pi)
  | .turn v => v * (2 * Real.pi)
  | .rad v => v

open Classical in
/-- `<angle> | <zero>`. -/
noncomputable def angle : Arg → Option ℝ
  | .ang a => some (radians a)
  | .num v => if v = 0 then some 0 else none
  | _ => none

/-- `<number>`. -/
def number : Arg → Option ℝ
  | .num v => some v
  | _ => none

/-- `<number> | <percentage>`. -/
def numberPct : Arg → Option ℝ
  | .num v => some v
  | .pct v => some v
  | _ => none

/-- A map of homogeneous coordinates. -/
abbrev Map := Vec4 → Vec4

def translation (tx ty tz : ℝ) : Map := fun p => ⟨p.x + tx * p.w, p.y + ty * p.w, p.z + tz * p.w, p.w⟩
def scaling (sx sy sz : ℝ) : Map := fun p => ⟨sx * p.x, sy * p.y, sz * p.z, p.w⟩
noncomputable def rotationX (t : ℝ) : Map := fun p =>
  ⟨p.x, Real.cos t * p.y - Real.sin t * p.z, Real.sin t * p.y + Real.cos t * p.z, p.w⟩
noncomputable def rotationY (t : ℝ) : Map := fun p =>
  ⟨Real.cos t * p.x + Real.sin t * p.z, p.y, -Real.sin t * p.x + Real.cos t * p.z, p.w⟩
noncomputable def rotationZ (t : ℝ) : Map := fun p =>
  ⟨Real.cos t * p.x - Real.sin t * p.y, Real.sin t * p.x + Real.cos t * p.y, p.z, p.w⟩

/-- Rotation about a unit vector (Rodrigues): `v cos t + (k × v) sin t + k (k · v) (1 - cos t)`. -/
noncomputable def rotationUnit (x y z t : ℝ) : Map := fun p =>
  let d := x * p.x + y * p.y + z * p.z
  ⟨p.x * Real.cos t + (y * p.z - z * p.y) * Real.sin t + x * d * (1 - Real.cos t),
   p.y * Real.cos t + (z * p.x - x * p.z) * Real.sin t + y * d * (1 - Real.cos t),
   p.z * Real.cos t + (x * p.y - y * p.x) * Real.sin t + z * d * (1 - Real.cos t), p.w⟩

open Classical in
/-- Rotation about a vector, which does nothing if that has no direction. -/
noncomputable def rotation (x y z t : ℝ) : Map :=
  if x = 0 ∧ y = 0 ∧ z = 0 then id else
  let n := Real.sqrt (x ^ 2 + y ^ 2 + z ^ 2)
  rotationUnit (x / n) (y / n) (z / n) t

noncomputable def skewing (a b : ℝ) : Map := fun p => ⟨p.x + Real.tan a * p.y, Real.tan b * p.x + p.y, p.z, p.w⟩

/-- Perspective from a distance; distances below one pixel count as one pixel. -/
noncomputable def perspectiveMap (d : ℝ) : Map := fun p => ⟨p.x, p.y, p.z, p.w - p.z / max d 1⟩

/-- `matrix(a, b, c, d, e, f)`. -/
def affine (a b c d e f : ℝ) : Map := fun p => ⟨a * p.x + c * p.y + e * p.w, b * p.x + d * p.y + f * p.w, p.z, p.w⟩

/-- `matrix3d()`: sixteen numbers in column-major order. -/
def projective (a1 b1 c1 d1 a2 b2 c2 d2 a3 b3 c3 d3 a4 b4 c4 d4 : ℝ) : Map := fun p =>
  ⟨a1 * p.x + a2 * p.y + a3 * p.z + a4 * p.w, b1 * p.x + b2 * p.y + b3 * p.z + b4 * p.w,
   c1 * p.x + c2 * p.y + c3 * p.z + c4 * p.w, d1 * p.x + d2 * p.y + d3 * p.z + d4 * p.w⟩

open Classical in
/-- What `perspective()` takes: a length that is not a negative constant. -/
noncomputable def distance (env : Env) : Arg → Option ℝ
  | .len v u => if v < 0 then none else some (v * pixels env u)
  | .num v => if v = 0 then some 0 else none
  | .lcalc i => some (env.lcalc i)
  | _ => none

/-- The map of a function call, if the call is valid. -/
noncomputable def callMap (env : Env) : Call → Option Map
  | ⟨.translate, [x]⟩ => do some (translation (← lengthPct env env.width x) 0 0)
  | ⟨.translate, [x, y]⟩ => do some (translation (← lengthPct env env.width x) (← lengthPct env env.height y) 0)
  | ⟨.translateX, [x]⟩ => do some (translation (← lengthPct env env.width x) 0 0)
  | ⟨.translateY, [y]⟩ => do some (translation 0 (← lengthPct env env.height y) 0)
  | ⟨.translateZ, [z]⟩ => do some (translation 0 0 (← length env z))
  | ⟨.translate3d, [x, y, z]⟩ => do some (translation (← lengthPct env env.width x) (← lengthPct env env.height y) (← length env z))
  | ⟨.scale, [x]⟩ => do some (scaling (← numberPct x) (← numberPct x) 1)
  | ⟨.scale, [x, y]⟩ => do some (scaling (← numberPct x) (← numberPct y) 1)
  | ⟨.scaleX, [x]⟩ => do some (scaling (← numberPct x) 1 1)
  | ⟨.scaleY, [y]⟩ => do some (scaling 1 (← numberPct y) 1)
  | ⟨.scaleZ, [z]⟩ => do some (scaling 1 1 (← numberPct z))
  | ⟨.scale3d, [x, y, z]⟩ => do some (scaling (← numberPct x) (← numberPct y) (← numberPct z))
  | ⟨.rotate, [a]⟩ => do some (rotationZ (← angle a))
  | ⟨.rotateX, [a]⟩ => do some (rotationX (← angle a))
  | ⟨.rotateY, [a]⟩ => do some (rotationY (← angle a))
  | ⟨.rotateZ, [a]⟩ => do some (rotationZ (← angle a))
  | ⟨.rotate3d, [x, y, z, a]⟩ => do some (rotation (← number x) (← number y) (← number z) (← angle a))
  | ⟨.skew, [a]⟩ => do some (skewing (← angle a) 0)
  | ⟨.skew, [a, b]⟩ => do some (skewing (← angle a) (← angle b))
  | ⟨.skewX, [a]⟩ => do some (skewing (← angle a) 0)
  | ⟨.skewY, [b]⟩ => do some (skewing 0 (← angle b))
  | ⟨.perspective, [d]⟩ => do some (perspectiveMap (← distance env d))
  | ⟨.matrix, [a, b, c, d, e, f]⟩ => do some (affine (← number a) (← number b) (← number c) (← number d) (← number e) (← number f))
  | ⟨.matrix3d, [a, b, c, d, e, f, g, h, i, j, k, l, m, n, o, p]⟩ => do
    some (projective (← number a) (← number b) (← number c) (← number d) (← number e) (← number f) (← number g) (← number h)
      (← number i) (← number j) (← number k) (← number l) (← number m) (← number n) (← number o) (← number p))
  | _ => none

/-- The map of several functions: the last one is applied first. -/
def compose : List Map → Map
  | [] => id
  | f :: fs => f ∘ compose fs

/-- The map of a value of the property `transform`: `some none` for the keyword `none`, which makes no transformed element. -/
noncomputable def valueMap (env : Env) : Value → Option (Option Map)
  | .none => some Option.none
  | .calls [] => Option.none
  | .calls (c :: cs) => ((c :: cs).mapM (callMap env)).map fun fs => some (compose fs)

/-- The property `translate`. -/
noncomputable def translateProp (env : Env) : PVal → Option (Option Map)
  | .none => some Option.none
  | .args [x] => do some (some (translation (← lengthPct env env.width x) 0 0))
  | .args [x, y] => do some (some (translation (← lengthPct env env.width x) (← lengthPct env env.height y) 0))
  | .args [x, y, z] => do
    some (some (translation (← lengthPct env env.width x) (← lengthPct env env.height y) (← length env z)))
  | _ => Option.none

/-- The property `scale`. -/
noncomputable def scaleProp : PVal → Option (Option Map)
  | .none => some Option.none
  | .args [x] => do some (some (scaling (← numberPct x) (← numberPct x) 1))
  | .args [x, y] => do some (some (scaling (← numberPct x) (← numberPct y) 1))
  | .args [x, y, z] => do some (some (scaling (← numberPct x) (← numberPct y) (← numberPct z)))
  | _ => Option.none

/-- Rotation about one of the axes of coordinates. -/
noncomputable def aboutAxis (k : Fin 3) (t : ℝ) : Map := match k with
  | 0 => rotationX t
  | 1 => rotationY t
  | 2 => rotationZ t

/-- The property `rotate`: an angle, and before or after it an axis. -/
noncomputable def rotateProp : PVal → Option (Option Map)
  | .none => some Option.none
  | .args [.ang a] => some (some (rotationZ (radians a)))
  | .args [.axis k, .ang a] => some (some (aboutAxis k (radians a)))
  | .args [.ang a, .axis k] => some (some (aboutAxis k (radians a)))
  | .args [.num x, .num y, .num z, .ang a] => some (some (rotation x y z (radians a)))
  | .args [.ang a, .num x, .num y, .num z] => some (some (rotation x y z (radians a)))
  | _ => Option.none

end Verif.Transform
