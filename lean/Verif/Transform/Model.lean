import Mathlib.Analysis.SpecialFunctions.Trigonometric.Basic
/-!
# Model of the transform properties (`/repo/src/properties/transform.rs`)

Numbers are real numbers: the rounding of `f32` is not modelled.
-/
namespace Verif.Transform

/-- Units of length, `values/length.rs:84-165`; `rel k` stands for any unit that `to_px` (516-528) does not convert. -/
inductive LUnit
  | px | inch | cm | mm | q | pt | pc | rel (k : Nat)
deriving DecidableEq

/-- `Length`, `values/length.rs:541-547`: a value or a calculation, which is opaque here. -/
inductive Len
  | val (v : ℝ) (u : LUnit)
  | expr (id : Nat)

/-- `LengthPercentage` = `DimensionPercentage<LengthValue>`, `values/percentage.rs:187-195`; calculations are opaque. -/
inductive LP
  | dim (v : ℝ) (u : LUnit)
  | pct (p : ℝ)
  | expr (id : Nat)

/-- `Angle`, `values/angle.rs:33-42`. -/
inductive Ang
  | deg (v : ℝ) | rad (v : ℝ) | grad (v : ℝ) | turn (v : ℝ)

/-- `NumberOrPercentage`, `values/percentage.rs:158-163`; a percentage is stored as a fraction. -/
inductive NP
  | num (v : ℝ) | pct (v : ℝ)

/-- `impl Into<CSSNumber> for &NumberOrPercentage`, `values/percentage.rs:165-172`. -/
def NP.toNum : NP → ℝ
  | .num v => v
  | .pct v => v

/-- `LengthPercentage::zero`, `values/percentage.rs:452-454`. -/
noncomputable def LP.zero : LP := .dim 0 .px
/-- `Length::zero`, `values/length.rs:689-691`. -/
noncomputable def Len.zero : Len := .val 0 .px

open Classical in
/-- `LengthPercentage::is_zero`, `values/percentage.rs:456-462` with `values/length.rs:287-294`. -/
noncomputable def LP.isZero : LP → Bool
  | .dim v _ => decide (v = 0)
  | .pct p => decide (p = 0)
  | .expr _ => false

open Classical in
/-- `Length::is_zero`, `values/length.rs:693-698`. -/
noncomputable def Len.isZero : Len → Bool
  | .val v _ => decide (v = 0)
  | .expr _ => false

open Classical in
/-- `Angle::is_zero`, `values/angle.rs` `impl Zero for Angle`. -/
noncomputable def Ang.isZero : Ang → Bool
  | .deg v => decide (v = 0)
  | .rad v => decide (v = 0)
  | .grad v => decide (v = 0)
  | .turn v => decide (v = 0)

/-- `Angle::to_radians`, `values/angle.rs`. -/
noncomputable def Ang.toRadians : Ang → ℝ
  | .deg v => v * (Real.pi / 180)
  | .rad v => v
  | .grad v => v * 180 / 200 * (Real.pi / 180)
  | .turn v => v * 360 * (Real.pi / 180)

/-- `impl Mul<CSSNumber> for Angle`, `values/angle.rs`. -/
noncomputable def Ang.mul (k : ℝ) : Ang → Ang
  | .deg v => .deg (v * k)
  | .rad v => .rad (v * k)
  | .grad v => .grad (v * k)
  | .turn v => .turn (v * k)

/-- `LengthValue::to_px`, `values/length.rs:516-528` with the constants of 77-82. -/
noncomputable def toPx (v : ℝ) : LUnit → Option ℝ
  | .px => some v
  | .inch => some (v * 96)
  | .cm => some (v * (96 / 2.54))
  | .mm => some (v * (96 / 2.54 / 10))
  | .q => some (v * (96 / 2.54 / 40))
  | .pt => some (v * (96 / 72))
  | .pc => some (v * (96 / 6))
  | .rel _ => none

/-- `Length::to_px`, `values/length.rs:635-640`. -/
noncomputable def Len.toPx : Len → Option ℝ
  | .val v u => Transform.toPx v u
  | .expr _ => none

/-! ## Arguments as they stand in a style sheet -/

/-- A component value of a transform function or property: a number, a percentage (as a fraction), a length, an angle, a calculation
that yields a length, a calculation of lengths and percentages, or an axis keyword. Calculations that are resolved by the parser are not modelled here. -/
inductive Arg
  | num (v : ℝ)
  | pct (p : ℝ)
  | len (v : ℝ) (u : LUnit)
  | ang (a : Ang)
  | lcalc (id : Nat)
  | mcalc (id : Nat)
  | axis (k : Fin 3)

/-- `LengthValue::parse`, `values/length.rs:106-124`: a bare number is read as pixels. -/
def parseLV : Arg → Option (ℝ × LUnit)
  | .len v u => some (v, u)
  | .num v => some (v, .px)
  | _ => none

/-- `Length::parse`, `values/length.rs:549-560`. -/
def parseLen : Arg → Option Len
  | .lcalc i => some (.expr i)
  | a => (parseLV a).map fun p => .val p.1 p.2

/-- `LengthPercentage::parse`, `values/percentage.rs:213-229`. -/
def parseLP : Arg → Option LP
  | .mcalc i => some (.expr i)
  | .pct p => some (.pct p)
  | a => (parseLV a).map fun p => .dim p.1 p.2

/-- `f32::parse`, `values/number.rs`. -/
def parseNum : Arg → Option ℝ
  | .num v => some v
  | _ => none

/-- `NumberOrPercentage::parse` (derived, `values/percentage.rs:148-163`). -/
def parseNP : Arg → Option NP
  | .num v => some (.num v)
  | .pct v => some (.pct v)
  | _ => none

open Classical in
/-- `Angle::parse_with_unitless_zero`, `values/angle.rs:52-85`. -/
noncomputable def parseAng0 : Arg → Option Ang
  | .ang a => some a
  | .num v => if v = 0 then some (.deg 0) else none
  | _ => none

/-- `Angle::parse`, `values/angle.rs:45-49`. -/
def parseAng : Arg → Option Ang
  | .ang a => some a
  | _ => none

open Classical in
/-- `LengthValue::to_css`, `values/length.rs`: a zero is printed without its unit. -/
noncomputable def printLV (v : ℝ) (u : LUnit) : Arg := if v = 0 then .num 0 else .len v u

/-- `Length::to_css`, `values/length.rs:562-572`. -/
noncomputable def Len.print : Len → Arg
  | .val v u => printLV v u
  | .expr i => .lcalc i

/-- `LengthPercentage::to_css`, `values/percentage.rs`. -/
noncomputable def LP.print : LP → Arg
  | .dim v u => printLV v u
  | .pct p => .pct p
  | .expr i => .mcalc i

/-- `NumberOrPercentage::to_css` (derived, `values/percentage.rs:148-163`). -/
def NP.print : NP → Arg
  | .num v => .num v
  | .pct v => .pct v

/-- `Angle::to_css`, `values/angle.rs:104-132`: radians are printed in degrees (the test at 117 holds of all finite numbers). -/
noncomputable def Ang.print : Ang → Arg
  | .rad v => .ang (.deg (v * (180 / Real.pi)))
  | a => .ang a

/-- `Angle::to_css_with_unitless_zero`, `values/angle.rs:134-147`. -/
noncomputable def Ang.print0 (a : Ang) : Arg := if a.isZero then .num 0 else a.print

/-! ## Matrices -/

/-- `Matrix`, `transform.rs:217-224`. -/
structure Matrix where
  (a b c d e f : ℝ)

/-- `Matrix3d`, `transform.rs:256-273`. -/
@[ext] structure Matrix3d where
  (m11 m12 m13 m14 m21 m22 m23 m24 m31 m32 m33 m34 m41 m42 m43 m44 : ℝ)

/-- `Matrix::to_matrix3d`, `transform.rs:228-247`. -/
def Matrix.toMatrix3d (m : Matrix) : Matrix3d :=
  ⟨m.a, m.b, 0, 0, m.c, m.d, 0, 0, 0, 0, 1, 0, m.e, m.f, 0, 1⟩

namespace Matrix3d

/-- `Matrix3d::identity`, `transform.rs:278-297`. -/
def identity : Matrix3d := ⟨1, 0, 0, 0, 0, 1, 0, 0, 0, 0, 1, 0, 0, 0, 0, 1⟩

/-- `Matrix3d::translate`, `transform.rs:300-319`. -/
def translate (x y z : ℝ) : Matrix3d := ⟨1, 0, 0, 0, 0, 1, 0, 0, 0, 0, 1, 0, x, y, z, 1⟩

/-- `Matrix3d::scale`, `transform.rs:322-341`. -/
def scale (x y z : ℝ) : Matrix3d := ⟨x, 0, 0, 0, 0, y, 0, 0, 0, 0, z, 0, 0, 0, 0, 1⟩

open Classical in
/-- `Matrix3d::rotate`, `transform.rs:344-386`. -/
noncomputable def rotate (x y z angle : ℝ) : Matrix3d :=
  let length := Real.sqrt (x * x + y * y + z * z)
  if length = 0 then identity else
  let x := x / length
  let y := y / length
  let z := z / length
  let half := angle / 2
  let sin := Real.sin half
  let sc := sin * Real.cos half
  let sq := sin * sin
  ⟨1 - 2 * (y * y + z * z) * sq, 2 * (x * y * sq + z * sc), 2 * (x * z * sq - y * sc), 0,
   2 * (x * y * sq - z * sc), 1 - 2 * (x * x + z * z) * sq, 2 * (y * z * sq + x * sc), 0,
   2 * (x * z * sq + y * sc), 2 * (y * z * sq - x * sc), 1 - 2 * (x * x + y * y) * sq, 0,
   0, 0, 0, 1⟩

/-- `Matrix3d::skew`, `transform.rs:390-409`. -/
noncomputable def skew (a b : ℝ) : Matrix3d := ⟨1, Real.tan b, 0, 0, Real.tan a, 1, 0, 0, 0, 0, 1, 0, 0, 0, 0, 1⟩

/-- `Matrix3d::perspective`, `transform.rs:412-431`. -/
noncomputable def perspective (d : ℝ) : Matrix3d := ⟨1, 0, 0, 0, 0, 1, 0, 0, 0, 0, 1, -1 / d, 0, 0, 0, 1⟩

/-- `Matrix3d::multiply`, `transform.rs:434-453`. -/
def multiply (s o : Matrix3d) : Matrix3d where
  m11 := s.m11 * o.m11 + s.m12 * o.m21 + s.m13 * o.m31 + s.m14 * o.m41
  m12 := s.m11 * o.m12 + s.m12 * o.m22 + s.m13 * o.m32 + s.m14 * o.m42
  m13 := s.m11 * o.m13 + s.m12 * o.m23 + s.m13 * o.m33 + s.m14 * o.m43
  m14 := s.m11 * o.m14 + s.m12 * o.m24 + s.m13 * o.m34 + s.m14 * o.m44
  m21 := s.m21 * o.m11 + s.m22 * o.m21 + s.m23 * o.m31 + s.m24 * o.m41
  m22 := s.m21 * o.m12 + s.m22 * o.m22 + s.m23 * o.m32 + s.m24 * o.m42
  m23 := s.m21 * o.m13 + s.m22 * o.m23 + s.m23 * o.m33 + s.m24 * o.m43
  m24 := s.m21 * o.m14 + s.m22 * o.m24 + s.m23 * o.m34 + s.m24 * o.m44
  m31 := s.m31 * o.m11 + s.m32 * o.m21 + s.m33 * o.m31 + s.m34 * o.m41
  m32 := s.m31 * o.m12 + s.m32 * o.m22 + s.m33 * o.m32 + s.m34 * o.m42
  m33 := s.m31 * o.m13 + s.m32 * o.m23 + s.m33 * o.m33 + s.m34 * o.m43
  m34 := s.m31 * o.m14 + s.m32 * o.m24 + s.m33 * o.m34 + s.m34 * o.m44
  m41 := s.m41 * o.m11 + s.m42 * o.m21 + s.m43 * o.m31 + s.m44 * o.m41
  m42 := s.m41 * o.m12 + s.m42 * o.m22 + s.m43 * o.m32 + s.m44 * o.m42
  m43 := s.m41 * o.m13 + s.m42 * o.m23 + s.m43 * o.m33 + s.m44 * o.m43
  m44 := s.m41 * o.m14 + s.m42 * o.m24 + s.m43 * o.m34 + s.m44 * o.m44

open Classical in
/-- `Matrix3d::is_2d`, `transform.rs:456-467`. -/
noncomputable def is2d (s : Matrix3d) : Bool :=
  decide (s.m31 = 0) && decide (s.m32 = 0) && decide (s.m13 = 0) && decide (s.m23 = 0) && decide (s.m43 = 0)
    && decide (s.m14 = 0) && decide (s.m24 = 0) && decide (s.m34 = 0) && decide (s.m33 = 1) && decide (s.m44 = 1)

/-- `Matrix3d::to_matrix2d`, `transform.rs:471-483`. -/
noncomputable def toMatrix2d (s : Matrix3d) : Option Matrix :=
  if s.is2d then some ⟨s.m11, s.m12, s.m21, s.m22, s.m41, s.m42⟩ else none

/-- `Matrix3d::scale_by_factor`, `transform.rs:486-503`. -/
def scaleByFactor (s : Matrix3d) (k : ℝ) : Matrix3d :=
  ⟨s.m11 * k, s.m12 * k, s.m13 * k, s.m14 * k, s.m21 * k, s.m22 * k, s.m23 * k, s.m24 * k,
   s.m31 * k, s.m32 * k, s.m33 * k, s.m34 * k, s.m41 * k, s.m42 * k, s.m43 * k, s.m44 * k⟩

/-- `Matrix3d::determinant`, `transform.rs:506-531`. -/
def determinant (s : Matrix3d) : ℝ :=
  s.m14 * s.m23 * s.m32 * s.m41
    - s.m13 * s.m24 * s.m32 * s.m41
    - s.m14 * s.m22 * s.m33 * s.m41
    + s.m12 * s.m24 * s.m33 * s.m41
    + s.m13 * s.m22 * s.m34 * s.m41
    - s.m12 * s.m23 * s.m34 * s.m41
    - s.m14 * s.m23 * s.m31 * s.m42
    + s.m13 * s.m24 * s.m31 * s.m42
    + s.m14 * s.m21 * s.m33 * s.m42
    - s.m11 * s.m24 * s.m33 * s.m42
    - s.m13 * s.m21 * s.m34 * s.m42
    + s.m11 * s.m23 * s.m34 * s.m42
    + s.m14 * s.m22 * s.m31 * s.m43
    - s.m12 * s.m24 * s.m31 * s.m43
    - s.m14 * s.m21 * s.m32 * s.m43
    + s.m11 * s.m24 * s.m32 * s.m43
    + s.m12 * s.m21 * s.m34 * s.m43
    - s.m11 * s.m22 * s.m34 * s.m43
    - s.m13 * s.m22 * s.m31 * s.m44
    + s.m12 * s.m23 * s.m31 * s.m44
    + s.m13 * s.m21 * s.m32 * s.m44
    - s.m11 * s.m23 * s.m32 * s.m44
    - s.m12 * s.m21 * s.m33 * s.m44
    + s.m11 * s.m22 * s.m33 * s.m44

open Classical in
/-- `Matrix3d::inverse`, `transform.rs:534-622`. -/
noncomputable def inverse (s : Matrix3d) : Option Matrix3d :=
  let det0 := s.determinant
  if det0 = 0 then none else
  let det := 1 / det0
  some {
    m11 := det * (s.m23 * s.m34 * s.m42 - s.m24 * s.m33 * s.m42 + s.m24 * s.m32 * s.m43 - s.m22 * s.m34 * s.m43 - s.m23 * s.m32 * s.m44 + s.m22 * s.m33 * s.m44)
    m12 := det * (s.m14 * s.m33 * s.m42 - s.m13 * s.m34 * s.m42 - s.m14 * s.m32 * s.m43 + s.m12 * s.m34 * s.m43 + s.m13 * s.m32 * s.m44 - s.m12 * s.m33 * s.m44)
    m13 := det * (s.m13 * s.m24 * s.m42 - s.m14 * s.m23 * s.m42 + s.m14 * s.m22 * s.m43 - s.m12 * s.m24 * s.m43 - s.m13 * s.m22 * s.m44 + s.m12 * s.m23 * s.m44)
    m14 := det * (s.m14 * s.m23 * s.m32 - s.m13 * s.m24 * s.m32 - s.m14 * s.m22 * s.m33 + s.m12 * s.m24 * s.m33 + s.m13 * s.m22 * s.m34 - s.m12 * s.m23 * s.m34)
    m21 := det * (s.m24 * s.m33 * s.m41 - s.m23 * s.m34 * s.m41 - s.m24 * s.m31 * s.m43 + s.m21 * s.m34 * s.m43 + s.m23 * s.m31 * s.m44 - s.m21 * s.m33 * s.m44)
    m22 := det * (s.m13 * s.m34 * s.m41 - s.m14 * s.m33 * s.m41 + s.m14 * s.m31 * s.m43 - s.m11 * s.m34 * s.m43 - s.m13 * s.m31 * s.m44 + s.m11 * s.m33 * s.m44)
    m23 := det * (s.m14 * s.m23 * s.m41 - s.m13 * s.m24 * s.m41 - s.m14 * s.m21 * s.m43 + s.m11 * s.m24 * s.m43 + s.m13 * s.m21 * s.m44 - s.m11 * s.m23 * s.m44)
    m24 := det * (s.m13 * s.m24 * s.m31 - s.m14 * s.m23 * s.m31 + s.m14 * s.m21 * s.m33 - s.m11 * s.m24 * s.m33 - s.m13 * s.m21 * s.m34 + s.m11 * s.m23 * s.m34)
    m31 := det * (s.m22 * s.m34 * s.m41 - s.m24 * s.m32 * s.m41 + s.m24 * s.m31 * s.m42 - s.m21 * s.m34 * s.m42 - s.m22 * s.m31 * s.m44 + s.m21 * s.m32 * s.m44)
    m32 := det * (s.m14 * s.m32 * s.m41 - s.m12 * s.m34 * s.m41 - s.m14 * s.m31 * s.m42 + s.m11 * s.m34 * s.m42 + s.m12 * s.m31 * s.m44 - s.m11 * s.m32 * s.m44)
    m33 := det * (s.m12 * s.m24 * s.m41 - s.m14 * s.m22 * s.m41 + s.m14 * s.m21 * s.m42 - s.m11 * s.m24 * s.m42 - s.m12 * s.m21 * s.m44 + s.m11 * s.m22 * s.m44)
    m34 := det * (s.m14 * s.m22 * s.m31 - s.m12 * s.m24 * s.m31 - s.m14 * s.m21 * s.m32 + s.m11 * s.m24 * s.m32 + s.m12 * s.m21 * s.m34 - s.m11 * s.m22 * s.m34)
    m41 := det * (s.m23 * s.m32 * s.m41 - s.m22 * s.m33 * s.m41 - s.m23 * s.m31 * s.m42 + s.m21 * s.m33 * s.m42 + s.m22 * s.m31 * s.m43 - s.m21 * s.m32 * s.m43)
    m42 := det * (s.m12 * s.m33 * s.m41 - s.m13 * s.m32 * s.m41 + s.m13 * s.m31 * s.m42 - s.m11 * s.m33 * s.m42 - s.m12 * s.m31 * s.m43 + s.m11 * s.m32 * s.m43)
    m43 := det * (s.m13 * s.m22 * s.m41 - s.m12 * s.m23 * s.m41 - s.m13 * s.m21 * s.m42 + s.m11 * s.m23 * s.m42 + s.m12 * s.m21 * s.m43 - s.m11 * s.m22 * s.m43)
    m44 := det * (s.m12 * s.m23 * s.m31 - s.m13 * s.m22 * s.m31 + s.m13 * s.m21 * s.m32 - s.m11 * s.m23 * s.m32 - s.m12 * s.m21 * s.m33 + s.m11 * s.m22 * s.m33)
  }

/-- `Matrix3d::transpose`, `transform.rs:626-645`. -/
def transpose (s : Matrix3d) : Matrix3d :=
  ⟨s.m11, s.m21, s.m31, s.m41, s.m12, s.m22, s.m32, s.m42, s.m13, s.m23, s.m33, s.m43, s.m14, s.m24, s.m34, s.m44⟩

end Matrix3d

/-- An array `[f32; 4]`: the homogeneous coordinates of a point. -/
@[ext] structure Vec4 where
  (x y z w : ℝ)

/-- `Matrix3d::multiply_vector`, `transform.rs:648-655`. -/
def Matrix3d.multiplyVector (s : Matrix3d) (p : Vec4) : Vec4 where
  x := p.x * s.m11 + p.y * s.m21 + p.z * s.m31 + p.w * s.m41
  y := p.x * s.m12 + p.y * s.m22 + p.z * s.m32 + p.w * s.m42
  z := p.x * s.m13 + p.y * s.m23 + p.z * s.m33 + p.w * s.m43
  w := p.x * s.m14 + p.y * s.m24 + p.z * s.m34 + p.w * s.m44

/-! ## Transform functions -/

/-- `Transform`, `transform.rs:165-208`. -/
inductive Tr
  | translate (x y : LP) | translateX (x : LP) | translateY (y : LP) | translateZ (z : Len) | translate3d (x y : LP) (z : Len)
  | scale (x y : NP) | scaleX (x : NP) | scaleY (y : NP) | scaleZ (z : NP) | scale3d (x y z : NP)
  | rotate (a : Ang) | rotateX (a : Ang) | rotateY (a : Ang) | rotateZ (a : Ang) | rotate3d (x y z : ℝ) (a : Ang)
  | skew (x y : Ang) | skewX (a : Ang) | skewY (a : Ang)
  | perspective (l : Len) | matrix (m : Matrix) | matrix3d (m : Matrix3d)

/-- The names of the transform functions, after the ASCII-case-insensitive comparison of `transform.rs:857`. -/
inductive Name
  | translate | translateX | translateY | translateZ | translate3d | scale | scaleX | scaleY | scaleZ | scale3d
  | rotate | rotateX | rotateY | rotateZ | rotate3d | skew | skewX | skewY | perspective | matrix | matrix3d
deriving DecidableEq

/-- A function call in a style sheet: its name and its arguments, which stand between commas. -/
structure Call where
  name : Name
  args : List Arg

/-- `Transform::parse`, `transform.rs:852-1022`. -/
noncomputable def parse : Call → Option Tr
  | ⟨.matrix, [a, b, c, d, e, f]⟩ => do
    some (.matrix ⟨← parseNum a, ← parseNum b, ← parseNum c, ← parseNum d, ← parseNum e, ← parseNum f⟩)
  | ⟨.matrix3d, [a, b, c, d, e, f, g, h, i, j, k, l, m, n, o, p]⟩ => do
    some (.matrix3d ⟨← parseNum a, ← parseNum b, ← parseNum c, ← parseNum d, ← parseNum e, ← parseNum f, ← parseNum g, ← parseNum h,
      ← parseNum i, ← parseNum j, ← parseNum k, ← parseNum l, ← parseNum m, ← parseNum n, ← parseNum o, ← parseNum p⟩)
  | ⟨.translate, [x]⟩ => do some (.translate (← parseLP x) .zero)
  | ⟨.translate, [x, y]⟩ => do some (.translate (← parseLP x) (← parseLP y))
  | ⟨.translateX, [x]⟩ => do some (.translateX (← parseLP x))
  | ⟨.translateY, [y]⟩ => do some (.translateY (← parseLP y))
  | ⟨.translateZ, [z]⟩ => do some (.translateZ (← parseLen z))
  | ⟨.translate3d, [x, y, z]⟩ => do some (.translate3d (← parseLP x) (← parseLP y) (← parseLen z))
  | ⟨.scale, [x]⟩ => do some (.scale (← parseNP x) (← parseNP x))
  | ⟨.scale, [x, y]⟩ => do some (.scale (← parseNP x) (← parseNP y))
  | ⟨.scaleX, [x]⟩ => do some (.scaleX (← parseNP x))
  | ⟨.scaleY, [y]⟩ => do some (.scaleY (← parseNP y))
  | ⟨.scaleZ, [z]⟩ => do some (.scaleZ (← parseNP z))
  | ⟨.scale3d, [x, y, z]⟩ => do some (.scale3d (← parseNP x) (← parseNP y) (← parseNP z))
  | ⟨.rotate, [a]⟩ => do some (.rotate (← parseAng0 a))
  | ⟨.rotateX, [a]⟩ => do some (.rotateX (← parseAng0 a))
  | ⟨.rotateY, [a]⟩ => do some (.rotateY (← parseAng0 a))
  | ⟨.rotateZ, [a]⟩ => do some (.rotateZ (← parseAng0 a))
  | ⟨.rotate3d, [x, y, z, a]⟩ => do some (.rotate3d (← parseNum x) (← parseNum y) (← parseNum z) (← parseAng0 a))
  | ⟨.skew, [x]⟩ => do some (.skew (← parseAng0 x) (.deg 0))
  | ⟨.skew, [x, y]⟩ => do some (.skew (← parseAng0 x) (← parseAng0 y))
  | ⟨.skewX, [a]⟩ => do some (.skewX (← parseAng0 a))
  | ⟨.skewY, [a]⟩ => do some (.skewY (← parseAng0 a))
  | ⟨.perspective, [l]⟩ => do some (.perspective (← parseLen l))
  | _ => none

open Classical in
/-- `Transform::to_css`, `transform.rs:1024-1298`; `m` is the option `minify`. -/
noncomputable def print (m : Bool) : Tr → Call
  | .translate x y =>
    if m && x.isZero && !y.isZero then ⟨.translateY, [y.print]⟩
    else ⟨.translate, x.print :: if y.isZero then [] else [y.print]⟩
  | .translateX x => ⟨if m then .translate else .translateX, [x.print]⟩
  | .translateY y => ⟨.translateY, [y.print]⟩
  | .translateZ z => ⟨.translateZ, [z.print]⟩
  | .translate3d x y z =>
    if m && !x.isZero && y.isZero && z.isZero then ⟨.translate, [x.print]⟩
    else if m && x.isZero && !y.isZero && z.isZero then ⟨.translateY, [y.print]⟩
    else if m && x.isZero && y.isZero && !z.isZero then ⟨.translateZ, [z.print]⟩
    else if m && z.isZero then ⟨.translate, [x.print, y.print]⟩
    else ⟨.translate3d, [x.print, y.print, z.print]⟩
  | .scale x y =>
    if m && decide (x.toNum = 1) && decide (y.toNum ≠ 1) then ⟨.scaleY, [.num y.toNum]⟩
    else if m && decide (x.toNum ≠ 1) && decide (y.toNum = 1) then ⟨.scaleX, [.num x.toNum]⟩
    else ⟨.scale, .num x.toNum :: if y.toNum ≠ x.toNum then [.num y.toNum] else []⟩
  | .scaleX x => ⟨.scaleX, [x.print]⟩
  | .scaleY y => ⟨.scaleY, [y.print]⟩
  | .scaleZ z => ⟨.scaleZ, [z.print]⟩
  | .scale3d x y z =>
    if m && decide (z.toNum = 1) && decide (x.toNum = y.toNum) then ⟨.scale, [.num x.toNum]⟩
    else if m && decide (x.toNum ≠ 1) && decide (y.toNum = 1) && decide (z.toNum = 1) then ⟨.scaleX, [.num x.toNum]⟩
    else if m && decide (x.toNum = 1) && decide (y.toNum ≠ 1) && decide (z.toNum = 1) then ⟨.scaleY, [.num y.toNum]⟩
    else if m && decide (x.toNum = 1) && decide (y.toNum = 1) && decide (z.toNum ≠ 1) then ⟨.scaleZ, [.num z.toNum]⟩
    else if m && decide (z.toNum = 1) then ⟨.scale, [.num x.toNum, .num y.toNum]⟩
    else ⟨.scale3d, [.num x.toNum, .num y.toNum, .num z.toNum]⟩
  | .rotate a => ⟨.rotate, [a.print0]⟩
  | .rotateX a => ⟨.rotateX, [a.print0]⟩
  | .rotateY a => ⟨.rotateY, [a.print0]⟩
  | .rotateZ a => ⟨if m then .rotate else .rotateZ, [a.print0]⟩
  | .rotate3d x y z a =>
    if m && decide (x = 1) && decide (y = 0) && decide (z = 0) then ⟨.rotateX, [a.print0]⟩
    else if m && decide (x = 0) && decide (y = 1) && decide (z = 0) then ⟨.rotateY, [a.print0]⟩
    else if m && decide (x = 0) && decide (y = 0) && decide (z = 1) then ⟨.rotate, [a.print0]⟩
    else ⟨.rotate3d, [.num x, .num y, .num z, a.print0]⟩
  | .skew x y =>
    if m && x.isZero && !y.isZero then ⟨.skewY, [y.print0]⟩
    else ⟨.skew, x.print :: if y.isZero then [] else [y.print0]⟩
  | .skewX a => ⟨if m then .skew else .skewX, [a.print0]⟩
  | .skewY a => ⟨.skewY, [a.print0]⟩
  | .perspective l => ⟨.perspective, [l.print]⟩
  | .matrix n => ⟨.matrix, [.num n.a, .num n.b, .num n.c, .num n.d, .num n.e, .num n.f]⟩
  | .matrix3d n => ⟨.matrix3d, [.num n.m11, .num n.m12, .num n.m13, .num n.m14, .num n.m21, .num n.m22, .num n.m23, .num n.m24,
      .num n.m31, .num n.m32, .num n.m33, .num n.m34, .num n.m41, .num n.m42, .num n.m43, .num n.m44]⟩

open Classical in
/-- The macro `to_radians!` of `Transform::to_matrix`, `transform.rs:1303-1317`. -/
noncomputable def safeRad (a : Ang) : Option ℝ :=
  if a.toRadians < 0 ∨ a.toRadians ≥ 2 * Real.pi then none else some a.toRadians

/-- `Transform::to_matrix`, `transform.rs:1302-1369`. -/
noncomputable def Tr.toMatrix : Tr → Option Matrix3d
  | .translate (.dim x u) (.dim y v) => do some (.translate (← toPx x u) (← toPx y v) 0)
  | .translateX (.dim x u) => do some (.translate (← toPx x u) 0 0)
  | .translateY (.dim y u) => do some (.translate 0 (← toPx y u) 0)
  | .translateZ z => do some (.translate 0 0 (← z.toPx))
  | .translate3d (.dim x u) (.dim y v) z => do some (.translate (← toPx x u) (← toPx y v) (← z.toPx))
  | .scale x y => some (.scale x.toNum y.toNum 1)
  | .scaleX x => some (.scale x.toNum 1 1)
  | .scaleY y => some (.scale 1 y.toNum 1)
  | .scaleZ z => some (.scale 1 1 z.toNum)
  | .scale3d x y z => some (.scale x.toNum y.toNum z.toNum)
  | .rotate a => do some (.rotate 0 0 1 (← safeRad a))
  | .rotateZ a => do some (.rotate 0 0 1 (← safeRad a))
  | .rotateX a => do some (.rotate 1 0 0 (← safeRad a))
  | .rotateY a => do some (.rotate 0 1 0 (← safeRad a))
  | .rotate3d x y z a => do some (.rotate x y z (← safeRad a))
  | .skew x y => do some (.skew (← safeRad x) (← safeRad y))
  | .skewX x => do some (.skew (← safeRad x) 0)
  | .skewY y => do some (.skew 0 (← safeRad y))
  | .perspective l => do some (.perspective (← l.toPx))
  | .matrix m => some m.toMatrix3d
  | .matrix3d m => some m
  | _ => none

/-- The loop of `TransformList::to_matrix`, `transform.rs:143-150`. -/
noncomputable def toMatrixFrom (acc : Matrix3d) : List Tr → Option Matrix3d
  | [] => some acc
  | t :: ts => match t.toMatrix with
    | some m => toMatrixFrom (m.multiply acc) ts
    | none => none

/-- `TransformList::to_matrix`, `transform.rs:142-152`. -/
noncomputable def listToMatrix (ts : List Tr) : Option Matrix3d := toMatrixFrom .identity ts

/-- A value of the property `transform` in a style sheet: the keyword `none` or function calls. -/
inductive Value
  | none | calls (cs : List Call)

/-- `TransformList::parse`, `transform.rs:30-48`, for input that is used up (the declaration is not valid otherwise). -/
noncomputable def parseList : Value → Option (List Tr)
  | .none => some []
  | .calls [] => Option.none
  | .calls (c :: cs) => (c :: cs).mapM parse

/-- `TransformList::to_css`, `transform.rs:49-139`. -/
noncomputable def printList (m : Bool) : List Tr → Value
  | [] => .none
  | t :: ts => .calls ((t :: ts).map (print m))

/-! ## The properties `translate`, `rotate` and `scale` -/

/-- `Translate`, `transform.rs:1433-1447`. -/
inductive Translate
  | none | xyz (x y : LP) (z : Len)
/-- `Rotate`, `transform.rs:1519-1535`. -/
inductive Rotate
  | none | xyz (x y z : ℝ) (a : Ang)
/-- `Scale`, `transform.rs:1630-1644`. -/
inductive Scale
  | none | xyz (x y z : NP)

/-- The value of one of these properties in a style sheet: `none` or component values between spaces. -/
inductive PVal
  | none | args (l : List Arg)

/-- `Translate::parse`, `transform.rs:1449-1469`, for input that is used up. -/
noncomputable def Translate.parse : PVal → Option Translate
  | .none => some .none
  | .args [] => Option.none
  | .args (a :: rest) => do
    let x ← parseLP a
    match rest with
    | [] => some (.xyz x .zero .zero)
    | b :: rest => do
      let y ← parseLP b
      match rest with
      | [] => some (.xyz x y .zero)
      | [c] => do some (.xyz x y (← parseLen c))
      | _ => Option.none

/-- `Translate::to_css`, `transform.rs:1471-1495`. -/
noncomputable def Translate.print : Translate → PVal
  | .none => .none
  | .xyz x y z => .args (x.print :: if !y.isZero || !z.isZero then y.print :: (if !z.isZero then [z.print] else []) else [])

/-- `Translate::to_transform`, `transform.rs:1499-1506`. -/
noncomputable def Translate.toTransform : Translate → Tr
  | .none => .translate3d .zero .zero .zero
  | .xyz x y z => .translate3d x y z

/-- The axis of `Rotate::parse`, `transform.rs:1549-1566`: a keyword or three numbers, and the z axis if there is none. Gives what is left. -/
def parseAxis : List Arg → (ℝ × ℝ × ℝ) × List Arg
  | .axis 0 :: r => ((1, 0, 0), r)
  | .axis 1 :: r => ((0, 1, 0), r)
  | .axis 2 :: r => ((0, 0, 1), r)
  | .num x :: .num y :: .num z :: r => ((x, y, z), r)
  | r => ((0, 0, 1), r)

/-- `Rotate::parse`, `transform.rs:1537-1570`, for input that is used up. -/
def Rotate.parse : PVal → Option Rotate
  | .none => some .none
  | .args (.ang a :: rest) =>
    match parseAxis rest with
    | ((x, y, z), []) => some (.xyz x y z a)
    | _ => Option.none
  | .args l =>
    match parseAxis l with
    | ((x, y, z), [.ang a]) => some (.xyz x y z a)
    | _ => Option.none

open Classical in
/-- `Rotate::to_css`, `transform.rs:1572-1608`. -/
noncomputable def Rotate.print : Rotate → PVal
  | .none => .none
  | .xyz x y z a =>
    if y = 0 ∧ z = 0 ∧ x ≠ 0 then .args [.axis 0, (if x < 0 then a.mul (-1) else a).print]
    else if x = 0 ∧ z = 0 ∧ y ≠ 0 then .args [.axis 1, (if y < 0 then a.mul (-1) else a).print]
    else if x = 0 ∧ y = 0 ∧ z ≠ 0 then .args [(if z < 0 then a.mul (-1) else a).print]
    else .args [.num x, .num y, .num z, a.print]

/-- `Rotate::to_transform`, `transform.rs:1612-1617`. -/
noncomputable def Rotate.toTransform : Rotate → Tr
  | .none => .rotate3d 0 0 1 (.deg 0)
  | .xyz x y z a => .rotate3d x y z a

/-- `Scale::parse`, `transform.rs:1646-1666`, for input that is used up. -/
noncomputable def Scale.parse : PVal → Option Scale
  | .none => some .none
  | .args [] => Option.none
  | .args (a :: rest) => do
    let x ← parseNP a
    match rest with
    | [] => some (.xyz x x (.num 1))
    | b :: rest => do
      let y ← parseNP b
      match rest with
      | [] => some (.xyz x y (.num 1))
      | [c] => do some (.xyz x y (← parseNP c))
      | _ => Option.none

open Classical in
/-- `Scale::to_css`, `transform.rs:1668-1693`. -/
noncomputable def Scale.print : Scale → PVal
  | .none => .none
  | .xyz x y z =>
    .args (x.print :: if y ≠ x ∨ z.toNum ≠ 1 then y.print :: (if z.toNum ≠ 1 then [z.print] else []) else [])

/-- `Scale::to_transform`, `transform.rs:1697-1706`. -/
noncomputable def Scale.toTransform : Scale → Tr
  | .none => .scale3d (.num 1) (.num 1) (.num 1)
  | .xyz x y z => .scale3d x y z

/-! ## The handler -/

/-- `VendorPrefix`, `vendor_prefix.rs`: a set of prefixes. -/
abbrev Prefix := Fin 5 → Bool
/-- No prefix. -/
def Prefix.plain : Fin 5 := 0

/-- `VendorPrefix::contains`: all of these are in the set (bitflags). -/
def Prefix.contains (s p : Prefix) : Bool := decide (∀ i, p i = true → s i = true)
/-- `|` on `VendorPrefix` (bitflags). -/
def Prefix.union (s p : Prefix) : Prefix := fun i => s i || p i

/-- The four properties. -/
inductive Prop4
  | transform (p : Prefix) | translate | rotate | scale

/-- A declaration, as far as `TransformHandler` looks at it. `unparsed` is a value with `var()`. -/
inductive Decl
  | transform (l : List Tr) (p : Prefix)
  | translate (v : Translate)
  | rotate (v : Rotate)
  | scale (v : Scale)
  | unparsed (id : Nat) (p : Prop4)
  | other (id : Nat)

/-- The degrees of an angle, which is what `PartialEq` compares (`values/angle.rs` `impl PartialEq for Angle`, `to_degrees`). -/
noncomputable def Ang.canon : Ang → Ang
  | .deg v => .deg v
  | .rad v => .deg (v * (180 / Real.pi))
  | .grad v => .deg (v * 180 / 200)
  | .turn v => .deg (v * 360)

/-- `PartialEq for Transform` (derived, `transform.rs:155`) is equality up to the units of angles. -/
noncomputable def Tr.canon : Tr → Tr
  | .rotate a => .rotate a.canon
  | .rotateX a => .rotateX a.canon
  | .rotateY a => .rotateY a.canon
  | .rotateZ a => .rotateZ a.canon
  | .rotate3d x y z a => .rotate3d x y z a.canon
  | .skew x y => .skew x.canon y.canon
  | .skewX a => .skewX a.canon
  | .skewY a => .skewY a.canon
  | t => t

/-- `TransformHandler`, `transform.rs:1709-1716`. -/
structure State where
  transform : Option (List Tr × Prefix) := none
  translate : Option Translate := none
  rotate : Option Rotate := none
  scale : Option Scale := none
  hasAny : Bool := false

/-- `TransformHandler::flush`, `transform.rs:1790-1819`, with what it writes. `pfx` is `context.targets.prefixes(_, Feature::Transform)`. -/
def State.flush (pfx : Prefix → Prefix) (s : State) : State × List Decl :=
  if !s.hasAny then (s, []) else
  ({}, (s.transform.map fun p => Decl.transform p.1 (pfx p.2)).toList ++ (s.translate.map Decl.translate).toList
      ++ (s.rotate.map Decl.rotate).toList ++ (s.scale.map Decl.scale).toList)

open Classical in
/-- `TransformHandler::handle_property`, `transform.rs:1719-1782`, with what it writes; a declaration it does not handle is written by the caller,
in another place of the block (`declaration.rs`), and is not written here. -/
noncomputable def handle (pfx : Prefix → Prefix) (s : State) : Decl → State × List Decl
  | .transform l p =>
    let r : State × List Decl := match s.transform with
      | some (cur, ps) => if cur.map Tr.canon ≠ l.map Tr.canon ∧ ps.contains p = false then s.flush pfx else (s, [])
      | none => (s, [])
    let t := match r.1.transform with
      | some (_, ps) => (l, ps.union p)
      | none => (l, p)
    let any := match r.1.transform with
      | some _ => r.1.hasAny
      | none => true
    ({ transform := some t, translate := none, rotate := none, scale := none, hasAny := any }, r.2)
  | .translate v => match s.transform with
    | some (l, ps) => ({ s with transform := some (l ++ [v.toTransform], ps) }, [])
    | none => ({ s with translate := some v, hasAny := true }, [])
  | .rotate v => match s.transform with
    | some (l, ps) => ({ s with transform := some (l ++ [v.toTransform], ps) }, [])
    | none => ({ s with rotate := some v, hasAny := true }, [])
  | .scale v => match s.transform with
    | some (l, ps) => ({ s with transform := some (l ++ [v.toTransform], ps) }, [])
    | none => ({ s with scale := some v, hasAny := true }, [])
  | .unparsed id q =>
    let r := s.flush pfx
    (r.1, r.2 ++ [.unparsed id (match q with | .transform p => .transform (pfx p) | q => q)])
  | .other _ => (s, [])

/-- The handler over a block with `finalize`, `transform.rs:1784-1786`: what it writes. -/
noncomputable def run (pfx : Prefix → Prefix) (s : State) : List Decl → List Decl
  | [] => (s.flush pfx).2
  | d :: ds => (handle pfx s d).2 ++ run pfx (handle pfx s d).1 ds

end Verif.Transform
