import Verif.MathFn.Model
/-!
# Times, angles, percentages and numbers: model
(src/values/time.rs, src/values/angle.rs, src/values/percentage.rs, src/values/number.rs,
src/values/calc.rs)

Numbers are the elements of an ordered field instead of `f32`. The elementary functions of `f32` and
the constant π are parameters.
-/
namespace Verif.Units
open Verif.MathFn (Strategy round frem modulo sgn cmpK)

/-- The functions of `f32` that are used, and π. -/
structure Fns (K : Type) where
  pi : K
  sin : K → K
  cos : K → K
  tan : K → K
  asin : K → K
  acos : K → K
  atan : K → K
  sqrt : K → K
  exp : K → K
  ln : K → K
  pow : K → K → K
  log : K → K → K

/-- The types that `Calc` is instantiated with: `Time`, `Angle`, `Percentage` and `CSSNumber`. -/
inductive Kind
  | time | angle | pct | num
  deriving DecidableEq, Repr

/-- `enum Time` (src/values/time.rs:28-33), `enum Angle` (src/values/angle.rs:33-42) and
`struct Percentage` (src/values/percentage.rs:23) in one type. -/
inductive Val (K : Type)
  | sec (x : K)
  | ms (x : K)
  | deg (x : K)
  | rad (x : K)
  | grad (x : K)
  | turn (x : K)
  | pct (x : K)
  deriving DecidableEq, Repr

/-- The type of a value. -/
def Val.kind {K : Type} : Val K → Kind
  | .sec _ | .ms _ => .time
  | .deg _ | .rad _ | .grad _ | .turn _ => .angle
  | .pct _ => .pct

section
variable {K : Type} [Field K] [LinearOrder K] [FloorRing K] (F : Fns K)

/-- `Time::to_ms` (src/values/time.rs:37-42). -/
def toMs : Val K → K
  | .sec s => s * 1000
  | .ms x => x
  | _ => 0

/-- `Angle::to_degrees` (src/values/angle.rs:160-169). -/
def toDegrees : Val K → K
  | .deg x => x
  | .rad x => x * (180 / F.pi)
  | .grad x => x * 180 / 200
  | .turn x => x * 360
  | _ => 0

/-- `Angle::to_radians` (src/values/angle.rs:149-157). -/
def toRadians : Val K → K
  | .deg x => x * (F.pi / 180)
  | .rad x => x
  | .grad x => x * 180 / 200 * (F.pi / 180)
  | .turn x => x * 360 * (F.pi / 180)
  | _ => 0

/-- `* f32` (src/values/time.rs:143-152, src/values/angle.rs:203-214, src/values/percentage.rs:88-94). -/
def Val.mul (k : K) : Val K → Val K
  | .sec x => .sec (x * k)
  | .ms x => .ms (x * k)
  | .deg x => .deg (x * k)
  | .rad x => .rad (x * k)
  | .grad x => .grad (x * k)
  | .turn x => .turn (x * k)
  | .pct x => .pct (x * k)

/-- `Op::op` (src/values/time.rs:166-174, src/values/angle.rs:245-253,
src/values/percentage.rs:108-111). Values of different types never meet. -/
def Val.op (f : K → K → K) : Val K → Val K → Val K
  | .sec a, .sec b => .sec (f a b)
  | .ms a, .ms b => .ms (f a b)
  | .sec a, .ms b => .sec (f a (b / 1000))
  | .ms a, .sec b => .ms (f a (b * 1000))
  | .pct a, .pct b => .pct (f a b)
  | .deg a, .deg b => .deg (f a b)
  | .rad a, .rad b => .rad (f a b)
  | .grad a, .grad b => .grad (f a b)
  | .turn a, .turn b => .turn (f a b)
  | a, b => .deg (f (toDegrees F a) (toDegrees F b))

/-- `partial_cmp` (src/values/time.rs:160-164, src/values/angle.rs:239-243,
src/values/percentage.rs:102-106). -/
def Val.cmp : Val K → Val K → Ordering
  | .pct a, .pct b => cmpK a b
  | .sec a, b => cmpK (toMs (.sec a)) (toMs b)
  | .ms a, b => cmpK (toMs (.ms a)) (toMs b)
  | a, b => cmpK (toDegrees F a) (toDegrees F b)

/-- `try_map` (src/values/time.rs:186-193, src/values/angle.rs:266-275,
src/values/percentage.rs:118-125). -/
def Val.tryMap (f : K → K) : Val K → Option (Val K)
  | .sec x => some (.sec (f x))
  | .ms x => some (.ms (f x))
  | .deg x => some (.deg (f x))
  | .rad x => some (.rad (f x))
  | .grad x => some (.grad (f x))
  | .turn x => some (.turn (f x))
  | .pct _ => none

/-- `sign` (src/values/time.rs:195-201, src/values/angle.rs:277-283, src/values/percentage.rs:137-141). -/
def Val.sign : Val K → K
  | .sec x | .ms x | .deg x | .rad x | .grad x | .turn x | .pct x => sgn x

/-! ## Math functions -/

/-- `enum Calc` (src/values/calc.rs:249-263). What is inside of a sum, a product or a function is left
out: `Time`, `Angle`, `Percentage` and `CSSNumber` keep only values and numbers, and no function of the
parser takes a value out of a sum, product or function again. Products behave as functions do. -/
inductive Calc (K : Type)
  | value (v : Val K)
  | number (x : K)
  | sum
  | func
  deriving DecidableEq

/-- `Calc * f32` (src/values/calc.rs:902-927). -/
def Calc.mul (k : K) : Calc K → Calc K
  | .value v => if k = 1 then .value v else .value (v.mul k)
  | .number x => if k = 1 then .number x else .number (x * k)
  | c => c

/-- `Calc::add` (src/values/calc.rs:929-963). `TryFrom<Calc>` succeeds only for values
(src/values/time.rs:132-141, src/values/angle.rs:192-201, src/values/percentage.rs:77-86). -/
def Calc.add : Calc K → Calc K → Option (Calc K)
  | .value a, .value b => some (.value (a.op F (· + ·) b))
  | .number a, .number b => some (.number (a + b))
  | .number _, _ => some .sum
  | _, .number _ => some .sum
  | .func, _ => some .sum
  | _, .func => some .sum
  | .value _, .sum => none
  | .sum, .value _ => none
  | .sum, .sum => none

/-- The comparison of two arguments (src/values/calc.rs:666-700). -/
def argCmp : Calc K → Calc K → Option Ordering
  | .value a, .value b => some (a.cmp F b)
  | .number a, .number b => some (cmpK a b)
  | _, _ => none

/-- The search and update of `reduce_args` for one argument (src/values/calc.rs:664-708). -/
def reduceInto (cmp : Ordering) (arg : Calc K) : List (Calc K) → List (Calc K)
  | [] => [arg]
  | b :: bs =>
      match argCmp F arg b with
      | some o => if o = cmp then arg :: bs else b :: bs
      | none => b :: reduceInto cmp arg bs

/-- `min()` and `max()` (src/values/calc.rs:360-375). -/
def mkMinMax (cmp : Ordering) (args : List (Calc K)) : Calc K :=
  match args.foldl (fun reduced arg => reduceInto F cmp arg reduced) [] with
  | [c] => c
  | _ => .func

/-- `clamp()` (src/values/calc.rs:376-432). -/
def mkClamp (mn center mx : Calc K) : Calc K :=
  match argCmp F center mx with
  | none => .func
  | some o =>
    let center := if o = .gt then mx else center
    match argCmp F center mn with
    | none => .func
    | some .lt => mn
    | some _ => center

/-- `apply_op` (src/values/calc.rs:731-743). -/
def applyOp (f : K → K → K) : Calc K → Calc K → Option (Calc K)
  | .value a, .value b => some (.value (a.op F f b))
  | .number a, .number b => some (.number (f a b))
  | _, _ => none

/-- `apply_map` (src/values/calc.rs:745-757). -/
def applyMap (f : K → K) : Calc K → Option (Calc K)
  | .number x => some (.number (f x))
  | .value v => (v.tryMap f).map .value
  | _ => none

/-- `sign()` (src/values/calc.rs:517-535). -/
def mkSign : Calc K → Calc K
  | .number x => .number (sgn x)
  | .value v =>
      match v.tryMap sgn with
      | some v => .number v.sign
      | none => .func
  | _ => .func

/-- `parse_hypot` (src/values/calc.rs:875-899). -/
def parseHypot : List (Calc K) → Option (Calc K)
  | [a] => some a
  | [a, b] => applyOp F (fun x y => F.sqrt (x * x + y * y)) a b
  | [] => none
  | a :: l => do
      let first ← applyMap (fun x => x * x) a
      let total ← l.foldlM (fun acc arg => applyOp F (fun x y => x + y * y) acc arg) first
      applyMap F.sqrt total

/-- The functions from angles or numbers to numbers, from numbers to angles, and from numbers to
numbers. -/
inductive TrigFn
  | sin | cos | tan
  deriving DecidableEq, Repr
/-- See `TrigFn`. -/
inductive ArcFn
  | asin | acos | atan
  deriving DecidableEq, Repr
/-- See `TrigFn`; `log()` with one argument is the natural logarithm. -/
inductive NumFn
  | sqrt | exp | ln
  deriving DecidableEq, Repr
/-- See `TrigFn`. -/
inductive NumFn2
  | pow | log
  deriving DecidableEq, Repr

/-- The function for a name (src/values/calc.rs:460-462). -/
def TrigFn.run : TrigFn → K → K
  | .sin => F.sin | .cos => F.cos | .tan => F.tan
/-- The function for a name (src/values/calc.rs:463-465). -/
def ArcFn.run : ArcFn → K → K
  | .asin => F.asin | .acos => F.acos | .atan => F.atan
/-- The function for a name (src/values/calc.rs:484-496). -/
def NumFn.run : NumFn → K → K
  | .sqrt => F.sqrt | .exp => F.exp | .ln => F.ln
/-- The function for a name (src/values/calc.rs:476-494). -/
def NumFn2.run : NumFn2 → K → K → K
  | .pow => F.pow | .log => F.log

/-- The source of a math expression as the tree that the grammar of CSS gives it; see
`Verif.MathFn.Src`. -/
inductive Src (K : Type)
  | num (x : K)
  | lit (v : Val K)
  | add (a b : Src K)
  | sub (a b : Src K)
  | mul (a b : Src K)
  | div (a b : Src K)
  | calc (a : Src K)
  | min (l : List (Src K))
  | max (l : List (Src K))
  | clamp (a b c : Src K)
  | round (s : Strategy) (a b : Src K)
  | rem (a b : Src K)
  | mod (a b : Src K)
  | abs (a : Src K)
  | sign (a : Src K)
  | hypot (l : List (Src K))
  | trig (f : TrigFn) (a : Src K)
  | arc (f : ArcFn) (a : Src K)
  | fn1 (f : NumFn) (a : Src K)
  | fn2 (f : NumFn2) (a b : Src K)

/-- `*` (src/values/calc.rs:585-596). -/
def mkMul (a b : Calc K) : Option (Calc K) :=
  match b with
  | .number k => some (a.mul k)
  | b =>
    match a with
    | .number k => some (b.mul k)
    | _ => none

/-- `/` (src/values/calc.rs:597-606). -/
def mkDiv (a b : Calc K) : Option (Calc K) :=
  match b with
  | .number k => if k = 0 then none else some (a.mul (1 / k))
  | _ => none

/-- The number in a result of `parse_numeric` (src/values/calc.rs:804-808). There are no values of
type `CSSNumber` other than `Calc::Number`. -/
def asNumber : Calc K → Option K
  | .number x => some x
  | _ => none

/-- The end of `parse_trig` for functions of angles (src/values/calc.rs:776-790). -/
def mkTrig (f : TrigFn) : Calc K → Option (Calc K)
  | .value v => some (.number (f.run F (toRadians F v)))
  | .number x => some (.number (f.run F x))
  | _ => none

/-- The end of `parse_trig` for functions that give an angle (src/values/calc.rs:776-786); only `Angle`
can be made from an angle (src/values/angle.rs:293-311). -/
def mkArc (t : Kind) (f : ArcFn) (x : K) : Option (Calc K) :=
  if t = .angle then some (.value (.rad (f.run F x))) else none

mutual
/-- What `Calc::<V>::parse_sum` gives for a tree, or nothing for an error
(src/values/calc.rs:346-656, 759-823). -/
def Src.parse (t : Kind) : Src K → Option (Calc K)
  | .num x => some (.number x)
  | .lit v => if v.kind = t then some (.value v) else none
  | .add a b => (a.parse t).bind fun a => (b.parse t).bind fun b => a.add F b
  | .sub a b => (a.parse t).bind fun a => (b.parse t).bind fun b => a.add F (b.mul (-1))
  | .mul a b => (a.parse t).bind fun a => (b.parse t).bind fun b => mkMul a b
  | .div a b => (a.parse t).bind fun a => (b.parse t).bind fun b => mkDiv a b
  | .calc a => a.parse t
  | .min l => (parseArgs t l).bind fun l => some (mkMinMax F .lt l)
  | .max l => (parseArgs t l).bind fun l => some (mkMinMax F .gt l)
  | .clamp a b c => (a.parse t).bind fun a => (b.parse t).bind fun b => (c.parse t).bind fun c =>
      some (mkClamp F a b c)
  | .round s a b => (a.parse t).bind fun a => (b.parse t).bind fun b =>
      some ((applyOp F (MathFn.round s) a b).getD .func)
  | .rem a b => (a.parse t).bind fun a => (b.parse t).bind fun b => some ((applyOp F frem a b).getD .func)
  | .mod a b => (a.parse t).bind fun a => (b.parse t).bind fun b => some ((applyOp F modulo a b).getD .func)
  | .abs a => (a.parse t).bind fun a => some ((applyMap (fun x => |x|) a).getD .func)
  | .sign a => (a.parse t).bind fun a => some (mkSign a)
  | .hypot l => (parseArgs t l).bind fun l => some ((parseHypot F l).getD .func)
  | .trig f a => (a.parse .angle).bind fun a => mkTrig F f a
  | .arc f a => (a.parse .angle).bind fun a => (asNumber a).bind fun x => mkArc F t f x
  | .fn1 f a => (a.parse .num).bind fun a => (asNumber a).bind fun x => some (.number (f.run F x))
  | .fn2 f a b => (a.parse .num).bind fun a => (asNumber a).bind fun x => (b.parse .num).bind fun b =>
      (asNumber b).bind fun y => some (.number (f.run F x y))
/-- `parse_comma_separated` of `parse_sum`. -/
def parseArgs (t : Kind) : List (Src K) → Option (List (Calc K))
  | [] => some []
  | a :: l => (a.parse t).bind fun a => (parseArgs t l).bind fun l => some (a :: l)
end

/-- Is it a math function? -/
def Src.isFn : Src K → Bool
  | .num _ | .lit _ | .add _ _ | .sub _ _ | .mul _ _ | .div _ _ => false
  | _ => true

/-- What parsing a value ends in. -/
inductive Res (α : Type)
  | ok (a : α)
  | err
  | panic
  deriving DecidableEq

/-- `Time::parse`, `Angle::parse` (src/values/time.rs:59-80, src/values/angle.rs:45-83) and
`Percentage::parse` (src/values/percentage.rs:25-37). -/
def Src.parseVal (t : Kind) (s : Src K) : Res (Val K) :=
  match s with
  | .lit v => if v.kind = t then .ok v else .err
  | s =>
    if s.isFn then
      match s.parse F t with
      | some (.value v) => .ok v
      | some _ => if t = .pct then .panic else .err
      | none => .err
    else .err

/-- `Angle::parse_with_unitless_zero` (src/values/angle.rs:52-56, 78). -/
def Src.parseAngle0 (s : Src K) : Res (Val K) :=
  match s with
  | .num x => if x = 0 then .ok (.deg 0) else .err
  | s => s.parseVal F .angle

/-- `CSSNumber::parse` (src/values/number.rs:17-30). -/
def Src.parseNum (s : Src K) : Res K :=
  match s with
  | .num x => .ok x
  | s =>
    if s.isFn then
      match s.parse F .num with
      | some (.number x) => .ok x
      | _ => .err
    else .err

/-! ## Printing -/

/-- A printed number and its unit. -/
inductive Tok (K : Type)
  | dim (x : K) (unit : String)
  | num (x : K)
  deriving DecidableEq

/-- `Time::to_css` (src/values/time.rs:97-124), `Angle::to_css` (src/values/angle.rs:103-127) and
`Percentage::to_css`: the number and the unit. The test for radians is
`(deg * 100000.0).round().fract() == 0.0`. -/
def Val.toCss : Val K → Tok K
  | .sec s => if 0 < s ∧ s < 1 / 10 then .dim (s * 1000) "ms" else .dim s "s"
  | .ms x => if x = 0 ∨ 100 ≤ x then .dim (x / 1000) "s" else .dim x "ms"
  | .deg x => .dim x "deg"
  | .grad x => .dim x "grad"
  | .rad x =>
      let d := toDegrees F (.rad x)
      let r := MathFn.roundHalf (d * 100000)
      if r - MathFn.trunc r = 0 then .dim d "deg" else .dim x "rad"
  | .turn x => .dim x "turn"
  | .pct x => .dim x "%"

/-- `Angle::is_zero` (src/values/angle.rs:172-178). -/
def Val.isZero : Val K → Bool
  | .sec x | .ms x | .deg x | .rad x | .grad x | .turn x | .pct x => decide (x = 0)

/-- `to_css_with_unitless_zero` (src/values/angle.rs:131-141). -/
def Val.toCss0 (v : Val K) : Tok K := if v.isZero then .num 0 else v.toCss F

/-- A token as the source that it is read as (src/values/time.rs:69-79, src/values/angle.rs:70-80). -/
def Tok.read : Tok K → Option (Src K)
  | .num x => some (.num x)
  | .dim x u =>
      if u = "s" then some (.lit (.sec x))
      else if u = "ms" then some (.lit (.ms x))
      else if u = "deg" then some (.lit (.deg x))
      else if u = "grad" then some (.lit (.grad x))
      else if u = "turn" then some (.lit (.turn x))
      else if u = "rad" then some (.lit (.rad x))
      else if u = "%" then some (.lit (.pct x))
      else none
end
end Verif.Units
