import Mathlib.Algebra.Order.Floor.Ring
import Mathlib.Algebra.Order.Field.Basic
import Mathlib.Algebra.Order.Field.Rat
import Mathlib.Data.Rat.Floor
/-!
# Math functions: model (src/values/calc.rs, src/values/length.rs, src/values/percentage.rs)

Numbers are the elements of an ordered field `K` with a floor function instead of `f32`: rounding,
infinities, NaN and negative zero are not modelled. The type of values is `LengthPercentage`, that
is `DimensionPercentage<LengthValue>`.
-/
namespace Verif.MathFn

/-- The absolute units of `LengthValue` (src/values/length.rs:336-352). -/
inductive AbsUnit
  | px | inch | cm | mm | q | pt | pc
  deriving DecidableEq, Repr

/-- The units of `LengthValue` (src/values/length.rs:336-455); the relative ones are numbered. -/
inductive Unit
  | abs (a : AbsUnit)
  | rel (n : Nat)
  deriving DecidableEq, Repr

/-- `enum RoundingStrategy` (src/values/calc.rs:90-103). -/
inductive Strategy
  | nearest | up | down | toZero
  deriving DecidableEq, Repr

mutual
/-- `enum DimensionPercentage` (src/values/percentage.rs:187-195) over `LengthValue`. -/
inductive Val (K : Type)
  | dim (u : Unit) (x : K)
  | pct (x : K)
  | calc (c : Calc K)
/-- `enum Calc` (src/values/calc.rs:249-263). -/
inductive Calc (K : Type)
  | value (v : Val K)
  | number (x : K)
  | sum (a b : Calc K)
  | product (x : K) (c : Calc K)
  | func (f : Fn K)
/-- `enum MathFunction` (src/values/calc.rs:33-54). -/
inductive Fn (K : Type)
  | calc (c : Calc K)
  | min (l : List (Calc K))
  | max (l : List (Calc K))
  | clamp (a b c : Calc K)
  | round (s : Strategy) (a b : Calc K)
  | rem (a b : Calc K)
  | mod (a b : Calc K)
  | abs (c : Calc K)
  | sign (c : Calc K)
  | hypot (l : List (Calc K))
end

section
variable {K : Type} [Field K] [LinearOrder K] [FloorRing K]

/-! ## Numbers -/

/-- The constants `PX_PER_…` (src/values/length.rs:77-82). -/
def pxPer : AbsUnit → K
  | .px => 1
  | .inch => 96
  | .cm => 96 / (254 / 100)
  | .mm => 96 / (254 / 100) / 10
  | .q => 96 / (254 / 100) / 40
  | .pt => 96 / 72
  | .pc => 96 / 6

/-- `LengthValue::to_px` (src/values/length.rs:514-529). -/
def toPx : Unit → K → Option K
  | .abs a, x => some (x * pxPer a)
  | .rel _, _ => none

/-- `CSSNumber::sign` (src/values/number.rs:93-98); zero has no sign. -/
def sgn (x : K) : K := if x = 0 then 0 else if x < 0 then -1 else 1

/-- `f32::trunc`. -/
def trunc (x : K) : K := if 0 ≤ x then (⌊x⌋ : K) else (⌈x⌉ : K)

/-- `f32::round`: halves away from zero. -/
def roundHalf (x : K) : K := if 0 ≤ x then (⌊x + 1 / 2⌋ : K) else (⌈x - 1 / 2⌉ : K)

/-- `fn round` (src/values/calc.rs:111-119). -/
def round (s : Strategy) (value step : K) : K :=
  let v := value / step
  match s with
  | .down => (⌊v⌋ : K) * step
  | .up => (⌈v⌉ : K) * step
  | .nearest => roundHalf v * step
  | .toZero => trunc v * step

/-- The `%` operator of `f32`: the remainder of truncated division. -/
def frem (a b : K) : K := a - b * trunc (a / b)

/-- `fn modulo` (src/values/calc.rs:121-123). -/
def modulo (a b : K) : K := frem (frem a b + b) b

/-! ## Values -/

/-- `LengthValue::try_add` (src/values/length.rs:178-191). -/
def lvTryAdd (u : Unit) (x : K) (v : Unit) (y : K) : Option (Val K) :=
  if u = v then some (.dim u (x + y))
  else match toPx u x, toPx v y with
    | some a, some b => some (.dim (.abs .px) (a + b))
    | _, _ => none

/-- `DimensionPercentage::is_zero` (src/values/percentage.rs:456-462). -/
def Val.isZero : Val K → Bool
  | .dim _ x | .pct x => x = 0
  | .calc _ => false

/-- `a.partial_cmp(b)` for numbers. -/
def cmpK (a b : K) : Ordering := if a < b then .lt else if a = b then .eq else .gt

/-- `partial_cmp` of `DimensionPercentage` and `LengthValue`
(src/values/percentage.rs:391-399, src/values/length.rs:208-224). -/
def Val.partialCmp : Val K → Val K → Option Ordering
  | .dim u x, .dim v y =>
      if u = v then some (cmpK x y)
      else match toPx u x, toPx v y with
        | some a, some b => some (cmpK a b)
        | _, _ => none
  | .pct x, .pct y => some (cmpK x y)
  | _, _ => none

/-- `try_op` of `DimensionPercentage` and `LengthValue`
(src/values/percentage.rs:401-412, src/values/length.rs:226-242). -/
def Val.tryOp (op : K → K → K) : Val K → Val K → Option (Val K)
  | .dim u x, .dim v y =>
      if u = v then some (.dim u (op x y))
      else match toPx u x, toPx v y with
        | some a, some b => some (.dim (.abs .px) (op a b))
        | _, _ => none
  | .pct x, .pct y => some (.pct (op x y))
  | _, _ => none

/-- `try_map` of `DimensionPercentage` (src/values/percentage.rs:423-430). -/
def Val.tryMap (op : K → K) : Val K → Option (Val K)
  | .dim u x => some (.dim u (op x))
  | _ => none

/-- The loop of `try_sign` over the arguments of `min()` and `max()` (src/values/calc.rs:1025-1041),
given the signs of the arguments. -/
def commonSign : List (Option K) → Option K
  | [] => none
  | none :: _ => none
  | some s :: l => if l.all (· = some s) then some s else none

mutual
/-- `DimensionPercentage::try_sign` (src/values/percentage.rs:465-473). -/
def Val.trySign : Val K → Option K
  | .dim _ x | .pct x => some (sgn x)
  | .calc c => c.trySign
/-- `Calc::try_sign` (src/values/calc.rs:1009-1019). -/
def Calc.trySign : Calc K → Option K
  | .number x => some (sgn x)
  | .value v => v.trySign
  | .product x c => c.trySign.map (· * sgn x)
  | .func f => f.trySign
  | .sum _ _ => none
/-- `MathFunction::try_sign` (src/values/calc.rs:1021-1063). -/
def Fn.trySign : Fn K → Option K
  | .abs _ => some 1
  | .min l | .max l => commonSign (signs l)
  | .clamp a b c =>
      match a.trySign, b.trySign, c.trySign with
      | some a, some b, some c => if a = b ∧ b = c then some a else none
      | _, _, _ => none
  | .round _ a b =>
      match a.trySign, b.trySign with
      | some a, some b => if a = b then some a else none
      | _, _ => none
  | .sign c => c.trySign
  | .calc c => c.trySign
  | _ => none
/-- The signs of the arguments. -/
def signs : List (Calc K) → List (Option K)
  | [] => []
  | c :: cs => c.trySign :: signs cs
end

/-- `is_sign_negative` (src/traits.rs:259-261). -/
def isNeg (s : Option K) : Bool := s.any (· < 0)
/-- `is_sign_positive` (src/traits.rs:254-256). -/
def isPos (s : Option K) : Bool := s.any (0 ≤ ·)

mutual
/-- `DimensionPercentage * f32` (src/values/percentage.rs:232-242). -/
def Val.mul (k : K) : Val K → Val K
  | .dim u x => .dim u (x * k)
  | .pct x => .pct (x * k)
  | .calc c => .calc (c.mul k)
/-- `Calc * f32` (src/values/calc.rs:902-927). -/
def Calc.mul (k : K) : Calc K → Calc K
  | .value v => if k = 1 then .value v else .value (v.mul k)
  | .number x => if k = 1 then .number x else .number (x * k)
  | .sum a b => if k = 1 then .sum a b else .sum (a.mul k) (b.mul k)
  | .product x c =>
      if k = 1 then .product x c else if x * k = 1 then c else .product (x * k) c
  | .func (.calc c) => if k = 1 then .func (.calc c) else .func (.calc (c.mul k))
  | .func f => if k = 1 then .func f else .product k (.func f)
end

/-- `Into<Calc<…>>` (src/values/percentage.rs:376-383). -/
def Val.toCalc : Val K → Calc K
  | .calc c => c
  | v => .value v

mutual
/-- `AddInternal::add` (src/values/percentage.rs:281-288). The functions below call each other without
a measure that decreases; the first argument bounds the number of calls, and the result is `none`
if it is used up. -/
def addInternal : Nat → Val K → Val K → Option (Val K)
  | 0, _, _ => none
  | n + 1, a, b => do
      match ← addRec n a b with
      | some r => some r
      | none => addInh n a b
/-- `add_recursive` (src/values/percentage.rs:291-335). The inner result is the function's own
`Option`. -/
def addRec : Nat → Val K → Val K → Option (Option (Val K))
  | 0, _, _ => none
  | n + 1, a, b =>
      match a, b with
      | .dim u x, .dim v y => some (lvTryAdd u x v y)
      | .pct x, .pct y => some (some (.pct (x + y)))
      | .calc (.value v), other => addRec n v other
      | .calc (.sum a b), other => do
          match ← addRec n (.calc a) other with
          | some res => some (← addInh n res (.calc b))
          | none =>
            match ← addRec n (.calc b) other with
            | some res => some (← addInh n (.calc a) res)
            | none => some none
      | .calc _, _ => some none
      | other, .calc (.value v) => addRec n other v
      | other, .calc (.sum a b) => do
          match ← addRec n other (.calc a) with
          | some res => some (← addInh n res (.calc b))
          | none =>
            match ← addRec n other (.calc b) with
            | some res => some (← addInh n (.calc a) res)
            | none => some none
      | _, _ => some none
/-- The private `fn add` of `DimensionPercentage` (src/values/percentage.rs:337-373). -/
def addInh : Nat → Val K → Val K → Option (Val K)
  | 0, _, _ => none
  | n + 1, a, b =>
      if a.isZero then some b
      else if b.isZero then some a
      else
        match (if isNeg a.trySign && isPos b.trySign then (b, a) else (a, b)) with
        | (.calc a, .calc b) => do some (.calc (← calcAdd n a b))
        | (.calc (.value a), b) => addInh n a b
        | (.calc c, b) => some (.calc (.sum c b.toCalc))
        | (a, .calc (.value b)) => addInh n a b
        | (a, .calc c) => some (.calc (.sum a.toCalc c))
        | (a, b) => some (.calc (.sum a.toCalc b.toCalc))
/-- `Calc::add` (src/values/calc.rs:929-963). `TryFrom` cannot fail for this type. -/
def calcAdd : Nat → Calc K → Calc K → Option (Calc K)
  | 0, _, _ => none
  | n + 1, x, y =>
      match x, y with
      | .value a, .value b => do some (← addInternal n a b).toCalc
      | .number a, .number b => some (.number (a + b))
      | .sum a b, .number c =>
          match a, b with
          | .number a, b => some (.sum (.number (a + c)) b)
          | a, .number b => some (.sum a (.number (b + c)))
          | a, b => some (.sum (.sum a b) (.number c))
      | .number a, .sum b c =>
          match b, c with
          | .number b, c => some (.sum (.number (a + b)) c)
          | b, .number c => some (.sum (.number (a + c)) b)
          | b, c => some (.sum (.number a) (.sum b c))
      | .number a, b => some (.sum (.number a) b)
      | a, .number b => some (.sum a (.number b))
      | .product k a, b => some (.sum (.product k a) b)
      | a, .product k b => some (.sum a (.product k b))
      | .func a, b => some (.sum (.func a) b)
      | a, .func b => some (.sum a (.func b))
      | .value a, b => do some (← addInternal n a (.calc b)).toCalc
      | a, .value b => do some (← addInternal n (.calc a) b).toCalc
      | .sum a b, .sum c d => do some (← addInternal n (.calc (.sum a b)) (.calc (.sum c d))).toCalc
end

/-- `unwrap_calc` (src/values/percentage.rs:268-279). -/
def unwrapCalc : Val K → Val K
  | .calc (.func (.calc c)) => .calc c
  | v => v

/-- The wrapping at the end of `Add for DimensionPercentage` (src/values/percentage.rs:257-266). -/
def wrapCalc : Val K → Val K
  | .calc (.value v) => v
  | .calc (.func (.calc c)) => .calc (.func (.calc (.func (.calc c))))
  | .calc (.func f) => .calc (.func f)
  | .calc c => .calc (.func (.calc c))
  | v => v

/-- `a + b`, the public operator (src/values/percentage.rs:244-266). -/
def addOp (n : Nat) (a b : Val K) : Option (Val K) := do
  some (wrapCalc (← addInternal n (unwrapCalc a) (unwrapCalc b)))

/-! ## Functions -/

/-- `partial_cmp` of two arguments of `min()` and `max()` (src/values/calc.rs:666-700). -/
def argCmp : Calc K → Calc K → Option Ordering
  | .value a, .value b => a.partialCmp b
  | .number a, .number b => some (cmpK a b)
  | _, _ => none

/-- The search and update of `reduce_args` for one argument (src/values/calc.rs:664-708). -/
def reduceInto (cmp : Ordering) (arg : Calc K) : List (Calc K) → List (Calc K)
  | [] => [arg]
  | b :: bs =>
      match argCmp arg b with
      | some o => if o = cmp then arg :: bs else b :: bs
      | none => b :: reduceInto cmp arg bs

/-- `reduce_args` (src/values/calc.rs:658-711). -/
def reduceArgs (cmp : Ordering) (args : List (Calc K)) : List (Calc K) :=
  args.foldl (fun reduced arg => reduceInto cmp arg reduced) []

/-- `min()` and `max()` (src/values/calc.rs:360-375). -/
def mkMinMax (f : List (Calc K) → Fn K) (cmp : Ordering) (args : List (Calc K)) : Calc K :=
  match reduceArgs cmp args with
  | [c] => c
  | l => .func (f l)

/-- `clamp()` (src/values/calc.rs:376-432). -/
def mkClamp (mn center mx : Calc K) : Calc K :=
  let cmp := argCmp center mx
  let (center, mx) : Calc K × Option (Calc K) := match cmp with
    | some .gt => (mx, none)
    | some _ => (center, none)
    | none => (center, some mx)
  let (mn, center) : Option (Calc K) × Calc K :=
    if cmp.isSome then
      match argCmp center mn with
      | some .lt => (none, mn)
      | some _ => (none, center)
      | none => (some mn, center)
    else (some mn, center)
  match mn, mx with
  | none, none => center
  | some mn, none => .func (.max [mn, center])
  | none, some mx => .func (.min [center, mx])
  | some mn, some mx => .func (.clamp mn center mx)

/-- `apply_op` (src/values/calc.rs:731-743). -/
def applyOp (op : K → K → K) : Calc K → Calc K → Option (Calc K)
  | .value a, .value b => (a.tryOp op b).map .value
  | .number a, .number b => some (.number (op a b))
  | _, _ => none

/-- `apply_map` (src/values/calc.rs:745-757). -/
def applyMap (op : K → K) : Calc K → Option (Calc K)
  | .number x => some (.number (op x))
  | .value v => (v.tryMap op).map .value
  | _ => none

/-- `sign()` (src/values/calc.rs:517-535). -/
def mkSign : Calc K → Calc K
  | .number x => .number (sgn x)
  | .value (.dim u x) => .number ((Val.dim u (sgn x)).trySign.getD 0)
  | c => .func (.sign c)

/-- `parse_hypot` (src/values/calc.rs:875-899). `sqrt` is `f32::sqrt`, and `f32::hypot` its
definition. -/
def parseHypot (sqrt : K → K) : List (Calc K) → Option (Calc K)
  | [a] => some a
  | [a, b] => applyOp (fun x y => sqrt (x * x + y * y)) a b
  | [] => none
  | a :: l => do
      let first ← applyMap (fun x => x * x) a
      let sum ← l.foldlM (fun acc arg => applyOp (fun x y => x + y * y) acc arg) first
      applyMap sqrt sum

/-- `hypot()` (src/values/calc.rs:497-506). -/
def mkHypot (sqrt : K → K) (l : List (Calc K)) : Calc K :=
  (parseHypot sqrt l).getD (.func (.hypot l))

/-! ## Parsing -/

/-- The source of a math expression as the tree that the grammar of CSS gives it. `parse_sum` and
`parse_product` (src/values/calc.rs:540-614) read `a + b - c` and `a * b / c` from the left, as this
tree nests to the left; parentheses leave no trace. The functions that take and give only numbers
(`sin()`, `pow()`, …) are not modelled. -/
inductive Src (K : Type)
  | num (x : K)
  | dim (u : Unit) (x : K)
  | pct (x : K)
  | add (a b : Src K)
  | sub (a b : Src K)
  | mul (a b : Src K)
  | div (a b : Src K)
  | calc (a : Src K)
  | min (l : List (Src K))
  | max (l : List (Src K))
  | clamp (a b c : Src K)
  | round (s : Strategy) (a b : Src K)
  | rem (a b : Src K)
  | mod (a b : Src K)
  | abs (a : Src K)
  | sign (a : Src K)
  | hypot (l : List (Src K))

/-- What a parser function returns: a value, an error, or nothing because it calls itself for ever. -/
inductive Res (α : Type)
  | ok (a : α)
  | err
  | loops

/-- The `?` operator. -/
def Res.bind {α β : Type} (r : Res α) (f : α → Res β) : Res β :=
  match r with
  | .ok a => f a
  | .err => .err
  | .loops => .loops

/-- A result of `Calc::add`. -/
def Res.ofFuel {α : Type} : Option α → Res α
  | some a => .ok a
  | none => .loops

/-- The wrapping of `calc()` (src/values/calc.rs:353-359). -/
def wrapTop : Calc K → Calc K
  | .value v => .value v
  | .number x => .number x
  | c => .func (.calc c)

/-- `*` (src/values/calc.rs:585-596). -/
def mkMul (a b : Calc K) : Res (Calc K) :=
  match b with
  | .number k => .ok (a.mul k)
  | b =>
    match a with
    | .number k => .ok (b.mul k)
    | _ => .err

/-- `/` (src/values/calc.rs:597-606). -/
def mkDiv (a b : Calc K) : Res (Calc K) :=
  match b with
  | .number k => if k = 0 then .err else .ok (a.mul (1 / k))
  | _ => .err

mutual
/-- What `parse_sum` (and `parse_product`, `parse_value`) gives for a tree (src/values/calc.rs:346-656).
Math functions inside are unwrapped if they are `calc()` (src/values/calc.rs:621-631). -/
def Src.parse (sqrt : K → K) (n : Nat) : Src K → Res (Calc K)
  | .num x => .ok (.number x)
  | .dim u x => .ok (.value (.dim u x))
  | .pct x => .ok (.value (.pct x))
  | .add a b => (a.parse sqrt n).bind fun a => (b.parse sqrt n).bind fun b => .ofFuel (calcAdd n a b)
  | .sub a b => (a.parse sqrt n).bind fun a => (b.parse sqrt n).bind fun b =>
      .ofFuel (calcAdd n a (b.mul (-1)))
  | .mul a b => (a.parse sqrt n).bind fun a => (b.parse sqrt n).bind fun b => mkMul a b
  | .div a b => (a.parse sqrt n).bind fun a => (b.parse sqrt n).bind fun b => mkDiv a b
  | .calc a => a.parse sqrt n
  | .min l => (parseArgs sqrt n l).bind fun l => .ok (mkMinMax .min .lt l)
  | .max l => (parseArgs sqrt n l).bind fun l => .ok (mkMinMax .max .gt l)
  | .clamp a b c => (a.parse sqrt n).bind fun a => (b.parse sqrt n).bind fun b =>
      (c.parse sqrt n).bind fun c => .ok (mkClamp a b c)
  | .round s a b => (a.parse sqrt n).bind fun a => (b.parse sqrt n).bind fun b =>
      .ok ((applyOp (round s) a b).getD (.func (.round s a b)))
  | .rem a b => (a.parse sqrt n).bind fun a => (b.parse sqrt n).bind fun b =>
      .ok ((applyOp frem a b).getD (.func (.rem a b)))
  | .mod a b => (a.parse sqrt n).bind fun a => (b.parse sqrt n).bind fun b =>
      .ok ((applyOp modulo a b).getD (.func (.mod a b)))
  | .abs a => (a.parse sqrt n).bind fun a => .ok ((applyMap (fun x => |x|) a).getD (.func (.abs a)))
  | .sign a => (a.parse sqrt n).bind fun a => .ok (mkSign a)
  | .hypot l => (parseArgs sqrt n l).bind fun l => .ok (mkHypot sqrt l)
/-- `parse_comma_separated` of `parse_sum`. -/
def parseArgs (sqrt : K → K) (n : Nat) : List (Src K) → Res (List (Calc K))
  | [] => .ok []
  | a :: l => (a.parse sqrt n).bind fun a => (parseArgs sqrt n l).bind fun l => .ok (a :: l)
end

/-- `parse_with` (src/values/calc.rs:346-538): the wrapping of the outermost function. -/
def Src.parseFn (sqrt : K → K) (n : Nat) : Src K → Res (Calc K)
  | .calc a => (a.parse sqrt n).bind fun c => .ok (wrapTop c)
  | s => s.parse sqrt n

/-- Is it a math function? -/
def Src.isFn : Src K → Bool
  | .num _ | .dim _ _ | .pct _ | .add _ _ | .sub _ _ | .mul _ _ | .div _ _ => false
  | _ => true

/-- `DimensionPercentage::parse` (src/values/percentage.rs:213-230): a math function, a dimension or a
percentage. A unitless number is a length in pixels (src/values/length.rs:117-120). -/
def Src.parseVal (sqrt : K → K) (n : Nat) (s : Src K) : Res (Val K) :=
  match s with
  | .num x => .ok (.dim (.abs .px) x)
  | .dim u x => .ok (.dim u x)
  | .pct x => .ok (.pct x)
  | s =>
    if s.isFn then
      (s.parseFn sqrt n).bind fun c => match c with
        | .value v => .ok v
        | c => .ok (.calc c)
    else .err

/-! ## Printing -/

/-- A printed value: a sequence of tokens, functions with their arguments. `inf` is the text of an
infinite `f32`, which is no CSS number. -/
inductive Tok (K : Type)
  | num (x : K)
  | inf
  | dim (u : Unit) (x : K)
  | pct (x : K)
  | plus | minus | times | slash
  | calc (a : List (Tok K))
  | min (l : List (List (Tok K)))
  | max (l : List (List (Tok K)))
  | clamp (a b c : List (Tok K))
  | round (s : Option Strategy) (a b : List (Tok K))
  | rem (a b : List (Tok K))
  | mod (a b : List (Tok K))
  | abs (a : List (Tok K))
  | sign (a : List (Tok K))
  | hypot (l : List (List (Tok K)))

/-- `clamp()`, or `max()` and `min()` for browsers without it (src/values/calc.rs:162-183). -/
def clampTok (noClamp : Bool) (a b c : List (Tok K)) : Tok K :=
  if noClamp then .max [a, [.min [b, c]]] else .clamp a b c

mutual
/-- `DimensionPercentage::to_css` inside of a math function (src/values/percentage.rs:475-489). -/
def Val.print (noClamp : Bool) : Val K → List (Tok K)
  | .dim u x => [.dim u x]
  | .pct x => [.pct x]
  | .calc c => c.print noClamp
/-- `Calc::to_css` (src/values/calc.rs:965-1007). In a sum the second operand is printed with its sign
flipped if it is negative. -/
def Calc.print (noClamp : Bool) : Calc K → List (Tok K)
  | .value v => v.print noClamp
  | .number x => [.num x]
  | .sum a b =>
      if isNeg b.trySign then a.print noClamp ++ .minus :: b.printNeg noClamp
      else a.print noClamp ++ .plus :: b.print noClamp
  | .product x c =>
      if |x| < 1 then c.print noClamp ++ [.slash, if x = 0 then .inf else .num (1 / x)]
      else .num x :: .times :: c.print noClamp
  | .func f => f.print noClamp
/-- `b.clone() * -1.0` and then `to_css` (src/values/calc.rs:979-987) in one, for an operand that has a
sign; `printNeg_eq` says that this is `(b.mul (-1)).print`. A sum has no sign. -/
def Calc.printNeg (noClamp : Bool) : Calc K → List (Tok K)
  | .value v => v.printNeg noClamp
  | .number x => [.num (x * -1)]
  | .sum _ _ => []
  | .product x c =>
      if x * -1 = 1 then c.print noClamp
      else if |x * -1| < 1 then
        c.print noClamp ++ [.slash, if x * -1 = 0 then .inf else .num (1 / (x * -1))]
      else .num (x * -1) :: .times :: c.print noClamp
  | .func f => f.printNeg noClamp
/-- The same for a value. -/
def Val.printNeg (noClamp : Bool) : Val K → List (Tok K)
  | .dim u x => [.dim u (x * -1)]
  | .pct x => [.pct (x * -1)]
  | .calc c => c.printNeg noClamp
/-- The same for a function. -/
def Fn.printNeg (noClamp : Bool) : Fn K → List (Tok K)
  | .calc c => [.calc (c.printNeg noClamp)]
  | .min l => [.num (-1), .times, .min (printArgs noClamp l)]
  | .max l => [.num (-1), .times, .max (printArgs noClamp l)]
  | .clamp a b c =>
      [.num (-1), .times, clampTok noClamp (a.print noClamp) (b.print noClamp) (c.print noClamp)]
  | .round s a b =>
      [.num (-1), .times, .round (if s = .nearest then none else some s) (a.print noClamp) (b.print noClamp)]
  | .rem a b => [.num (-1), .times, .rem (a.print noClamp) (b.print noClamp)]
  | .mod a b => [.num (-1), .times, .mod (a.print noClamp) (b.print noClamp)]
  | .abs c => [.num (-1), .times, .abs (c.print noClamp)]
  | .sign c => [.num (-1), .times, .sign (c.print noClamp)]
  | .hypot l => [.num (-1), .times, .hypot (printArgs noClamp l)]
/-- `MathFunction::to_css` (src/values/calc.rs:125-234). `noClamp` is
`should_compile!(targets, ClampFunction)`. -/
def Fn.print (noClamp : Bool) : Fn K → List (Tok K)
  | .calc c => [.calc (c.print noClamp)]
  | .min l => [.min (printArgs noClamp l)]
  | .max l => [.max (printArgs noClamp l)]
  | .clamp a b c => [clampTok noClamp (a.print noClamp) (b.print noClamp) (c.print noClamp)]
  | .round s a b =>
      [.round (if s = .nearest then none else some s) (a.print noClamp) (b.print noClamp)]
  | .rem a b => [.rem (a.print noClamp) (b.print noClamp)]
  | .mod a b => [.mod (a.print noClamp) (b.print noClamp)]
  | .abs c => [.abs (c.print noClamp)]
  | .sign c => [.sign (c.print noClamp)]
  | .hypot l => [.hypot (printArgs noClamp l)]
/-- The arguments, separated by commas. -/
def printArgs (noClamp : Bool) : List (Calc K) → List (List (Tok K))
  | [] => []
  | c :: cs => c.print noClamp :: printArgs noClamp cs
end

/-- `DimensionPercentage::to_css` outside of math functions: a zero length has no unit
(src/values/length.rs:457-472). -/
def Val.printTop (noClamp : Bool) : Val K → List (Tok K)
  | .dim u x => if x = 0 then [.num 0] else [.dim u x]
  | .pct x => [.pct x]
  | .calc c => c.print noClamp

end

end Verif.MathFn
