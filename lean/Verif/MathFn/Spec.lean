import Verif.MathFn.Model
/-!
# Math functions: specification (CSS Values and Units 4)
-/
namespace Verif.MathFn

variable {K : Type} [Field K] [LinearOrder K] [FloorRing K]

/-- What the units and 100% stand for. -/
structure Env (K : Type) [Field K] [LinearOrder K] where
  /-- The length of one unit, in pixels. -/
  unit : Unit → K
  /-- The length that 100% stands for. -/
  base : K
  /-- CSS Values 4, section 6.2: 1in = 96px = 2.54cm = 25.4mm = 101.6Q = 72pt = 6pc. -/
  px : unit (.abs .px) = 1
  inch : unit (.abs .inch) = 96
  cm : 254 * unit (.abs .cm) = 9600
  mm : 254 * unit (.abs .mm) = 960
  q : 1016 * unit (.abs .q) = 960
  pt : 72 * unit (.abs .pt) = 96
  pc : 6 * unit (.abs .pc) = 96
  /-- Units are positive. -/
  pos : ∀ u, 0 < unit u

/-- CSS Values 4, section 10.3: the multiples of `b` below and above `a`; to the nearest, the upper one
if both are as near; to the one nearer to zero. If `b = 0` the result is NaN; this stands for 0 here. -/
def cssRound (s : Strategy) (a b : K) : K :=
  let lower : K := ⌊a / |b|⌋ * |b|
  let upper : K := ⌈a / |b|⌉ * |b|
  match s with
  | .nearest => if a - lower < upper - a then lower else upper
  | .up => upper
  | .down => lower
  | .toZero => if |lower| < |upper| then lower else upper

/-- `mod(a, b)`: `a` shifted by a multiple of `b` into the range between 0 and `b`. -/
def cssMod (a b : K) : K := a - b * ⌊a / b⌋

/-- `rem(a, b)`: the same with the sign of `a`. -/
def cssRem (a b : K) : K := if 0 ≤ a / b then a - b * ⌊a / b⌋ else a - b * ⌈a / b⌉

/-- `sign(a)`. -/
def cssSign (a : K) : K := if 0 < a then 1 else if a < 0 then -1 else 0

/-- The least of some values. -/
def minOf : List K → K
  | [] => 0
  | [a] => a
  | a :: l => min a (minOf l)

/-- The greatest of some values. -/
def maxOf : List K → K
  | [] => 0
  | [a] => a
  | a :: l => max a (maxOf l)

/-- The square root of the sum of the squares. -/
def cssHypot (sqrt : K → K) (l : List K) : K := sqrt (l.map fun x => x * x).sum

mutual
/-- The value of a source expression. -/
def Src.eval (sqrt : K → K) (ρ : Env K) : Src K → K
  | .num x => x
  | .dim u x => x * ρ.unit u
  | .pct x => x * ρ.base
  | .add a b => a.eval sqrt ρ + b.eval sqrt ρ
  | .sub a b => a.eval sqrt ρ - b.eval sqrt ρ
  | .mul a b => a.eval sqrt ρ * b.eval sqrt ρ
  | .div a b => a.eval sqrt ρ / b.eval sqrt ρ
  | .calc a => a.eval sqrt ρ
  | .min l => minOf (evalArgs sqrt ρ l)
  | .max l => maxOf (evalArgs sqrt ρ l)
  | .clamp a b c => max (a.eval sqrt ρ) (min (b.eval sqrt ρ) (c.eval sqrt ρ))
  | .round s a b => cssRound s (a.eval sqrt ρ) (b.eval sqrt ρ)
  | .rem a b => cssRem (a.eval sqrt ρ) (b.eval sqrt ρ)
  | .mod a b => cssMod (a.eval sqrt ρ) (b.eval sqrt ρ)
  | .abs a => |a.eval sqrt ρ|
  | .sign a => cssSign (a.eval sqrt ρ)
  | .hypot l => cssHypot sqrt (evalArgs sqrt ρ l)
/-- The values of arguments. -/
def evalArgs (sqrt : K → K) (ρ : Env K) : List (Src K) → List K
  | [] => []
  | a :: l => a.eval sqrt ρ :: evalArgs sqrt ρ l
end

mutual
/-- The value of a stored value. -/
def Val.eval (sqrt : K → K) (ρ : Env K) : Val K → K
  | .dim u x => x * ρ.unit u
  | .pct x => x * ρ.base
  | .calc c => c.eval sqrt ρ
/-- The value of a stored expression. -/
def Calc.eval (sqrt : K → K) (ρ : Env K) : Calc K → K
  | .value v => v.eval sqrt ρ
  | .number x => x
  | .sum a b => a.eval sqrt ρ + b.eval sqrt ρ
  | .product x c => x * c.eval sqrt ρ
  | .func f => f.eval sqrt ρ
/-- The value of a stored function. -/
def Fn.eval (sqrt : K → K) (ρ : Env K) : Fn K → K
  | .calc c => c.eval sqrt ρ
  | .min l => minOf (evalCalcs sqrt ρ l)
  | .max l => maxOf (evalCalcs sqrt ρ l)
  | .clamp a b c => max (a.eval sqrt ρ) (min (b.eval sqrt ρ) (c.eval sqrt ρ))
  | .round s a b => cssRound s (a.eval sqrt ρ) (b.eval sqrt ρ)
  | .rem a b => cssRem (a.eval sqrt ρ) (b.eval sqrt ρ)
  | .mod a b => cssMod (a.eval sqrt ρ) (b.eval sqrt ρ)
  | .abs a => |a.eval sqrt ρ|
  | .sign a => cssSign (a.eval sqrt ρ)
  | .hypot l => cssHypot sqrt (evalCalcs sqrt ρ l)
/-- The values of stored arguments. -/
def evalCalcs (sqrt : K → K) (ρ : Env K) : List (Calc K) → List K
  | [] => []
  | a :: l => a.eval sqrt ρ :: evalCalcs sqrt ρ l
end

/-- What a sum waits for: a value after an operator, or an operator after a product. -/
inductive Mode (K : Type)
  | sign (s : K)
  | mul (p : K)
  | div (p : K)
  | have (p : K)

mutual
/-- The value of a printed token, if it is a value. -/
def Tok.eval (sqrt : K → K) (ρ : Env K) : Tok K → Option K
  | .num x => some x
  | .dim u x => some (x * ρ.unit u)
  | .pct x => some (x * ρ.base)
  | .calc a => readSum sqrt ρ 0 (.sign 1) a
  | .min l => (readArgs sqrt ρ l).map minOf
  | .max l => (readArgs sqrt ρ l).map maxOf
  | .clamp a b c => do
      let x ← readSum sqrt ρ 0 (.sign 1) a
      let y ← readSum sqrt ρ 0 (.sign 1) b
      let z ← readSum sqrt ρ 0 (.sign 1) c
      some (max x (min y z))
  | .round s a b => do
      let x ← readSum sqrt ρ 0 (.sign 1) a
      let y ← readSum sqrt ρ 0 (.sign 1) b
      some (cssRound (s.getD .nearest) x y)
  | .rem a b => do
      let x ← readSum sqrt ρ 0 (.sign 1) a
      let y ← readSum sqrt ρ 0 (.sign 1) b
      some (cssRem x y)
  | .mod a b => do
      let x ← readSum sqrt ρ 0 (.sign 1) a
      let y ← readSum sqrt ρ 0 (.sign 1) b
      some (cssMod x y)
  | .abs a => (readSum sqrt ρ 0 (.sign 1) a).map fun x => |x|
  | .sign a => (readSum sqrt ρ 0 (.sign 1) a).map cssSign
  | .hypot l => (readArgs sqrt ρ l).map (cssHypot sqrt)
  | .inf | .plus | .minus | .times | .slash => none
/-- CSS Values 4, section 10.8: `<calc-sum> = <calc-product> [ [ '+' | '-' ] <calc-product> ]*`,
`<calc-product> = <calc-value> [ [ '*' | '/' ] <calc-value> ]*`, evaluated from left to right: `s` is
the sum of the products that are complete. -/
def readSum (sqrt : K → K) (ρ : Env K) (s : K) : Mode K → List (Tok K) → Option K
  | .have p, [] => some (s + p)
  | .have p, t :: ts =>
      match t with
      | .plus => readSum sqrt ρ (s + p) (.sign 1) ts
      | .minus => readSum sqrt ρ (s + p) (.sign (-1)) ts
      | .times => readSum sqrt ρ s (.mul p) ts
      | .slash => readSum sqrt ρ s (.div p) ts
      | _ => none
  | .sign _, [] | .mul _, [] | .div _, [] => none
  | .sign g, t :: ts => (t.eval sqrt ρ).bind fun v => readSum sqrt ρ s (.have (g * v)) ts
  | .mul p, t :: ts => (t.eval sqrt ρ).bind fun v => readSum sqrt ρ s (.have (p * v)) ts
  | .div p, t :: ts =>
      (t.eval sqrt ρ).bind fun v => if v = 0 then none else readSum sqrt ρ s (.have (p / v)) ts
/-- The values of arguments. -/
def readArgs (sqrt : K → K) (ρ : Env K) : List (List (Tok K)) → Option (List K)
  | [] => some []
  | a :: l => do
      let x ← readSum sqrt ρ 0 (.sign 1) a
      let xs ← readArgs sqrt ρ l
      some (x :: xs)
end

/-- A property value must be a single value token: a sum or a product may only stand in a function. -/
def readValue (sqrt : K → K) (ρ : Env K) : List (Tok K) → Option K
  | [t] => t.eval sqrt ρ
  | _ => none

end Verif.MathFn
