import Verif.Units.Model
import Verif.MathFn.Spec
/-!
# Times, angles, percentages and numbers: specification (CSS Values and Units 4)
-/
namespace Verif.Units
open Verif.MathFn (Strategy cssRound cssMod cssRem cssSign minOf maxOf)

variable {K : Type} [Field K] [LinearOrder K] [FloorRing K] (F : Fns K)

/-- The amount in milliseconds, degrees or percent: 1s = 1000ms; a full circle is 360deg, 400grad,
1turn or 2π rad. -/
def amount : Val K → K
  | .sec x => x * 1000
  | .ms x => x
  | .deg x => x
  | .grad x => x * (360 / 400)
  | .turn x => x * 360
  | .rad x => x * (360 / (2 * F.pi))
  | .pct x => x

/-- A type and an amount. -/
structure Sem (K : Type) where
  ty : Kind
  x : K

/-- Two arguments of the same type. -/
def same2 (f : K → K → K) (a b : Sem K) : Option (Sem K) :=
  if a.ty = b.ty then some ⟨a.ty, f a.x b.x⟩ else none

/-- Arguments of the same type, at least one. -/
def sameAll (f : List K → K) : List (Sem K) → Option (Sem K)
  | [] => none
  | a :: l => if ∀ b ∈ l, b.ty = a.ty then some ⟨a.ty, f (a.x :: l.map Sem.x)⟩ else none

mutual
/-- CSS Values 4, section 10: the type and the amount of an expression, or nothing if its types do not
fit or a divisor is zero. -/
def Src.sem : Src K → Option (Sem K)
  | .num x => some ⟨.num, x⟩
  | .lit v => some ⟨v.kind, amount F v⟩
  | .add a b => a.sem.bind fun a => b.sem.bind fun b => same2 (· + ·) a b
  | .sub a b => a.sem.bind fun a => b.sem.bind fun b => same2 (· - ·) a b
  | .mul a b => a.sem.bind fun a => b.sem.bind fun b =>
      if b.ty = .num then some ⟨a.ty, a.x * b.x⟩
      else if a.ty = .num then some ⟨b.ty, a.x * b.x⟩ else none
  | .div a b => a.sem.bind fun a => b.sem.bind fun b =>
      if b.ty = .num ∧ b.x ≠ 0 then some ⟨a.ty, a.x / b.x⟩ else none
  | .calc a => a.sem
  | .min l => (semArgs l).bind (sameAll minOf)
  | .max l => (semArgs l).bind (sameAll maxOf)
  | .clamp a b c => a.sem.bind fun a => b.sem.bind fun b => c.sem.bind fun c =>
      (same2 min b c).bind fun d => same2 max a d
  | .round s a b => a.sem.bind fun a => b.sem.bind fun b => same2 (cssRound s) a b
  | .rem a b => a.sem.bind fun a => b.sem.bind fun b => same2 cssRem a b
  | .mod a b => a.sem.bind fun a => b.sem.bind fun b => same2 cssMod a b
  | .abs a => a.sem.bind fun a => some ⟨a.ty, |a.x|⟩
  | .sign a => a.sem.bind fun a => some ⟨.num, cssSign a.x⟩
  | .hypot l => (semArgs l).bind (sameAll (MathFn.cssHypot F.sqrt))
  | .trig f a => a.sem.bind fun a =>
      let run := match f with | .sin => F.sin | .cos => F.cos | .tan => F.tan
      if a.ty = .num then some ⟨.num, run a.x⟩
      else if a.ty = .angle then some ⟨.num, run (a.x * (2 * F.pi / 360))⟩ else none
  | .arc f a => a.sem.bind fun a =>
      let run := match f with | .asin => F.asin | .acos => F.acos | .atan => F.atan
      if a.ty = .num then some ⟨.angle, run a.x * (360 / (2 * F.pi))⟩ else none
  | .fn1 f a => a.sem.bind fun a =>
      let run := match f with | .sqrt => F.sqrt | .exp => F.exp | .ln => F.ln
      if a.ty = .num then some ⟨.num, run a.x⟩ else none
  | .fn2 f a b => a.sem.bind fun a => b.sem.bind fun b =>
      let run := match f with | .pow => F.pow | .log => F.log
      if a.ty = .num ∧ b.ty = .num then some ⟨.num, run a.x b.x⟩ else none
/-- The arguments of a function. -/
def semArgs : List (Src K) → Option (List (Sem K))
  | [] => some []
  | a :: l => a.sem.bind fun a => (semArgs l).bind fun l => some (a :: l)
end

mutual
/-- All dimensions are of the given type, those in arguments of trigonometric functions are angles, and
there are none in arguments of functions of numbers. -/
def Src.Only (t : Kind) : Src K → Prop
  | .num _ => True
  | .lit v => v.kind = t
  | .add a b | .sub a b | .mul a b | .div a b | .rem a b | .mod a b | .round _ a b => a.Only t ∧ b.Only t
  | .calc a | .abs a | .sign a => a.Only t
  | .min l | .max l | .hypot l => OnlyArgs t l
  | .clamp a b c => a.Only t ∧ b.Only t ∧ c.Only t
  | .trig _ a => a.Only .angle
  | .arc _ a => t = .angle ∧ a.Only .angle
  | .fn1 _ a => a.Only .num
  | .fn2 _ a b => a.Only .num ∧ b.Only .num
/-- See `Src.Only`. -/
def OnlyArgs (t : Kind) : List (Src K) → Prop
  | [] => True
  | a :: l => a.Only t ∧ OnlyArgs t l
end

/-- The arguments of `hypot()` that the code computes as CSS does: two; one that is not negative;
more of type `Time` or numbers; or more of type `Angle` beginning with a number of degrees. -/
def HypotFine (t : Kind) (l : List (Src K)) : Prop :=
  l.length = 2 ∨ (∃ a, l = [a] ∧ ∀ s, a.sem F = some s → 0 ≤ s.x) ∨
    (3 ≤ l.length ∧ (t = .time ∨ t = .num ∨ (t = .angle ∧ ∃ x l', l = .lit (.deg x) :: l')))

mutual
/-- What the code computes as CSS does: the step of `round()` is positive, a value to be rounded to the
nearest is not negative and half way between two multiples, there is no `abs()` or `sign()` of
percentages, and `hypot()` as above. -/
def Src.Fine (t : Kind) : Src K → Prop
  | .num _ | .lit _ => True
  | .add a b | .sub a b | .mul a b | .div a b | .rem a b | .mod a b => a.Fine t ∧ b.Fine t
  | .calc a => a.Fine t
  | .abs a | .sign a => a.Fine t ∧ ∀ s, a.sem F = some s → s.ty ≠ .pct
  | .min l | .max l => l ≠ [] ∧ FineArgs t l
  | .clamp a b c => a.Fine t ∧ b.Fine t ∧ c.Fine t
  | .round s a b => a.Fine t ∧ b.Fine t ∧ ∀ x y, a.sem F = some x → b.sem F = some y → 0 < y.x ∧
      (s = .nearest → x.x / y.x < 0 → ∀ n : ℤ, x.x / y.x ≠ n + 1 / 2)
  | .hypot l => FineArgs t l ∧ HypotFine F t l
  | .trig _ a | .arc _ a => a.Fine .angle
  | .fn1 _ a => a.Fine .num
  | .fn2 _ a b => a.Fine .num ∧ b.Fine .num
/-- See `Src.Fine`. -/
def FineArgs (t : Kind) : List (Src K) → Prop
  | [] => True
  | a :: l => a.Fine t ∧ FineArgs t l
end

end Verif.Units
