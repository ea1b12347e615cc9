import Verif.Common.Chars
/-!
# Easing functions (`/repo/src/values/easing.rs`)

Numbers are numerators over 100 where they matter (the keywords' control points are multiples of 1/100): a number is an opaque value of
type `Num` with the few constants that the code compares with. The text of a number is a single token.
-/
namespace Verif.Transition

/-- A number of `cubic-bezier()`: `mantissa / 10 ^ scale` with the trailing zeros removed, so that equal numbers are equal values. -/
structure Num where
  mantissa : Int
  scale : Nat
deriving DecidableEq

/-- `StepPosition` (src/values/easing.rs:195-218). -/
inductive StepPos
  | start | stop | jumpNone | jumpBoth
deriving DecidableEq

/-- `EasingFunction` (src/values/easing.rs:13-52). -/
inductive Easing
  | linear | ease | easeIn | easeOut | easeInOut
  | bezier (x1 y1 x2 y2 : Num)
  | steps (count : Int) (pos : StepPos)
deriving DecidableEq

/-- The tokens of an easing function. A function's arguments are split at the commas, and each argument is one token in the grammars below. -/
inductive Arg
  | num (n : Num)
  | int (n : Int)
  | ident (s : Str)
deriving DecidableEq

/-- An easing function as it is written: a keyword or a function. -/
inductive Text
  | ident (s : Str)
  | func (name : Str) (args : List Arg)
deriving DecidableEq

/-- `match_ignore_ascii_case!`. -/
def kw (s lit : Str) : Bool := s.map Char.toLower = lit

/-- The keywords of `EasingFunction::parse` (src/values/easing.rs:72-83). -/
def easingKeyword (s : Str) : Option Easing :=
  if kw s cs!"linear" then some .linear
  else if kw s cs!"ease" then some .ease
  else if kw s cs!"ease-in" then some .easeIn
  else if kw s cs!"ease-out" then some .easeOut
  else if kw s cs!"ease-in-out" then some .easeInOut
  else if kw s cs!"step-start" then some (.steps 1 .start)
  else if kw s cs!"step-end" then some (.steps 1 .stop)
  else none

/-- `StepPosition::parse` (src/values/easing.rs:226-242). -/
def parseStepPos (s : Str) : Option StepPos :=
  if kw s cs!"start" then some .start
  else if kw s cs!"end" then some .stop
  else if kw s cs!"jump-start" then some .start
  else if kw s cs!"jump-end" then some .stop
  else if kw s cs!"jump-none" then some .jumpNone
  else if kw s cs!"jump-both" then some .jumpBoth
  else none

/-- `CSSNumber::parse`: a number token, also one that is an integer. -/
def Arg.number : Arg → Option Num
  | .num n => some n
  | .int n => some ⟨n, 0⟩
  | .ident _ => none

/-- `EasingFunction::parse` (src/values/easing.rs:68-111). In `steps()`, a comma with something else than a position makes `try_parse` fail, and then `parse_nested_block` fails because input is left. -/
def Easing.parse : Text → Option Easing
  | .ident s => easingKeyword s
  | .func name args =>
    if kw name cs!"cubic-bezier" then
      match args with
      | [a, b, c, d] => match a.number, b.number, c.number, d.number with
        | some x1, some y1, some x2, some y2 => some (.bezier x1 y1 x2 y2)
        | _, _, _, _ => none
      | _ => none
    else if kw name cs!"steps" then
      match args with
      | [.int n] => some (.steps n .stop)
      | [.int n, .ident p] => (parseStepPos p).map (.steps n)
      | _ => none
    else none

/-- The decimals of `is_ease` and `to_css`. -/
def dec (m : Int) (s : Nat) : Num := ⟨m, s⟩

/-- `EasingFunction::is_ease` (src/values/easing.rs:56-65). -/
def Easing.isEase (e : Easing) : Bool :=
  e = .ease || e = .bezier (dec 25 2) (dec 1 1) (dec 25 2) (dec 1 0)

/-- A number in the output: integers are written without a point. -/
def Num.arg (n : Num) : Arg := if n.scale = 0 then .int n.mantissa else .num n

/-- The derived `ToCss` of `StepPosition` (src/values/easing.rs:196). -/
def StepPos.text : StepPos → Str
  | .start => cs!"start"
  | .stop => cs!"end"
  | .jumpNone => cs!"jump-none"
  | .jumpBoth => cs!"jump-both"

/-- `EasingFunction::to_css` (src/values/easing.rs:113-183), the arms in order. -/
def Easing.print (e : Easing) : Text :=
  match e with
  | .linear => .ident cs!"linear"
  | .ease => .ident cs!"ease"
  | .easeIn => .ident cs!"ease-in"
  | .easeOut => .ident cs!"ease-out"
  | .easeInOut => .ident cs!"ease-in-out"
  | .bezier x1 y1 x2 y2 =>
    if Easing.isEase (.bezier x1 y1 x2 y2) then .ident cs!"ease"
    else if Easing.bezier x1 y1 x2 y2 = .bezier (dec 42 2) (dec 0 0) (dec 1 0) (dec 1 0) then .ident cs!"ease-in"
    else if Easing.bezier x1 y1 x2 y2 = .bezier (dec 0 0) (dec 0 0) (dec 58 2) (dec 1 0) then .ident cs!"ease-out"
    else if Easing.bezier x1 y1 x2 y2 = .bezier (dec 42 2) (dec 0 0) (dec 58 2) (dec 1 0) then .ident cs!"ease-in-out"
    else .func cs!"cubic-bezier" [x1.arg, y1.arg, x2.arg, y2.arg]
  | .steps 1 .start => .ident cs!"step-start"
  | .steps 1 .stop => .ident cs!"step-end"
  | .steps n p => .func cs!"steps" [.int n, .ident p.text]

end Verif.Transition
