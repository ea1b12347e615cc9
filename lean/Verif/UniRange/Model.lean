import Verif.Common.Chars
/-!
Model of `ToCss for UnicodeRange` (`src/rules/font_face.rs:302-372`): the `unicode-range` descriptor of `@font-face`.
`u32` values are natural numbers (the values are at most `0x10FFFF`, checked by `cssparser::UnicodeRange::parse`, which is not in
the repository).
-/
namespace Verif.UniRange

/-- `UnicodeRange` (src/rules/font_face.rs:302-309). -/
structure URange where
  start : Nat
  stop : Nat
deriving DecidableEq

/-- A digit of `{:X}`. -/
def hexDigit (d : Nat) : Char := if d < 10 then Char.ofNat (48 + d) else Char.ofNat (55 + d)

/-- The `{:X}` format of a `u32` (core library). -/
def hex (n : Nat) : Str :=
  if n < 16 then [hexDigit n] else hex (n / 16) ++ [hexDigit (n % 16)]
termination_by n
decreasing_by omega

/-- The `while` loop that looks for the first hex digit that differs (src/rules/font_face.rs:329-340), from `shift = 4 * k`;
the result is `shift` after the loop. -/
def firstDiff (a b : Nat) : Nat → Nat
  | 0 => 0
  | k + 1 =>
    let mask := 0xf <<< (4 * (k + 1))
    if a &&& mask ≠ b &&& mask then 4 * (k + 1) else firstDiff a b k

/-- `UnicodeRange::to_css` (src/rules/font_face.rs:321-372). -/
def print (r : URange) : Str :=
  let shift := firstDiff r.start r.stop 6 + 4
  let mask := (1 <<< shift) - 1
  if r.start ≠ r.stop ∧ r.start &&& mask = 0 ∧ r.stop &&& mask = mask then
    let high := (r.start - (r.start &&& mask)) >>> shift
    cs!"U+" ++ (if high ≠ 0 then hex high else []) ++ List.replicate (shift / 4) '?'
  else if r.stop ≠ r.start then cs!"U+" ++ hex r.start ++ '-' :: hex r.stop
  else cs!"U+" ++ hex r.start

end Verif.UniRange
