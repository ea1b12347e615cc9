import Verif.Common.Decimal
/-!
Printing an sRGB colour (src/values/color.rs: `CssColor::to_css`, the `RGBA` case).
-/
namespace Verif.Color

/-- `RGBA` (src/values/color.rs:1592-1601): four bytes. -/
structure RGBA where
  /-- red -/
  red : Fin 256
  /-- green -/
  green : Fin 256
  /-- blue -/
  blue : Fin 256
  /-- alpha -/
  alpha : Fin 256
  deriving DecidableEq, Repr

/-- `compact_hex` (src/values/color.rs:657-659): 0xAABBCCDD => 0xABCD. A `u32` is a natural number here;
no operation of these two functions overflows on a `u32`. -/
def compactHex (v : Nat) : Nat := ((v &&& 0x0FF00000) >>> 12) ||| ((v &&& 0x00000FF0) >>> 4)

/-- `expand_hex` (src/values/color.rs:662-664): 0xABCD => 0xAABBCCDD. -/
def expandHex (v : Nat) : Nat :=
  ((v &&& 0xF000) <<< 16) ||| ((v &&& 0xFF00) <<< 12) ||| ((v &&& 0x0FF0) <<< 8) |||
    ((v &&& 0x00FF) <<< 4) ||| (v &&& 0x000F)

/-- `short_color_name` (src/values/color.rs:666-705). -/
def shortColorName (v : Nat) : Option Str :=
  match v with
  | 0x000080 => some cs!"navy"
  | 0x008000 => some cs!"green"
  | 0x008080 => some cs!"teal"
  | 0x4b0082 => some cs!"indigo"
  | 0x800000 => some cs!"maroon"
  | 0x800080 => some cs!"purple"
  | 0x808000 => some cs!"olive"
  | 0x808080 => some cs!"gray"
  | 0xa0522d => some cs!"sienna"
  | 0xa52a2a => some cs!"brown"
  | 0xc0c0c0 => some cs!"silver"
  | 0xcd853f => some cs!"peru"
  | 0xd2b48c => some cs!"tan"
  | 0xda70d6 => some cs!"orchid"
  | 0xdda0dd => some cs!"plum"
  | 0xee82ee => some cs!"violet"
  | 0xf0e68c => some cs!"khaki"
  | 0xf0ffff => some cs!"azure"
  | 0xf5deb3 => some cs!"wheat"
  | 0xf5f5dc => some cs!"beige"
  | 0xfa8072 => some cs!"salmon"
  | 0xfaf0e6 => some cs!"linen"
  | 0xff0000 => some cs!"red"
  | 0xff6347 => some cs!"tomato"
  | 0xff7f50 => some cs!"coral"
  | 0xffa500 => some cs!"orange"
  | 0xffc0cb => some cs!"pink"
  | 0xffd700 => some cs!"gold"
  | 0xffe4c4 => some cs!"bisque"
  | 0xfffafa => some cs!"snow"
  | 0xfffff0 => some cs!"ivory"
  | _ => none

/-- The character of a hexadecimal digit, as Rust's `{:x}` writes it. -/
def hexChar : Nat → Char
  | 0 => '0' | 1 => '1' | 2 => '2' | 3 => '3' | 4 => '4' | 5 => '5' | 6 => '6' | 7 => '7'
  | 8 => '8' | 9 => '9' | 10 => 'a' | 11 => 'b' | 12 => 'c' | 13 => 'd' | 14 => 'e' | _ => 'f'

/-- Rust's `{:x}`: the digits of `n` in front of `acc`; the first argument bounds their number. -/
def hexAux : Nat → Nat → Str → Str
  | 0, _, acc => acc
  | f + 1, n, acc =>
      if n < 16 then hexChar n :: acc else hexAux f (n / 16) (hexChar (n % 16) :: acc)

/-- Rust's `{:0Wx}`: the digits of `n`, with zeros in front up to `w` characters. -/
def hexPad (w n : Nat) : Str :=
  let s := hexAux (n + 1) n []
  List.replicate (w - s.length) '0' ++ s

/-- `f32::round` of the quotient of two natural numbers: half away from zero. -/
def roundDiv (n d : Nat) : Nat := (2 * n + d) / (2 * d)

/-- The alpha value `rgba()` is given, in thousandths (src/values/color.rs:593-598): two decimal places
if they give the byte back, else three. In exact arithmetic: the rounding errors of `f32` are not
modelled. -/
def roundedAlpha (alpha : Nat) : Nat :=
  let two := roundDiv (alpha * 100) 255
  let clamped := min (roundDiv (two * 255) 100) 255
  if clamped ≠ alpha then roundDiv (alpha * 1000) 255 else two * 10

/-- `CSSNumber::to_css` (src/values/number.rs:32-51) of `k` thousandths between 0 and 1: no zero before
the point, none at the end. -/
def printThousandths (k : Nat) : Str :=
  if k = 0 then cs!"0"
  else if k ≥ 1000 then cs!"1"
  else '.' :: ([digitChar (k / 100), digitChar (k / 10 % 10), digitChar (k % 10)].reverse.dropWhile
    (· == '0')).reverse

/-- `Printer::delim(',', false)` (src/printer.rs:194-200). -/
def comma (minify : Bool) : Str := if minify then cs!"," else cs!", "

/-- `CssColor::to_css` of `CssColor::RGBA` (src/values/color.rs:564-618). `hexAlpha` is false when the
targets need `#rrggbbaa` compiled (`should_compile!(…, HexAlphaColors)`). -/
def printColor (minify hexAlpha : Bool) (c : RGBA) : Str :=
  if c.alpha = 255 then
    let hex := (c.red.1 <<< 16) ||| (c.green.1 <<< 8) ||| c.blue.1
    match shortColorName hex with
    | some name => name
    | none =>
      let compact := compactHex hex
      if hex = expandHex compact then '#' :: hexPad 3 compact else '#' :: hexPad 6 hex
  else if !hexAlpha then
    if minify && c.red == 0 && c.green == 0 && c.blue == 0 && c.alpha == 0 then cs!"transparent"
    else cs!"rgba(" ++ showNat c.red.1 ++ comma minify ++ showNat c.green.1 ++ comma minify ++
      showNat c.blue.1 ++ comma minify ++ printThousandths (roundedAlpha c.alpha.1) ++ cs!")"
  else
    let hex := (c.red.1 <<< 24) ||| (c.green.1 <<< 16) ||| (c.blue.1 <<< 8) ||| c.alpha.1
    let compact := compactHex hex
    if hex = expandHex compact then '#' :: hexPad 4 compact else '#' :: hexPad 8 hex

end Verif.Color
