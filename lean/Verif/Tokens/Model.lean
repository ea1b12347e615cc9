import Verif.Modules.Model
/-!
Raw tokens of custom properties and unparsed values and how they are printed
(src/properties/custom.rs, src/values/number.rs, src/values/length.rs).
The serialisation of single tokens is in cssparser, which is not in /repo; it is modelled from its published source.
-/
namespace Verif.Tokens
open Verif.Modules (hexEscape serName serIdent)

/-- The text `dtoa_short::write` gives for a 32-bit float (not in /repo): sign, digits before and after the point, exponent.
`small` says that the float is not zero and less than 1 in absolute value, which the printer tests on the float, not on the text. -/
structure Num where
  neg : Bool
  int : Str
  frac : Str
  exp : Option (Bool × Str)
  small : Bool
deriving DecidableEq, Repr

/-- The digits and the exponent. -/
def Num.tail (n : Num) : Str :=
  (if n.frac = [] then [] else '.' :: n.frac) ++ (match n.exp with | none => [] | some (neg, ds) => 'e' :: (if neg then '-' :: ds else ds))

/-- `dtoa_short::write` (not in /repo). -/
def Num.dtoa (n : Num) : Str := (if n.neg then ['-'] else []) ++ n.int ++ n.tail

/-- src/properties/custom.rs:594-728 `Token`, without `BadUrl` and `BadString`, which `parse_into` rejects (custom.rs:445-450).
`value` and `int_value` of numbers are the text of the float; `dotZero` says that `int_value` is missing although the value is whole. -/
inductive Token where
  | ident (s : Str)
  | atKeyword (s : Str)
  | hash (s : Str)
  | idHash (s : Str)
  | string (s : Str)
  | url (s : Str)
  | func (s : Str)
  | delim (c : Char)
  | number (n : Num)
  | dimension (n : Num) (unit : Str)
  | percentage (plus dotZero : Bool) (n : Num)
  | ws (s : Str)
  | comment (s : Str)
  | colon
  | semicolon
  | comma
  | includeMatch
  | dashMatch
  | prefixMatch
  | suffixMatch
  | substringMatch
  | cdo
  | cdc
  | openParen
  | openSquare
  | openCurly
  | closeParen
  | closeSquare
  | closeCurly
deriving DecidableEq, Repr

/-- cssparser `CssStringWriter` (not in /repo), one character. -/
def stringChar (c : Char) : Str :=
  if c = '"' then cs!"\\\""
  else if c = '\\' then cs!"\\\\"
  else if c.toNat = 0 then ['\uFFFD']
  else if c.toNat < 32 || c.toNat = 127 then hexEscape c
  else [c]

/-- cssparser `serialize_string` (not in /repo). -/
def serString (s : Str) : Str := '"' :: s.flatMap stringChar ++ ['"']

/-- cssparser `serialize_unquoted_url` (not in /repo), one character. -/
def urlChar (c : Char) : Str :=
  if c.toNat ≤ 32 || c.toNat = 127 then hexEscape c
  else if c = '(' || c = ')' || c = '"' || c = '\'' || c = '\\' then ['\\', c]
  else [c]

/-- cssparser `serialize_unquoted_url` (not in /repo). -/
def serUrl (s : Str) : Str := s.flatMap urlChar

/-- Rust `trim_start_matches('0')`. -/
def trimZeros (s : Str) : Str := s.dropWhile (· = '0')

/-- Rust `trim_start_matches('-')`. -/
def trimDashes (s : Str) : Str := s.dropWhile (· = '-')

/-- Rust `trim_start_matches("-0")`. -/
def trimDashZero : Str → Str
  | '-' :: '0' :: s => trimDashZero s
  | s => s

/-- src/values/number.rs:34-53 `CSSNumber::to_css`. -/
def printNumber (n : Num) : Str :=
  if n.small then
    if n.neg then '-' :: trimZeros (trimDashes n.dtoa) else trimZeros n.dtoa
  else n.dtoa

/-- cssparser `Token::Dimension` (not in /repo): the unit, written so that it is not taken for an exponent. -/
def printUnit (unit : Str) : Str :=
  match unit with
  | ['e'] => cs!"\\65 "
  | ['E'] => cs!"\\65 "
  | 'e' :: '-' :: s => cs!"\\65 " ++ serName ('-' :: s)
  | 'E' :: '-' :: s => cs!"\\65 " ++ serName ('-' :: s)
  | u => serIdent u

/-- src/values/length.rs:486-511 `serialize_dimension`. The trimming looks at the number and the unit together. -/
def printDimension (n : Num) (unit : Str) : Str :=
  let s := n.dtoa ++ printUnit unit
  if n.small then
    if n.neg then '-' :: trimDashZero s else trimZeros s
  else s

/-- cssparser `write_numeric` (not in /repo): the sign is kept, and `.0` is added to whole numbers that were not written as integers. -/
def writeNumeric (plus dotZero : Bool) (n : Num) : Str :=
  (if plus && !n.neg then ['+'] else []) ++ n.dtoa ++ (if dotZero && n.frac = [] && n.exp = none then cs!".0" else [])

/-- src/properties/custom.rs:841-922 `Token::to_css` with the cases for numbers and dimensions of `TokenList::to_css`
(custom.rs:536-548). `minify` is the option of the printer. Newlines written by `write_str` do not change the text. -/
def printToken (minify : Bool) : Token → Str
  | .ident s => serIdent s
  | .atKeyword s => '@' :: serIdent s
  | .hash s => '#' :: serName s
  | .idHash s => '#' :: serIdent s
  | .string s => serString s
  | .url s => cs!"url(" ++ serUrl s ++ [')']
  | .func s => serIdent s ++ ['(']
  | .delim c => [c]
  | .number n => printNumber n
  | .dimension n unit => printDimension n unit
  | .percentage plus dotZero n => writeNumeric plus dotZero n ++ ['%']
  | .ws s => if minify then [' '] else s
  | .comment s => if minify then [] else cs!"/*" ++ s ++ cs!"*/"
  | .colon => [':']
  | .semicolon => [';']
  | .comma => [',']
  | .includeMatch => cs!"~="
  | .dashMatch => cs!"|="
  | .prefixMatch => cs!"^="
  | .suffixMatch => cs!"$="
  | .substringMatch => cs!"*="
  | .cdo => cs!"<!--"
  | .cdc => cs!"-->"
  | .openParen => ['(']
  | .openSquare => ['[']
  | .openCurly => ['{']
  | .closeParen => [')']
  | .closeSquare => [']']
  | .closeCurly => ['}']

/-- src/properties/custom.rs:488-555 `TokenList::to_css` and 557-575 `to_css_raw`, for lists of raw tokens: one after the other, with nothing in between. -/
def printTokens (minify : Bool) (ts : List Token) : Str := ts.flatMap (printToken minify)
end Verif.Tokens
