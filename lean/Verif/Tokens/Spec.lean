import Verif.Tokens.Model
import Verif.Modules.Spec
import Mathlib.Data.Rat.Defs
/-!
The tokenizer of CSS Syntax Module Level 3, section 4, and the table of section 9 of tokens that run together.
The input is preprocessed (section 3.3): no carriage returns, form feeds or nulls.
-/
namespace Verif.Tokens
open Verif.Modules (isHex isWs isNameStart isName validEscape continues startsIdent hexNumber)

/-- Tokens of CSS Syntax. Numbers have their value, neither the sign character nor the type flag is kept; nor is the type flag of hashes, which matters only in selectors.
Whitespace and comments keep their text. -/
inductive Tok where
  | ident (s : Str)
  | atKeyword (s : Str)
  | hash (s : Str)
  | string (s : Str)
  | badString
  | url (s : Str)
  | badUrl
  | func (s : Str)
  | delim (c : Char)
  | number (v : ℚ)
  | dimension (v : ℚ) (unit : Str)
  | percentage (v : ℚ)
  | ws (s : Str)
  | comment (s : Str)
  | colon
  | semicolon
  | comma
  | cdo
  | cdc
  | openParen
  | openSquare
  | openCurly
  | closeParen
  | closeSquare
  | closeCurly
deriving DecidableEq, Repr

/-- Section 4.3.7: the code point with a number. -/
def codePoint (n : Nat) : Char := if n = 0 ∨ (0xD800 ≤ n ∧ n ≤ 0xDFFF) ∨ 0x10FFFF < n then '\uFFFD' else Char.ofNat n

/-- One whitespace is skipped. -/
def skipOne : Str → Str
  | c :: t => if isWs c then t else c :: t
  | [] => []

/-- Section 4.3.7, consume an escaped code point. The backslash is already consumed. -/
def escape : Str → Char × Str
  | [] => ('\uFFFD', [])
  | c :: t =>
    if isHex c then
      let ds := ((c :: t).takeWhile isHex).take 6
      (codePoint (hexNumber ds), skipOne ((c :: t).drop ds.length))
    else (c, t)

/-- Section 4.3.11, consume an ident sequence, in at most `n` steps. -/
def takeNameN : Nat → Str → Str × Str
  | n + 1, c :: t =>
    if isName c then
      let (s, r) := takeNameN n t
      (c :: s, r)
    else if validEscape (c :: t) then
      let (e, r) := escape t
      let (s, r) := takeNameN n r
      (e :: s, r)
    else ([], c :: t)
  | _, t => ([], t)

/-- Section 4.3.11, consume an ident sequence. -/
def takeName (t : Str) : Str × Str := takeNameN t.length t

/-- Section 4.3.5, consume a string token, in at most `n` steps. -/
def takeStringN (q : Char) : Nat → Str → Option Str × Str
  | n + 1, c :: t =>
    if c = q then (some [], t)
    else if c = '\n' then (none, c :: t)
    else if c = '\\' then
      if t = [] then (some [], [])
      else if t.head? = some '\n' then takeStringN q n t.tail
      else
        let (e, r) := escape t
        let (s, r) := takeStringN q n r
        (s.map (e :: ·), r)
    else
      let (s, r) := takeStringN q n t
      (s.map (c :: ·), r)
  | _, t => (some [], t)

/-- Section 4.3.14, consume the remnants of a bad url, in at most `n` steps. -/
def remnantsN : Nat → Str → Str
  | n + 1, c :: t =>
    if c = ')' then t
    else if validEscape (c :: t) then remnantsN n (escape t).2
    else remnantsN n t
  | _, t => t

/-- Characters that are not printable. -/
def nonPrintable (c : Char) : Bool := c.toNat ≤ 8 || c.toNat = 11 || (14 ≤ c.toNat && c.toNat ≤ 31) || c.toNat = 127

/-- Section 4.3.6, consume a url token after its whitespace, in at most `n` steps; nothing for a bad url. -/
def takeUrlN : Nat → Str → Option Str × Str
  | n + 1, c :: t =>
    if c = ')' then (some [], t)
    else if isWs c then
      match t.dropWhile isWs with
      | [] => (some [], [])
      | ')' :: r => (some [], r)
      | r => (none, remnantsN r.length r)
    else if c = '"' || c = '\'' || c = '(' || nonPrintable c then (none, remnantsN t.length t)
    else if c = '\\' then
      if validEscape (c :: t) then
        let (e, r) := escape t
        let (s, r) := takeUrlN n r
        (s.map (e :: ·), r)
      else (none, remnantsN t.length t)
    else
      let (s, r) := takeUrlN n t
      (s.map (c :: ·), r)
  | _, t => (some [], t)

/-- A lower case ASCII letter. -/
def lower (c : Char) : Char := if 'A' ≤ c ∧ c ≤ 'Z' then Char.ofNat (c.toNat + 32) else c

/-- A name is `url` in any case. -/
def isUrlName (s : Str) : Bool := s.map lower = cs!"url"

/-- Whitespace and then a quotation mark. -/
def quoteAhead (t : Str) : Bool :=
  match t.dropWhile isWs with
  | c :: _ => c = '"' || c = '\''
  | [] => false

/-- Section 4.3.4, consume an ident-like token. -/
def identLike (t : Str) : Tok × Str :=
  match takeName t with
  | (s, '(' :: r) =>
    if isUrlName s && !quoteAhead r then
      match takeUrlN (r.dropWhile isWs).length (r.dropWhile isWs) with
      | (some u, r) => (.url u, r)
      | (none, r) => (.badUrl, r)
    else (.func s, r)
  | (s, r) => (.ident s, r)

/-- Some text begins with a digit. -/
def digitAhead : Str → Bool
  | c :: _ => c.isDigit
  | [] => false

/-- A digit, or a point and a digit. -/
def dotDigit : Str → Bool
  | '.' :: t => digitAhead t
  | t => digitAhead t

/-- Section 4.3.10: three characters would start a number. -/
def startsNumber : Str → Bool
  | c :: t => c.isDigit || (c = '.' && digitAhead t) ||
    ((c = '+' || c = '-') && dotDigit t)
  | [] => false

/-- Digits at the beginning of a text. -/
def takeDigits (t : Str) : Str × Str := (t.takeWhile Char.isDigit, t.dropWhile Char.isDigit)

/-- The number some digits write. -/
def digitsNat (s : Str) : ℕ := s.foldl (fun n c => n * 10 + (c.toNat - 48)) 0

/-- Section 4.3.13, convert a string to a number: sign, integer part, fractional part, exponent. -/
def numValue (neg : Bool) (int frac : Str) (expNeg : Bool) (exp : Str) : ℚ :=
  (if neg then -1 else 1) * ((digitsNat int : ℚ) + digitsNat frac / 10 ^ frac.length) *
    (if expNeg then 1 / 10 ^ digitsNat exp else 10 ^ digitsNat exp)

/-- Section 4.3.12, the sign of a number. -/
def takeSign : Str → Bool × Str
  | '-' :: t => (true, t)
  | '+' :: t => (false, t)
  | t => (false, t)

/-- Section 4.3.12, the fractional part. -/
def takeFrac : Str → Str × Str
  | '.' :: t => if digitAhead t then takeDigits t else ([], '.' :: t)
  | t => ([], t)

/-- Section 4.3.12, the exponent. -/
def takeExp : Str → Bool × Str × Str
  | c :: t =>
    if (c = 'e' || c = 'E') && digitAhead (takeSign t).2 then ((takeSign t).1, takeDigits (takeSign t).2)
    else (false, [], c :: t)
  | [] => (false, [], [])

/-- Section 4.3.12, consume a number. -/
def takeNumber (t : Str) : ℚ × Str :=
  let (neg, t) := takeSign t
  let (int, t) := takeDigits t
  let (frac, t) := takeFrac t
  let (expNeg, exp, t) := takeExp t
  (numValue neg int frac expNeg exp, t)

/-- Section 4.3.3, consume a numeric token. -/
def numeric (t : Str) : Tok × Str :=
  let (v, r) := takeNumber t
  if startsIdent r then
    let (u, r) := takeName r
    (.dimension v u, r)
  else match r with
    | '%' :: r => (.percentage v, r)
    | r => (.number v, r)

/-- Section 4.3.2: the text of a comment, after its `/*`, and what follows. -/
def takeComment : Str → Str × Str
  | '*' :: '/' :: t => ([], t)
  | c :: t => let (s, r) := takeComment t; (c :: s, r)
  | [] => ([], [])

/-- Section 4.3.1: characters that are tokens. -/
def punctuation (c : Char) : Option Tok :=
  if c = '(' then some .openParen
  else if c = ')' then some .closeParen
  else if c = '[' then some .openSquare
  else if c = ']' then some .closeSquare
  else if c = '{' then some .openCurly
  else if c = '}' then some .closeCurly
  else if c = ',' then some .comma
  else if c = ':' then some .colon
  else if c = ';' then some .semicolon
  else none

/-- Section 4.3.1, consume a token. -/
def next (c : Char) (t : Str) : Tok × Str :=
  if c = '/' && t.head? = some '*' then
    let (s, r) := takeComment t.tail
    (.comment s, r)
  else if isWs c then (.ws (c :: t.takeWhile isWs), t.dropWhile isWs)
  else if c = '"' || c = '\'' then
    match takeStringN c t.length t with
    | (some s, r) => (.string s, r)
    | (none, r) => (.badString, r)
  else if c = '#' then
    if continues t then (.hash (takeName t).1, (takeName t).2) else (.delim c, t)
  else if (punctuation c).isSome then ((punctuation c).getD .comma, t)
  else if startsNumber (c :: t) then numeric (c :: t)
  else if c = '-' && t.take 2 = cs!"->" then (.cdc, t.drop 2)
  else if startsIdent (c :: t) then identLike (c :: t)
  else if c = '<' && t.take 3 = cs!"!--" then (.cdo, t.drop 3)
  else if c = '@' && startsIdent t then (.atKeyword (takeName t).1, (takeName t).2)
  else (.delim c, t)

/-- Section 4, tokenize, in at most `n` steps. -/
def lexN : Nat → Str → List Tok
  | n + 1, c :: t => (next c t).1 :: lexN n (next c t).2
  | _, _ => []

/-- Section 4, tokenize. -/
def lex (t : Str) : List Tok := lexN t.length t

/-- The tokens without comments and without the text of whitespace; adjacent whitespace is one token.
This is what the grammars of CSS see. -/
def clean : List Tok → List Tok
  | [] => []
  | .comment _ :: ts => clean ts
  | .ws _ :: ts => match clean ts with
    | .ws s :: us => .ws s :: us
    | us => .ws [' '] :: us
  | t :: ts => t :: clean ts

/-! ### What printed tokens should be -/

/-- The value of a printed number. -/
def Num.value (n : Num) : ℚ :=
  match n.exp with
  | none => numValue n.neg n.int n.frac false []
  | some (neg, ds) => numValue n.neg n.int n.frac neg ds

/-- What a token is in CSS Syntax; `~=` and its like are two tokens in its current version. -/
def meaning : Token → List Tok
  | .ident s => [.ident s]
  | .atKeyword s => [.atKeyword s]
  | .hash s => [.hash s]
  | .idHash s => [.hash s]
  | .string s => [.string s]
  | .url s => [.url s]
  | .func s => [.func s]
  | .delim c => [.delim c]
  | .number n => [.number n.value]
  | .dimension n unit => [.dimension n.value unit]
  | .percentage _ _ n => [.percentage n.value]
  | .ws s => [.ws s]
  | .comment s => [.comment s]
  | .colon => [.colon]
  | .semicolon => [.semicolon]
  | .comma => [.comma]
  | .includeMatch => [.delim '~', .delim '=']
  | .dashMatch => [.delim '|', .delim '=']
  | .prefixMatch => [.delim '^', .delim '=']
  | .suffixMatch => [.delim '$', .delim '=']
  | .substringMatch => [.delim '*', .delim '=']
  | .cdo => [.cdo]
  | .cdc => [.cdc]
  | .openParen => [.openParen]
  | .openSquare => [.openSquare]
  | .openCurly => [.openCurly]
  | .closeParen => [.closeParen]
  | .closeSquare => [.closeSquare]
  | .closeCurly => [.closeCurly]

/-- The first kinds of the rows and columns of the table. -/
inductive Kind where
  | ident | func | url | at | hash | dimension | number | percentage | cdc | paren | delim (c : Char) | star | other
deriving DecidableEq, Repr

/-- The kind of a token. -/
def kind : Token → Kind
  | .ident _ => .ident
  | .func _ => .func
  | .url _ => .url
  | .atKeyword _ => .at
  | .hash _ | .idHash _ => .hash
  | .dimension .. => .dimension
  | .number _ => .number
  | .percentage .. => .percentage
  | .cdc => .cdc
  | .openParen => .paren
  | .delim '*' => .star
  | .substringMatch => .star
  | .delim c => .delim c
  | _ => .other

/-- Names: the first three columns of the table. -/
def Kind.isNameLike : Kind → Bool
  | .ident | .func | .url => true
  | _ => false

/-- Numbers: three columns of the table. -/
def Kind.isNumeric : Kind → Bool
  | .number | .percentage | .dimension => true
  | _ => false

/-- Section 9, the table of tokens between which a comment is needed. A row is the first token, a column the second.
`<` and `!` are added, since a third token can make `<!--` of them, and CDC in the rows of `#` and `-`;
`@` and `-` are left out, since what makes `@-a` of them is already excluded between `-` and `a`. -/
def runsTogether (a b : Kind) : Bool :=
  match a with
  | .ident => b.isNameLike || b.isNumeric || b = .cdc || b = .delim '-' || b = .paren
  | .at | .hash | .dimension | .delim '#' | .delim '-' => b.isNameLike || b.isNumeric || b = .cdc || b = .delim '-'
  | .number => b.isNameLike || b.isNumeric || b = .cdc || b = .delim '%'
  | .delim '@' => b.isNameLike || b = .cdc
  | .delim '.' | .delim '+' => b.isNumeric
  | .delim '/' => b = .star
  | .delim '<' => b = .delim '!'
  | _ => false

/-- The name of a function that is read as a url unless a string follows. -/
def needsQuote : Token → Bool
  | .func s => isUrlName s
  | _ => false

/-- No token runs together with the next one; `url(` is followed by a string. The table of section 9 does not mention
that the identifier `--` makes `-->` with a following `>`. -/
def Apart : List Token → Prop
  | [] => True
  | [t] => needsQuote t = false
  | t :: u :: ts => runsTogether (kind t) (kind u) = false ∧ ¬ (t = .ident cs!"--" ∧ u = .delim '>') ∧
      (needsQuote t = true → (∃ s, u = .string s) ∨ ∃ w s ts', u = .ws w ∧ ts = .string s :: ts') ∧ Apart (u :: ts)

/-- Digits. -/
def Digits (s : Str) : Prop := ∀ c ∈ s, c.isDigit = true

/-- What `dtoa_short` writes: digits without superfluous zeros in front; `small` numbers are not zero and begin with `0.` or have an exponent. -/
structure Num.Ok (n : Num) : Prop where
  int : Digits n.int ∧ n.int ≠ []
  frac : Digits n.frac
  exp : ∀ neg ds, n.exp = some (neg, ds) → Digits ds ∧ ds ≠ []
  lead : n.int = ['0'] ∨ n.int.head? ≠ some '0'
  small : n.small = true → n.int = ['0'] → n.frac ≠ []

/-- A delimiter that is read as a delimiter: not part of a name or a number, not whitespace, not punctuation of its own.
The backslash is a delimiter only before a newline and is left out. -/
def delimOk (c : Char) : Bool :=
  !isName c || c = '-'

/-- Characters with a token of their own. -/
def ownToken (c : Char) : Bool := isWs c || cs!"\"'()[]{},:;\\".contains c

/-- A unit that is not read as an exponent. Units that begin with `e` and a digit are, and those written with `E` change their case. -/
def unitOk : Str → Bool
  | 'e' :: c :: _ => !c.isDigit
  | 'E' :: c :: _ => !c.isDigit && c ≠ '-'
  | ['E'] => false
  | [] => false
  | _ => true

/-- No null characters, as after preprocessing. -/
def NoNul (s : Str) : Prop := ∀ c ∈ s, c.toNat ≠ 0

/-- Tokens the tokenizer can produce. Small negative dimensions must have a number that begins with `-0.`. -/
def Ok : Token → Prop
  | .ident s | .atKeyword s | .idHash s | .func s => NoNul s ∧ s ≠ []
  | .hash s => NoNul s ∧ s ≠ []
  | .string s | .url s => NoNul s
  | .delim c => delimOk c = true ∧ ownToken c = false
  | .number n => n.Ok
  | .percentage _ _ n => n.Ok
  | .dimension n u => n.Ok ∧ (n.small = true → n.neg = true → n.int = ['0']) ∧ NoNul u ∧ unitOk u = true
  | .ws s => s ≠ [] ∧ ∀ c ∈ s, isWs c = true
  | .comment s => ¬ cs!"*/" <:+: s
  | _ => True

/-- The tokens that are printed: comments are dropped when minifying. -/
def shown (minify : Bool) (ts : List Token) : List Token :=
  if minify then ts.filter (fun t => match t with | .comment _ => false | _ => true) else ts
/-- What may follow a value in a style sheet: nothing, `;`, `}` or `)`. -/
def ValueEnd (r : Str) : Prop := r = [] ∨ ∃ c t, r = c :: t ∧ (c = ';' ∨ c = '}' ∨ c = ')')

/-! ### Tokens of a source text -/

/-- How tokens of a source text are stored (custom.rs:750-839 `Token::from`, 399-405 for hashes). Numbers are stored as 32-bit floats; `dtoa v` is
what `dtoa_short` writes for the float next to `v`. Bad strings and bad urls are errors (custom.rs:445-450). -/
inductive Stored (dtoa : ℚ → Num) : Tok → Token → Prop
  | ident (s) : Stored dtoa (.ident s) (.ident s)
  | atKeyword (s) : Stored dtoa (.atKeyword s) (.atKeyword s)
  | hash (s) : Stored dtoa (.hash s) (.hash s)
  | string (s) : Stored dtoa (.string s) (.string s)
  | url (s) : Stored dtoa (.url s) (.url s)
  | func (s) : Stored dtoa (.func s) (.func s)
  | delim (c) : Stored dtoa (.delim c) (.delim c)
  | number (v) : Stored dtoa (.number v) (.number (dtoa v))
  | dimension (v u) : Stored dtoa (.dimension v u) (.dimension (dtoa v) u)
  | percentage (v plus dotZero) : Stored dtoa (.percentage v) (.percentage plus dotZero (dtoa v))
  | ws (s) : Stored dtoa (.ws s) (.ws s)
  | comment (s) : Stored dtoa (.comment s) (.comment s)
  | colon : Stored dtoa .colon .colon
  | semicolon : Stored dtoa .semicolon .semicolon
  | comma : Stored dtoa .comma .comma
  | cdo : Stored dtoa .cdo .cdo
  | cdc : Stored dtoa .cdc .cdc
  | openParen : Stored dtoa .openParen .openParen
  | openSquare : Stored dtoa .openSquare .openSquare
  | openCurly : Stored dtoa .openCurly .openCurly
  | closeParen : Stored dtoa .closeParen .closeParen
  | closeSquare : Stored dtoa .closeSquare .closeSquare
  | closeCurly : Stored dtoa .closeCurly .closeCurly

/-- A token of the source with its number rounded. -/
def rounded (dtoa : ℚ → Num) : Tok → Tok
  | .number v => .number (dtoa v).value
  | .dimension v u => .dimension (dtoa v).value u
  | .percentage v => .percentage (dtoa v).value
  | t => t

/-- A number next to a token of which it could become a part: without its sign or with other zeros it may. -/
def gluedNumber (t u : Token) : Bool := (kind u).isNumeric && runsTogether (kind t) (kind u)

/-- Pairs that come from escapes like `<!\--` or `\-->`. -/
def rarePair (t u : Token) : Bool := (t = .delim '<' && u = .delim '!') || (t = .ident cs!"--" && u = .delim '>')

/-- No number is next to a token of which it could become a part, and there are no rare pairs. -/
def Plain : List Token → Prop
  | t :: u :: ts => gluedNumber t u = false ∧ rarePair t u = false ∧ Plain (u :: ts)
  | _ => True

/-- Numbers and units that can be written, and no backslash before a newline. -/
def Writable : Token → Prop
  | .number n => n.Ok
  | .percentage _ _ n => n.Ok
  | .dimension n u => n.Ok ∧ (n.small = true → n.neg = true → n.int = ['0']) ∧ unitOk u = true
  | .delim c => c ≠ '\\'
  | _ => True
end Verif.Tokens
