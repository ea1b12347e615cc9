import Verif.Common.Chars
/-!
The tokens of a declaration value and the small parsers of cssparser and of src/macros.rs that the
shorthand properties use. Values are lists of tokens *with* their white space: the printer writes
spaces explicitly, the parser skips them.
-/
namespace Verif.Shorthand

/-- A token of a value (cssparser's `Token`). A function is opened by `func` and closed by `close`.
`other` stands for a number, dimension, percentage, hash or url, with its text. -/
inductive Tok where
  /-- white space -/
  | ws
  /-- an identifier -/
  | ident (s : Str)
  /-- a quoted string -/
  | str (s : Str)
  /-- a function name with its opening parenthesis -/
  | func (s : Str)
  /-- a closing parenthesis -/
  | close
  /-- a comma -/
  | comma
  /-- a delimiter such as `/` -/
  | delim (c : Char)
  /-- a number, dimension, percentage, hash, url -/
  | other (s : Str)
  deriving DecidableEq, Repr

/-- A parser: the value and the tokens that are left; `none` is an error, after which `try_parse` goes
on from the old place (src/traits.rs:17-31). -/
abbrev Parser (α : Type) := List Tok → Option (α × List Tok)

/-- `Parse` and `ToCss` of one type (src/traits.rs:17-31, 77-97). -/
structure Codec (α : Type) where
  /-- `Parse::parse` -/
  parse : Parser α
  /-- `ToCss::to_css` -/
  print : α → List Tok

/-- cssparser's `Parser::next`: white space is skipped. -/
def next : List Tok → Option (Tok × List Tok)
  | [] => none
  | .ws :: i => next i
  | t :: i => some (t, i)

/-- ASCII lower case, as `match_ignore_ascii_case!` compares. -/
def lower (s : Str) : Str := s.map Char.toLower

/-- cssparser's `expect_ident_matching`. -/
def expectIdent (k : Str) (i : List Tok) : Option (List Tok) :=
  match next i with
  | some (.ident s, r) => if lower s = k then some r else none
  | _ => none

/-- cssparser's `expect_function_matching`, which also enters the block. -/
def expectFunc (k : Str) (i : List Tok) : Option (List Tok) :=
  match next i with
  | some (.func s, r) => if lower s = k then some r else none
  | _ => none

/-- The end of cssparser's `parse_nested_block`: nothing but the closing parenthesis may be left. -/
def expectClose (i : List Tok) : Option (List Tok) :=
  match next i with
  | some (.close, r) => some r
  | _ => none

/-- cssparser's `expect_comma`. -/
def expectComma (i : List Tok) : Option (List Tok) :=
  match next i with
  | some (.comma, r) => some r
  | _ => none

/-- cssparser's `expect_delim`. -/
def expectDelim (c : Char) (i : List Tok) : Option (List Tok) :=
  match next i with
  | some (.delim d, r) => if d = c then some r else none
  | _ => none

/-- An enum of keywords: its values and their text (`enum_property!`, src/macros.rs:1-90; also the unit
variants of `#[derive(Parse, ToCss)]`, derive/src/parse.rs:43-175, derive/src/to_css.rs:112-118). -/
class Kw (α : Type) where
  /-- all values, in the order of the declaration -/
  all : List α
  /-- `as_str` -/
  name : α → Str

/-- The `parse` of `enum_property!` (src/macros.rs:16-32, 57-72). -/
def Kw.parse {α} [Kw α] : Parser α := fun i =>
  match next i with
  | some (.ident s, r) =>
    match (Kw.all : List α).find? (fun a => Kw.name a = lower s) with
    | some a => some (a, r)
    | none => none
  | _ => none

/-- The `to_css` of `enum_property!` (src/macros.rs:46-52, 85-91). -/
def Kw.print {α} [Kw α] (a : α) : List Tok := [.ident (Kw.name a)]

/-- Whether the whole text of an identifier is one of the keywords: `parse_string` on it
(src/traits.rs:24-30). -/
def Kw.isIdent (α) [Kw α] (s : Str) : Bool := (Kw.all : List α).any (fun a => Kw.name a = lower s)

/-- A loop of the shorthand parsers, `loop { if … { …; continue } … break }`: `step` is the body, its
last result says whether it ended with `continue`. Each `continue` fills a slot that was empty, so the
number of slots bounds the number of turns; that bound is the first argument. -/
def run {σ : Type} (step : σ → List Tok → σ × List Tok × Bool) : Nat → σ → List Tok → σ × List Tok
  | 0, s, i => (s, i)
  | n + 1, s, i =>
    match step s i with
    | (s', i', true) => run step n s' i'
    | (s', i', false) => (s', i')

/-- `if slot.is_none() { if let Ok(val) = input.try_parse(p) …`: the parser is tried only while the
slot is empty. -/
def tryOne {α} (slot : Option α) (p : Parser α) (i : List Tok) : Option (α × List Tok) :=
  match slot with
  | some _ => none
  | none => p i

/-- `Printer::delim` (src/printer.rs:194-200) with `Printer::whitespace` (src/printer.rs:184-190), for
a token. -/
def printDelim (minify : Bool) (d : Tok) (wsBefore : Bool) : List Tok :=
  (if wsBefore && !minify then [.ws] else []) ++ [d] ++ (if minify then [] else [.ws])

end Verif.Shorthand
