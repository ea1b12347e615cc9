/-! Model of the prelude of `@page`: its text, its parser and its printer (src/rules/page.rs, src/parser.rs:612-615). -/

namespace Verif.Page

/-- `PagePseudoClass` (src/rules/page.rs:36-51). -/
inductive Pseudo where
  | left | right | first | last | blank
  deriving DecidableEq, Repr

/-- `PageSelector` (src/rules/page.rs:20-34). -/
structure Sel where
  name : Option (List Char)
  pseudos : List Pseudo
  deriving DecidableEq, Repr

/-- `as_str` of `PagePseudoClass` (src/macros.rs:24-34): the name of the variant in kebab case. -/
def Pseudo.str : Pseudo → List Char
  | .left => ['l', 'e', 'f', 't']
  | .right => ['r', 'i', 'g', 'h', 't']
  | .first => ['f', 'i', 'r', 's', 't']
  | .last => ['l', 'a', 's', 't']
  | .blank => ['b', 'l', 'a', 'n', 'k']

/-- The derived `parse_string` of `PagePseudoClass` (src/rules/page.rs:36-51): the case does not matter. -/
def Pseudo.ofStr (s : List Char) : Option Pseudo :=
  [Pseudo.left, .right, .first, .last, .blank].find? (fun p => p.str == s.map Char.toLower)

/-- Tokens of a prelude as `cssparser` makes them (external crate, called in src/rules/page.rs:57-82). `ident s ok` is a run of name
characters: an identifier if `ok`, and otherwise a number or such like. -/
inductive Tok where
  | ws | colon | comma
  | ident (s : List Char) (ok : Bool)
  | at (s : List Char)
  | other (c : Char)
  deriving DecidableEq, Repr

/-- A character that a name may start with (CSS syntax, used through `cssparser` by src/rules/page.rs:57). -/
def startCh (c : Char) : Bool := c.isAlpha || c == '_' || decide (c.toNat ≥ 128)

/-- A character of a name (CSS syntax, used through `cssparser` by src/rules/page.rs:57). -/
def nameCh (c : Char) : Bool := startCh c || c.isDigit || c == '-'

/-- One more character of a name at the front of tokens; `esc` when it is written with a backslash. -/
def consName (c : Char) (esc : Bool) : List Tok → List Tok
  | .ident s ok :: ts => .ident (c :: s) (esc || startCh c || (c == '-' && (ok || s.head? == some '-'))) :: ts
  | ts => .ident [c] (esc || startCh c) :: ts

/-- White space at the front of tokens. -/
def consWs : List Tok → List Tok
  | .ws :: ts => .ws :: ts
  | ts => .ws :: ts

/-- `@` at the front of tokens. -/
def consAt : List Tok → List Tok
  | .ident s true :: ts => .at s :: ts
  | ts => .other '@' :: ts

/-- The tokenizer of `cssparser` (external crate) for preludes of src/rules/page.rs:57-82. Simplified: no comments, strings, blocks nor
numbers with a point, and a backslash escapes the one character after it (no hexadecimal escapes). -/
def tok : List Char → List Tok
  | [] => []
  | '\\' :: c :: cs => consName c true (tok cs)
  | c :: cs =>
    if c = ' ' ∨ c = '\n' ∨ c = '\t' then consWs (tok cs)
    else if c = ':' then .colon :: tok cs
    else if c = ',' then .comma :: tok cs
    else if c = '@' then consAt (tok cs)
    else if nameCh c then consName c false (tok cs)
    else .other c :: tok cs

/-- src/rules/page.rs:60-76 and the end of the selector, where only white space may follow (`parse_until_before`). -/
def pseudos : List Tok → Option (List Pseudo)
  | .colon :: .ident s true :: ts => do let p ← Pseudo.ofStr s; let ps ← pseudos ts; some (p :: ps)
  | .colon :: .ws :: .ident s true :: ts => do let p ← Pseudo.ofStr s; let ps ← pseudos ts; some (p :: ps)
  | [] => some []
  | [.ws] => some []
  | _ => none

/-- `skip_whitespace` of `cssparser`. -/
def skipWs : List Tok → List Tok
  | .ws :: ts => ts
  | ts => ts

/-- src/rules/page.rs:53-83 `PageSelector::parse`, after the white space that `parse_comma_separated` skips. -/
def parseSel (ts : List Tok) : Option Sel :=
  match skipWs ts with
  | .ident s true :: rest => (pseudos rest).map (fun ps => ⟨some s, ps⟩)
  | rest => match pseudos rest with
    | some (p :: ps) => some ⟨none, p :: ps⟩
    | _ => none

/-- The tokens between commas (`parse_comma_separated` of `cssparser`, called in src/parser.rs:613). -/
def segs : List Tok → List (List Tok)
  | [] => [[]]
  | .comma :: ts => [] :: segs ts
  | t :: ts => match segs ts with
    | s :: ss => (t :: s) :: ss
    | [] => [[t]]

/-- All the selectors, or none if one of them cannot be parsed. -/
def parseAll : List (List Tok) → Option (List Sel)
  | [] => some []
  | s :: ss => do let x ← parseSel s; let xs ← parseAll ss; some (x :: xs)

/-- src/parser.rs:612-615: no selectors if they cannot be parsed; then the prelude must be empty. -/
def parsePrelude (ts : List Tok) : Option (List Sel) :=
  match parseAll (segs ts) with
  | some l => some l
  | none => if skipWs ts = [] then some [] else none

/-- The text before `{` as the prelude of `@page`, or not that at all. -/
def read (text : List Char) : Option (List Sel) :=
  match tok text with
  | .at s :: ts => if s.map Char.toLower = ['p', 'a', 'g', 'e'] then parsePrelude ts else none
  | _ => none

/-- src/rules/page.rs:284-301 `PageSelector::to_css`: the name is written as it is. -/
def printSel (s : Sel) : List Char :=
  s.name.getD [] ++ s.pseudos.flatMap (fun p => ':' :: p.str)

/-- `delim(',', false)` (src/printer.rs:194-200) between selectors (src/rules/page.rs:224-232). -/
def printSels (minify : Bool) : List Sel → List Char
  | [] => []
  | [s] => printSel s
  | s :: ss => printSel s ++ ',' :: ((if minify then [] else [' ']) ++ printSels minify ss)

/-- src/rules/page.rs:218-236: from `@page` to the `{`. -/
def print (minify : Bool) (ss : List Sel) : List Char :=
  ['@', 'p', 'a', 'g', 'e'] ++
    (match ss.head? with
      | some f => (if !minify || f.name.isSome then [' '] else []) ++ printSels minify ss
      | none => []) ++
    (if minify then [] else [' '])

end Verif.Page
