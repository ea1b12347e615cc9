import Verif.Common.Chars
/-!
`@property` syntax strings and values parsed with them (src/values/syntax.rs).
-/
namespace Verif.Syntax

/-- `SyntaxComponentKind` (src/values/syntax.rs:57-90). -/
inductive Kind where
  /-- `<length>` -/
  | length
  /-- `<number>` -/
  | number
  /-- `<percentage>` -/
  | percentage
  /-- `<length-percentage>` -/
  | lengthPercentage
  /-- `<string>` -/
  | string
  /-- `<color>` -/
  | color
  /-- `<image>` -/
  | image
  /-- `<url>` -/
  | url
  /-- `<integer>` -/
  | integer
  /-- `<angle>` -/
  | angle
  /-- `<time>` -/
  | time
  /-- `<resolution>` -/
  | resolution
  /-- `<transform-function>` -/
  | transformFunction
  /-- `<transform-list>` -/
  | transformList
  /-- `<custom-ident>` -/
  | customIdent
  /-- a literal -/
  | literal (name : Str)
  deriving DecidableEq, Repr

/-- `Multiplier` (src/values/syntax.rs:103-110). -/
inductive Multiplier where
  /-- not repeated -/
  | none
  /-- repeated, separated by spaces -/
  | space
  /-- repeated, separated by commas -/
  | comma
  deriving DecidableEq, Repr

/-- `SyntaxComponent` (src/values/syntax.rs:41-46). -/
structure Component where
  /-- the kind of component -/
  kind : Kind
  /-- a multiplier for the component -/
  multiplier : Multiplier
  deriving DecidableEq, Repr

/-- `SyntaxString` (src/values/syntax.rs:25-30). -/
inductive SyntaxString where
  /-- a list of syntax components -/
  | components (cs : List Component)
  /-- the universal syntax definition -/
  | universal
  deriving DecidableEq, Repr

/-- `SPACE_CHARACTERS` (src/values/syntax.rs:346): space and tab. -/
def isSpace (c : Char) : Bool := c == ' ' || c == '\t'

/-- `is_ident_start` (src/values/syntax.rs:393-396). -/
def isIdentStart (c : Char) : Bool :=
  ('A' ≤ c && c ≤ 'Z') || ('a' ≤ c && c ≤ 'z') || '\u0080' ≤ c || c == '_'

/-- `is_name_code_point` (src/values/syntax.rs:399-402). -/
def isNameCodePoint (c : Char) : Bool := isIdentStart c || ('0' ≤ c && c ≤ '9') || c == '-'

/-- `str::trim_start_matches(SPACE_CHARACTERS)`. -/
def trimStart (s : Str) : Str := s.dropWhile isSpace

/-- `str::trim_matches(SPACE_CHARACTERS)`: both ends. -/
def trim (s : Str) : Str := ((trimStart s).reverse.dropWhile isSpace).reverse

/-- The names of the data types (src/values/syntax.rs:357-374), matched without regard to ASCII case. -/
def kindOfName (name : Str) : Option Kind :=
  let n := name.map Char.toLower
  if n = cs!"length" then some .length
  else if n = cs!"number" then some .number
  else if n = cs!"percentage" then some .percentage
  else if n = cs!"length-percentage" then some .lengthPercentage
  else if n = cs!"string" then some .string
  else if n = cs!"color" then some .color
  else if n = cs!"image" then some .image
  else if n = cs!"url" then some .url
  else if n = cs!"integer" then some .integer
  else if n = cs!"angle" then some .angle
  else if n = cs!"time" then some .time
  else if n = cs!"resolution" then some .resolution
  else if n = cs!"transform-function" then some .transformFunction
  else if n = cs!"transform-list" then some .transformList
  else if n = cs!"custom-ident" then some .customIdent
  else none

/-- `SyntaxComponentKind::parse_string` (src/values/syntax.rs:349-388). -/
def parseKind (input : Str) : Option (Kind × Str) :=
  match trimStart input with
  | '<' :: s =>
    -- `input.find('>')`: the name is the text before the first `>`
    match s.dropWhile (· != '>') with
    | _ :: rest => match kindOfName (s.takeWhile (· != '>')) with
      | some k => some (k, rest)
      | none => none
    | [] => none
  | c :: s =>
    if isIdentStart c then
      some (.literal ((c :: s).takeWhile isNameCodePoint), (c :: s).dropWhile isNameCodePoint)
    else none
  | [] => none

/-- `SyntaxComponent::parse_string` (src/values/syntax.rs:315-342). -/
def parseComponent (input : Str) : Option (Component × Str) :=
  match parseKind input with
  | none => none
  | some (kind, input) =>
    if kind = .transformList then some (⟨kind, .none⟩, input)
    else match input with
      | '+' :: s => some (⟨kind, .space⟩, s)
      | '#' :: s => some (⟨kind, .comma⟩, s)
      | s => some (⟨kind, .none⟩, s)

/-- The loop of `SyntaxString::parse_string` (src/values/syntax.rs:178-194). Each turn consumes a
character, so the first argument, the length of the text, is enough. -/
def parseLoop : Nat → Str → Option (List Component)
  | 0, _ => none
  | f + 1, input =>
    match parseComponent input with
    | none => none
    | some (c, input) =>
      match trimStart input with
      | [] => some [c]
      | '|' :: s => match parseLoop f s with
        | some cs => some (c :: cs)
        | none => none
      | _ => none

/-- `SyntaxString::parse_string` (src/values/syntax.rs:166-197). -/
def parseString (input : Str) : Option SyntaxString :=
  match trim input with
  | [] => none
  | ['*'] => some .universal
  | s => match parseLoop (s.length + 1) s with
    | some cs => some (.components cs)
    | none => none

/-- `ToCss for SyntaxComponentKind` (src/values/syntax.rs:455-478). -/
def printKind : Kind → Str
  | .length => cs!"<length>"
  | .number => cs!"<number>"
  | .percentage => cs!"<percentage>"
  | .lengthPercentage => cs!"<length-percentage>"
  | .string => cs!"<string>"
  | .color => cs!"<color>"
  | .image => cs!"<image>"
  | .url => cs!"<url>"
  | .integer => cs!"<integer>"
  | .angle => cs!"<angle>"
  | .time => cs!"<time>"
  | .resolution => cs!"<resolution>"
  | .transformFunction => cs!"<transform-function>"
  | .transformList => cs!"<transform-list>"
  | .customIdent => cs!"<custom-ident>"
  | .literal l => l

/-- `ToCss for SyntaxComponent` (src/values/syntax.rs:439-449). -/
def printComponent (c : Component) : Str :=
  printKind c.kind ++ match c.multiplier with
    | .none => []
    | .comma => cs!"#"
    | .space => cs!"+"

/-- The loop of `ToCss for SyntaxString` (src/values/syntax.rs:421-430), with
`Printer::delim('|', true)` (src/printer.rs:194-200) between the components. -/
def printComponents (minify : Bool) : List Component → Str
  | [] => []
  | [c] => printComponent c
  | c :: cs => printComponent c ++ (if minify then cs!"|" else cs!" | ") ++ printComponents minify cs

/-- What `ToCss for SyntaxString` writes between the quotes (src/values/syntax.rs:418-432). -/
def printInner (minify : Bool) : SyntaxString → Str
  | .universal => cs!"*"
  | .components cs => printComponents minify cs

/-- `ToCss for SyntaxString` (src/values/syntax.rs:412-436). -/
def print (minify : Bool) (s : SyntaxString) : Str := '"' :: printInner minify s ++ ['"']

/-- `Parse for SyntaxString` (src/values/syntax.rs:404-409): a string token, then `parse_string`.
`readQuoted` is the tokenizer's reading of a string, in the case that it contains no escape. -/
def readQuoted : Str → Option (Str × Str)
  | '"' :: s =>
    let body := s.takeWhile (fun c => c != '"' && c != '\\' && c != '\n')
    match s.dropWhile (fun c => c != '"' && c != '\\' && c != '\n') with
    | '"' :: rest => some (body, rest)
    | _ => none
  | _ => none

/-! ### Values -/

/-- A token of a value, as far as `parse_value` looks at tokens: a comma, or another one. -/
inductive Tok where
  /-- `,` -/
  | comma
  /-- any other token -/
  | other (n : Nat)
  deriving DecidableEq, Repr

/-- `ParsedComponent` (src/values/syntax.rs:112-163): a value of a component kind, a repetition, or a
list of tokens. `V` is the type of the values of all kinds (`Length`, `Number`, …). -/
inductive Parsed (V : Type) where
  /-- one value -/
  | one (v : V)
  /-- `Repeated` -/
  | repeated (vs : List V) (m : Multiplier)
  /-- `TokenList` -/
  | tokens (ts : List Tok)
  deriving DecidableEq, Repr

/-- The inner loop of `parse_value` for one component (src/values/syntax.rs:215-283): `none` is `break`.
`p` is the parser of the component's kind (src/values/syntax.rs:216-257); it consumes at least one token
when it succeeds, so the first argument, the number of tokens plus one, is enough. The result carries the
tokens left. -/
def parseRepeat {V} (p : List Tok → Option (V × List Tok)) (m : Multiplier) :
    Nat → List Tok → List V → Option (Parsed V × List Tok)
  | 0, _, _ => none
  | f + 1, input, parsed =>
    match p input with
    | none => none
    | some (v, input) =>
      match m with
      | .none => some (.one v, input)
      | .space =>
        if input = [] then some (.repeated (parsed ++ [v]) m, input)
        else parseRepeat p m f input (parsed ++ [v])
      | .comma =>
        match input with
        | [] => some (.repeated (parsed ++ [v]) m, [])
        | .comma :: input => parseRepeat p m f input (parsed ++ [v])
        | _ :: _ => none

/-- `SyntaxString::parse_value` (src/values/syntax.rs:200-291). `p k` is the parser of the values of kind
`k`. Nesting of token lists is not modelled. -/
def parseValue {V} (p : Kind → List Tok → Option (V × List Tok)) (s : SyntaxString) (input : List Tok) :
    Option (Parsed V × List Tok) :=
  match s with
  | .universal => some (.tokens input, [])
  | .components cs => cs.findSome? fun c => parseRepeat (p c.kind) c.multiplier (input.length + 1) input []

/-- How `PropertyRule::parse` reads the initial value of a rule whose syntax is not universal
(src/rules/property.rs:92-99): nothing checks that the value is used up. -/
def initialValue {V} (p : Kind → List Tok → Option (V × List Tok)) (s : SyntaxString) (input : List Tok) :
    Option (Parsed V) := (parseValue p s input).map (·.1)

end Verif.Syntax
