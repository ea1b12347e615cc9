import Verif.Syntax.Model
/-!
The grammar of syntax strings (CSS Properties and Values API § 5.1–5.4), as relations between a text and
what it denotes. Uses nothing of the model but its types.
-/
namespace Verif.Syntax

/-- White space: spaces and tabs (newlines, which the specification also allows, are not read by the
code; see `newline_rejected`). -/
def Blank (w : Str) : Prop := ∀ c ∈ w, c = ' ' ∨ c = '\t'

/-- The name of a data type. -/
def typeName : Kind → Option Str
  | .length => some cs!"length"
  | .number => some cs!"number"
  | .percentage => some cs!"percentage"
  | .lengthPercentage => some cs!"length-percentage"
  | .string => some cs!"string"
  | .color => some cs!"color"
  | .image => some cs!"image"
  | .url => some cs!"url"
  | .integer => some cs!"integer"
  | .angle => some cs!"angle"
  | .time => some cs!"time"
  | .resolution => some cs!"resolution"
  | .transformFunction => some cs!"transform-function"
  | .transformList => some cs!"transform-list"
  | .customIdent => some cs!"custom-ident"
  | .literal _ => none

/-- CSS Syntax § 4.2: an ident-start code point. -/
def IdentStart (c : Char) : Prop := ('A' ≤ c ∧ c ≤ 'Z') ∨ ('a' ≤ c ∧ c ≤ 'z') ∨ c = '_' ∨ 128 ≤ c.toNat

/-- CSS Syntax § 4.2: an ident code point. -/
def IdentChar (c : Char) : Prop := IdentStart c ∨ ('0' ≤ c ∧ c ≤ '9') ∨ c = '-'

/-- A component name: a data type in angle brackets, in any ASCII case, or a literal identifier. -/
inductive KindText : Str → Kind → Prop
  | type {k name} (t : Str) : typeName k = some name → t.map Char.toLower = name →
      KindText ('<' :: t ++ ['>']) k
  | literal (c : Char) (s : Str) : IdentStart c → (∀ x ∈ s, IdentChar x) →
      KindText (c :: s) (.literal (c :: s))

/-- A component: a name and a multiplier; `<transform-list>` takes none. -/
inductive CompText : Str → Component → Prop
  | plain {t k} : KindText t k → CompText t ⟨k, .none⟩
  | space {t k} : KindText t k → k ≠ .transformList → CompText (t ++ ['+']) ⟨k, .space⟩
  | comma {t k} : KindText t k → k ≠ .transformList → CompText (t ++ ['#']) ⟨k, .comma⟩

/-- Components separated by `|`, with white space around. -/
inductive CompsText : Str → List Component → Prop
  | last {t c} (w w' : Str) : Blank w → CompText t c → Blank w' → CompsText (w ++ t ++ w') [c]
  | more {t c s cs} (w w' : Str) : Blank w → CompText t c → Blank w' → CompsText s cs →
      CompsText (w ++ t ++ w' ++ '|' :: s) (c :: cs)

/-- A syntax string: `*`, or components. -/
inductive SyntaxText : Str → SyntaxString → Prop
  | universal (w w' : Str) : Blank w → Blank w' → SyntaxText (w ++ ['*'] ++ w') .universal
  | components {s cs} : CompsText s cs → SyntaxText s (.components cs)

/-! ### Values -/

/-- `Sequence p vs ts rest`: the tokens `ts` are one or more values `vs`, one after the other, then
`rest`. -/
inductive Spaced {V} (p : List Tok → Option (V × List Tok)) : List V → List Tok → Prop
  | one {v ts} : p ts = some (v, []) → Spaced p [v] ts
  | more {v ts ts' vs} : p ts = some (v, ts') → ts' ≠ [] → Spaced p vs ts' → Spaced p (v :: vs) ts

/-- The same, separated by commas. -/
inductive Commaed {V} (p : List Tok → Option (V × List Tok)) : List V → List Tok → Prop
  | one {v ts} : p ts = some (v, []) → Commaed p [v] ts
  | more {v ts ts' vs} : p ts = some (v, .comma :: ts') → Commaed p vs ts' → Commaed p (v :: vs) ts

/-- The whole list of tokens is a value of the component. -/
inductive Matches {V} (p : Kind → List Tok → Option (V × List Tok)) : Component → List Tok → Parsed V → Prop
  | one {k ts v} : p k ts = some (v, []) → Matches p ⟨k, .none⟩ ts (.one v)
  | space {k ts vs} : Spaced (p k) vs ts → Matches p ⟨k, .space⟩ ts (.repeated vs .space)
  | comma {k ts vs} : Commaed (p k) vs ts → Matches p ⟨k, .comma⟩ ts (.repeated vs .comma)

/-- A parser consumes something when it succeeds. -/
def Consumes {V} (p : List Tok → Option (V × List Tok)) : Prop :=
  ∀ ts v ts', p ts = some (v, ts') → ts'.length < ts.length

end Verif.Syntax
