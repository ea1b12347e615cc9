import Verif.Common.Chars
/-!
# Selectors as tokens and as parsed (`/repo/selectors/parser.rs`, `/repo/src/selector.rs`)

A selector is the list of its components in the order in which they are written. What the builder makes of that list is the area Selectors
(C54).
-/
namespace Verif.SelParse

/-- The operators of attribute selectors (selectors/attr.rs: `AttrSelectorOperator`). -/
inductive AttrOp
  | equal | includes | dash | pre | substring | suffix
deriving DecidableEq

/-- Component values as the CSS tokenizer gives them. `anb a b` stands for the tokens of An+B, whose syntax is in the area Selectors (C55);
`op` is one of `~=`, `|=`, `^=`, `*=`, `$=` (and `op .equal` does not occur: `=` is a delimiter). -/
inductive Tok
  | ident (s : Str)
  | idHash (s : Str)
  | str (s : Str)
  | delim (c : Char)
  | op (o : AttrOp)
  | colon
  | comma
  | ws
  | anb (a b : Int)
  | func (name : Str) (args : List Tok)
  | bracket (args : List Tok)
  | other (n : Nat)

/-- `Combinator` (selectors/parser.rs:1150-1178), those that can be written; `>>>` and `/deep/` need an option and are not modelled. -/
inductive Comb
  | child | descendant | next | later
deriving DecidableEq

/-- The namespace of a type selector: none written, `|`, `*|` or `name|` (`QNamePrefix`, selectors/parser.rs:2364-2373; there is no default
namespace and every prefix is known, src/selector.rs:360-366). -/
inductive Ns
  | implicit | empty | any | named (s : Str)
deriving DecidableEq

/-- The namespace of an attribute (selectors/parser.rs:2500-2512): none written or `|`, `*|`, `name|`. -/
inductive ANs
  | none | any | named (s : Str)
deriving DecidableEq

/-- `AttributeFlags` (selectors/parser.rs:2610-2617). -/
inductive Flag
  | dflt | i | s
deriving DecidableEq

/-- An attribute selector (selectors/parser.rs:2520-2607); how the default case sensitivity depends on the name is not modelled. -/
structure Attr where
  ns : ANs
  name : Str
  test : Option (AttrOp × Str × Flag)
deriving DecidableEq

/-- The functions with a selector list as argument (selectors/parser.rs:2873-2890): `:is()`, `:where()`, `:not()`, `:-webkit-any()`, `:-moz-any()`. -/
inductive Logical
  | is | where | not | webkitAny | mozAny
deriving DecidableEq

/-- `NthType` (selectors/parser.rs:1207-1216), those that are functions. -/
inductive NthTy
  | child | lastChild | ofType | lastOfType | col | lastCol
deriving DecidableEq

/-- `Component` (selectors/parser.rs:1391-1488). All pseudo-classes without arguments are `pclass`, with the name in lower case (the code keeps
the case of names it does not know). Combinators that are not written (before pseudo-elements) are left out. `:local()` and `:global()` of
CSS modules are not modelled. -/
inductive Comp
  | comb (k : Comb)
  | nesting
  | type (ns : Ns) (name : Option Str)
  | id (s : Str)
  | cls (s : Str)
  | attr (a : Attr)
  | pclass (n : Str)
  | pclassFn (n : Str) (args : List Tok)
  | logical (f : Logical) (l : List (List Comp))
  | has (l : List (List Comp))
  | nth (t : NthTy) (a b : Int)
  | nthOf (t : NthTy) (a b : Int) (l : List (List Comp))
  | hostFn (s : List Comp)
  | pelem (n : Str)
  | pelemFn (n : Str) (args : List Tok)
  | cue (region : Bool) (s : List Comp)
  | part (names : List Str)
  | slotted (s : List Comp)

/-- A complex selector. -/
abbrev Sel := List Comp

end Verif.SelParse
