import Verif.Common.Chars
/-!
# Selectors: the data types of the `parcel_selectors` crate

A `Selector` stores its specificity (computed once, when it is built) next to its components, which
are in *match order*: compound selectors from right to left, the simple selectors of each compound
from left to right.
-/
namespace Verif.Selectors

/-- `enum Combinator` (selectors/parser.rs:1117-1145). -/
inductive Combinator
  | child | descendant | nextSibling | laterSibling | pseudoElement | slotAssignment | part
  | deepDescendant | deep
  deriving DecidableEq, Repr

/-- `enum NthType` (selectors/parser.rs:1193-1202). -/
inductive NthType
  | child | lastChild | onlyChild | ofType | lastOfType | onlyOfType | col | lastCol
  deriving DecidableEq, Repr

/-- `struct NthSelectorData` (selectors/parser.rs:1227-1232). `a` and `b` are `i32` in Rust. -/
structure NthData where
  ty : NthType
  isFunction : Bool
  a : Int
  b : Int
  deriving DecidableEq, Repr

mutual
/-- `enum Component` (selectors/parser.rs:1391-1488), one constructor per variant. Simplifications:
the three attribute variants keep only an opaque text; `Host(Option<Selector>)` is the two
constructors `host` and `hostFn`; of the pseudo-classes of `Impl::NonTSPseudoClass` the CSS modules
functions `:local(S)` / `:global(S)` (src/selector.rs:549-557) are kept apart because they carry a
selector; of the pseudo-elements the view transition ones with argument `*`
(src/selector.rs:956-977) are kept apart because CSS gives them another specificity; the vendor
prefix of `Any` is dropped. -/
inductive Component
  | combinator (c : Combinator)
  | anyNamespace
  | noNamespace
  | defaultNamespace (url : Str)
  | namespace (pre url : Str)
  | universal
  | localName (name lower : Str)
  | id (s : Str)
  | cls (s : Str)
  | attrExists (text : Str)
  | attr (text : Str)
  | attrOther (text : Str)
  | negation (l : List Selector)
  | root
  | empty
  | scope
  | nth (d : NthData)
  | nthOf (d : NthData) (l : List Selector)
  | pseudoClass (text : Str)
  | local (s : Selector)
  | global (s : Selector)
  | slotted (s : Selector)
  | part (names : List Str)
  | host
  | hostFn (s : Selector)
  | where (l : List Selector)
  | is (l : List Selector)
  | any (l : List Selector)
  | has (l : List Selector)
  | pseudoElement (text : Str)
  | viewTransitionAny (text : Str)
  | nesting
/-- `struct Selector(SpecificityAndFlags, Vec<Component>)` (selectors/parser.rs:713); `spec` is the
stored specificity. -/
inductive Selector
  | mk (spec : Nat) (comps : List Component)
end

/-- `Selector::specificity` (selectors/parser.rs:732-734). -/
def Selector.specificity : Selector → Nat
  | .mk n _ => n

/-- `Selector::iter_raw_match_order` (selectors/parser.rs:868-870). -/
def Selector.comps : Selector → List Component
  | .mk _ cs => cs

/-- `Component::is_combinator` (selectors/parser.rs:1555-1557). -/
def Component.isCombinator : Component → Bool
  | .combinator _ => true
  | _ => false

/-- `Component::as_combinator` (selectors/parser.rs:1560-1565). -/
def Component.asCombinator : Component → Option Combinator
  | .combinator c => some c
  | _ => none

end Verif.Selectors
