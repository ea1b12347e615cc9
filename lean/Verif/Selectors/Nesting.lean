import Verif.Selectors.BuildLemmas
import Verif.Selectors.Dom
/-!
# Selectors: printing selectors and compiling `&` away (src/selector.rs:1398-1770)

The printed text is a sequence of tokens: combinators, simple selectors without selector arguments,
and the functional pseudo-classes with their printed arguments.
-/
namespace Verif.Selectors.Nesting

/-- A printed selector is a list of these. `atom c` is the text of a simple selector, which may be
`&`. The combinators in front of pseudo-elements have no text; a reader puts them back. Which of
`:is(`, `:-webkit-any(` and `:-moz-any(` is written is not kept apart. -/
inductive Text
  | comb (k : Combinator)
  | atom (c : Component)
  | is (l : List (List Text))
  | where (l : List (List Text))
  | not (l : List (List Text))

/-! ## Model -/

/-- `is_namespace` (src/selector.rs:1762-1770). -/
def isNamespace : Component → Bool
  | .anyNamespace | .noNamespace | .namespace _ _ | .defaultNamespace _ => true
  | _ => false

/-- `is_type_selector` (src/selector.rs:1754-1759). -/
def isType : Component → Bool
  | .localName _ _ | .universal => true
  | _ => false

/-- `Component::ExplicitUniversalType` (src/selector.rs:1488, 1535). -/
def isUniversal : Component → Bool
  | .universal => true
  | _ => false

/-- `Component::Nesting` (src/selector.rs:1448). -/
def isNesting : Component → Bool
  | .nesting => true
  | _ => false

/-- The namespaces that are written (src/selector.rs:1468-1472). -/
def isWrittenNamespace : Component → Bool
  | .anyNamespace | .noNamespace | .namespace _ _ => true
  | _ => false

/-- `has_type_selector` (src/selector.rs:1731-1745). -/
def hasType (s : Selector) : Bool :=
  match s.comps with
  | [] => false
  | c :: cs => if isNamespace c then cs.head?.any isType else isType c

/-- `is_simple` (src/selector.rs:1748-1750). -/
def isSimple (s : Selector) : Bool := !s.comps.any Component.isCombinator

/-- `should_unwrap_is` (src/selector.rs:1691-1700). -/
def shouldUnwrapIs : List Selector → Bool
  | [s] => !hasType s && isSimple s
  | _ => false

/-- A component with its text (the result of `serialize_component`). -/
abbrev Piece := Component × List Text

/-- `as_slice().split(|x| x.is_combinator())` (src/selector.rs:1421). -/
def splitPieces : List Piece → List (List Piece)
  | [] => [[]]
  | c :: cs =>
      if c.1.isCombinator then [] :: splitPieces cs
      else match splitPieces cs with
        | [] => [[c]]
        | x :: xs => (c :: x) :: xs

/-- The texts of components one after another. -/
def texts (l : List Piece) : List Text := l.flatMap (·.2)

/-- The end of step 2 (src/selector.rs:1534-1545): a universal selector is left out if that is
possible. -/
def elided (canElide : Bool) (l : List Piece) : List Text :=
  texts (l.filter fun p => !(canElide && isUniversal p.1))

/-- The serialisation of one compound (src/selector.rs:1448-1547). `compiling` is
`should_compile_nesting`, `nest b` the text `serialize_nesting` writes with `first = b`, `next` is
`next_combinator`. -/
def compoundText (compiling : Bool) (nest : Bool → List Text) (first : Bool)
    (next : Option Combinator) (c : List Piece) : List Text :=
  let lead := first && c.head?.any (isNesting ·.1)
  let i := if lead then 1 else 0
  let canElide := !(c[i]?.any (isWrittenNamespace ·.1))
  let j := if c[i]?.any (isNamespace ·.1) then i + 1 else i
  if j = c.length - 1 ∧ next ≠ some .pseudoElement ∧ next ≠ some .slotAssignment ∧
      c[j]?.any (isUniversal ·.1) = true then
    (if lead && compiling then texts (c.drop 1) ++ nest false else texts c)
  else if lead && compiling && c[j]?.any (isType ·.1) then
    let n := if j > i then 2 else 1
    texts ((c.drop 1).take n) ++ nest false ++ elided canElide (c.drop (1 + n))
  else if lead && compiling then nest true ++ elided canElide (c.drop 1)
  else elided canElide c

/-- The loop of `serialize_selector` over the compounds (src/selector.rs:1426-1570) for a selector
that is not relative. An empty compound is skipped without taking a combinator. -/
def printLoop (compiling : Bool) (nest : Bool → List Text) :
    Bool → List (List Piece) → List Combinator → List Text
  | _, [], _ => []
  | first, c :: cs, ks =>
      if c.isEmpty then printLoop compiling nest first cs ks
      else compoundText compiling nest first ks.head? c ++ (ks.head?.map Text.comb).toList ++
        printLoop compiling nest false cs ks.tail

/-- `serialize_selector` (src/selector.rs:1398-1572) from the components and their texts, in match
order. -/
def layout (compiling : Bool) (nest : Bool → List Text) (l : List Piece) : List Text :=
  printLoop compiling nest true (splitPieces l).reverse
    (l.reverse.filterMap fun p => p.1.asCombinator)

mutual
/-- `serialize_component` (src/selector.rs:1574-1689). The simple selectors with a selector argument
other than `:is()`, `:where()`, `:not()` and `:any()` are kept as they are: what happens inside
`:has()`, `:host()`, `::slotted()`, `:nth-child(… of …)`, `:local()` and `:global()` is not
modelled. -/
def compText (compiling : Bool) (nest : Bool → List Text) : Component → List Text
  | .combinator k => [.comb k]
  | .is l =>
      if shouldUnwrapIs l then unwrapText compiling nest l else [.is (listText compiling nest l)]
  | .any l => [.is (listText compiling nest l)]
  | .where l => [.where (listText compiling nest l)]
  | .negation l => [.not (listText compiling nest l)]
  | .nesting => nest false
  | c => [.atom c]
/-- `serialize_selector(selectors.first().unwrap(), …)` (src/selector.rs:1619). -/
def unwrapText (compiling : Bool) (nest : Bool → List Text) : List Selector → List Text
  | [] => []
  | s :: _ => selText compiling nest s
/-- `serialize_selector` (src/selector.rs:1398-1572). -/
def selText (compiling : Bool) (nest : Bool → List Text) : Selector → List Text
  | .mk _ cs => layout compiling nest (pieces compiling nest cs)
/-- The components with their texts. -/
def pieces (compiling : Bool) (nest : Bool → List Text) : List Component → List Piece
  | [] => []
  | c :: cs => (c, compText compiling nest c) :: pieces compiling nest cs
/-- `serialize_selector_list` (src/selector.rs:1772-1792). -/
def listText (compiling : Bool) (nest : Bool → List Text) : List Selector → List (List Text)
  | [] => []
  | s :: ss => selText compiling nest s :: listText compiling nest ss
end

/-- `serialize_nesting` (src/selector.rs:1702-1728). The context is the list of the selector lists of
the enclosing style rules, innermost first. -/
def nestText : List (List Selector) → Bool → List Text
  | [], _ => [.atom .scope]
  | l :: ctx, first =>
      match l with
      | [s] =>
          if first || (!hasType s && isSimple s) then selText true (nestText ctx) s
          else [.is (listText true (nestText ctx) l)]
      | _ => [.is (listText true (nestText ctx) l)]

/-- What is printed for a selector in a context when nesting is compiled away. -/
def compiledText (ctx : List (List Selector)) (s : Selector) : List Text :=
  selText true (nestText ctx) s

/-- What is printed for a selector when nesting is kept: the context is empty, and `serialize_nesting`
writes `&` (src/selector.rs:1726). -/
def nestedText (s : Selector) : List Text := selText false (fun _ => [.atom .nesting]) s

/-! ## Specification -/

variable {E : Type}

mutual
/-- The meaning of a token that is not a combinator. -/
def Text.Sem (d : Dom E) (atom : Component → E → Prop) : Text → E → Prop
  | .comb _, _ => False
  | .atom c, e => atom c e
  | .is l, e | .where l, e => AnyText d atom l e
  | .not l, e => ¬ AnyText d atom l e
/-- One of the selectors matches. -/
def AnyText (d : Dom E) (atom : Component → E → Prop) : List (List Text) → E → Prop
  | [], _ => False
  | t :: ts, e => denote d atom (fun _ => True) t e ∨ AnyText d atom ts e
/-- Reading from left to right: a simple selector restricts the elements matched so far, a combinator
goes to the elements related to them. -/
def denote (d : Dom E) (atom : Component → E → Prop) (acc : E → Prop) : List Text → E → Prop
  | [], e => acc e
  | .comb k :: ts, e => denote d atom (fun e => ∃ x, d.Rel k e x ∧ acc x) ts e
  | t :: ts, e => denote d atom (fun e => acc e ∧ t.Sem d atom e) ts e
end

mutual
/-- A well-formed text: a type selector or `*` occurs only at the start of a compound (or after an
`&` there): otherwise it would be read as part of the name before it. Arguments are well-formed. -/
def wf : Bool → List Text → Prop
  | _, [] => True
  | _, .comb _ :: ts => wf true ts
  | start, .atom c :: ts => (isType c = true → start = true) ∧ wf (start && isNesting c) ts
  | _, .is l :: ts => wfList l ∧ wf false ts
  | _, .where l :: ts => wfList l ∧ wf false ts
  | _, .not l :: ts => wfList l ∧ wf false ts
/-- All selectors of a list are well-formed. -/
def wfList : List (List Text) → Prop
  | [] => True
  | t :: ts => wf true t ∧ wfList ts
end

/-- `&` stands for `P`. -/
def atomIn (atom : Component → E → Prop) (P : E → Prop) : Component → E → Prop
  | .nesting, e => P e
  | c, e => atom c e

/-- What `&` stands for in a context (CSS Nesting): the elements that match one of the selectors of
the parent rule; at the top level, `:scope`. -/
def ctxSem (d : Dom E) (atom : Component → E → Prop) : List (List Selector) → E → Prop
  | [], e => atom .scope e
  | l :: ctx, e => AnySem d (atomIn atom (ctxSem d atom ctx)) l e

/-! ### Where the code and the specification agree -/

/-- Where a component stands in its compound: at the start, after an `&` at the start of the selector,
or later. -/
inductive Place
  | start | afterLead | inside
  deriving DecidableEq

/-- The selector has several compounds, or its first compound starts with a type selector (after a
namespace if there is one). -/
def NeedsIs : Selector → Prop
  | .mk _ cs => (∃ k, .combinator k ∈ cs) ∨
      (∃ c r, cs = c :: r ∧ isType c = true) ∨
      (∃ n c r, cs = n :: c :: r ∧ isNamespace n = true ∧ isType c = true)

/-- An argument list for which `:is()` cannot be left out. -/
def ListNeedsIs : List Selector → Prop
  | [s] => NeedsIs s
  | _ => True

mutual
/-- A simple selector that is not at the start: if its text replaces an `&` or an `:is()` that is left
out, that text is a single compound without type selector. `pt` and `pf` say this of the text of a
leading and of another `&`. -/
def CompOk (compiling : Bool) (pt pf : Prop) : Component → Prop
  | .nesting => pf
  | .is l => ListOk compiling pt pf l ∧ (ListNeedsIs l ∨ HeadPlain compiling pt pf l)
  | .any l | .where l | .negation l => ListOk compiling pt pf l
  | c => isNamespace c = false
/-- The first selector is a compound without type selector. -/
def HeadPlain (compiling : Bool) (pt pf : Prop) : List Selector → Prop
  | [] => True
  | s :: _ => SelPlain compiling pt pf s
/-- The selector is a compound without type selector. -/
def SelPlain (compiling : Bool) (pt pf : Prop) : Selector → Prop
  | .mk _ cs => PlainGo compiling pt pf true cs
/-- The components are those of a compound without type selector; the flag marks the start. -/
def PlainGo (compiling : Bool) (pt pf : Prop) : Bool → List Component → Prop
  | _, [] => True
  | lead, .nesting :: cs =>
      (if lead && compiling then pt else pf) ∧ PlainGo compiling pt pf false cs
  | _, c :: cs =>
      isType c = false ∧ c.isCombinator = false ∧ CompOk compiling pt pf c ∧
        PlainGo compiling pt pf false cs
/-- All selectors are fine. -/
def ListOk (compiling : Bool) (pt pf : Prop) : List Selector → Prop
  | [] => True
  | s :: ss => SelOk compiling pt pf s ∧ ListOk compiling pt pf ss
/-- A selector is fine if its compounds are. -/
def SelOk (compiling : Bool) (pt pf : Prop) : Selector → Prop
  | .mk _ cs => CompsOk compiling pt pf .start cs
/-- The components in match order: no compound is empty; a type selector is at the start of its
compound, or after `&` at the start of the selector. -/
def CompsOk (compiling : Bool) (pt pf : Prop) : Place → List Component → Prop
  | p, [] => p ≠ .start
  | p, .combinator _ :: cs => p ≠ .start ∧ CompsOk compiling pt pf .start cs
  | .start, .nesting :: cs =>
      if compiling then
        (if cs.any Component.isCombinator then pf ∧ CompsOk compiling pt pf .inside cs
        else (cs.head?.any isType = true → pf) ∧ CompsOk compiling pt pf .afterLead cs)
      else pf ∧ CompsOk compiling pt pf .afterLead cs
  | p, c :: cs =>
      (if isType c then p ≠ .inside else CompOk compiling pt pf c) ∧
        CompsOk compiling pt pf .inside cs
end

/-- The text of a non-leading (`false`) or leading (`true`) `&` is a compound without type selector in
this context. -/
def NestPlain : List (List Selector) → Bool → Prop
  | [], _ => True
  | l :: ctx, first =>
      match l with
      | [s] => (first = false ∧ NeedsIs s) ∨
          SelPlain true (NestPlain ctx true) (NestPlain ctx false) s
      | _ => True

/-- All selectors of the context are fine in their own contexts. -/
def CtxOk : List (List Selector) → Prop
  | [] => True
  | l :: ctx => ListOk true (NestPlain ctx true) (NestPlain ctx false) l ∧ CtxOk ctx

end Verif.Selectors.Nesting
