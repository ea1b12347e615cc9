import Verif.SelParse.Spec
/-!
# Printing selectors (`/repo/src/selector.rs:1367-1800, 661-850, 1148-1277`, `/repo/selectors/parser.rs:1295-1345, 1932-2100`)

The result is a list of tokens. There is no parent rule around (`context` is `None`) and nesting is supported by the targets (`&` is printed
as such; how it is compiled away is C53); no vendor prefix is set in the printer and no pseudo-classes are replaced.
-/
namespace Verif.SelPrint
open Verif.SelParse

/-- `PrinterOptions::minify`, and whether the text of an attribute value is shorter as an identifier (src/selector.rs:1585-1602). -/
structure Style where
  minify : Bool
  asIdent : Str → Bool

/-- `dest.whitespace()`. -/
def Style.ws (p : Style) : List Tok := if p.minify then [] else [.ws]

/-- `Combinator::to_css` (src/selector.rs:1367-1386). -/
def combToks (p : Style) : Comb → List Tok
  | .child => p.ws ++ .delim '>' :: p.ws
  | .descendant => [.ws]
  | .next => p.ws ++ .delim '+' :: p.ws
  | .later => p.ws ++ .delim '~' :: p.ws

/-- The operator of an attribute selector (selectors/attr.rs: `AttrSelectorOperator::to_css`). -/
def opTok : AttrOp → Tok
  | .equal => .delim '='
  | o => .op o

/-- The value of an attribute: an identifier if that is shorter, but not with a namespace (src/selector.rs:1583-1605; selectors/parser.rs:2080-2090). -/
def valueTok (p : Style) (a : Attr) (v : Str) : Tok :=
  if p.minify && a.ns = .none && p.asIdent v then .ident v else .str v

/-- The flag of an attribute selector (src/selector.rs:1607-1612). -/
def flagToks : Flag → List Tok
  | .dflt => []
  | .i => [.ws, .ident cs!"i"]
  | .s => [.ws, .ident cs!"s"]

/-- The namespace of an attribute selector (selectors/parser.rs:2071-2078). -/
def ansToks : ANs → List Tok
  | .none => []
  | .any => [.delim '*', .delim '|']
  | .named s => [.ident s, .delim '|']

/-- An attribute selector between its brackets (src/selector.rs:1575-1615; selectors/parser.rs:1976-1980, 2065-2099). -/
def attrToks (p : Style) (a : Attr) : List Tok :=
  ansToks a.ns ++ .ident a.name :: match a.test with
    | none => []
    | some (o, v, f) => opTok o :: valueTok p a v :: flagToks f

/-- `Component::Nth` with An+B = 1 (selectors/parser.rs:1299-1321, 2015-2022): not a function. For columns the code writes the parenthesis that
opens and no other one: here a function token without argument stands for that. -/
def firstToks : NthTy → List Tok
  | .child => [.colon, .ident cs!"first-child"]
  | .lastChild => [.colon, .ident cs!"last-child"]
  | .ofType => [.colon, .ident cs!"first-of-type"]
  | .lastOfType => [.colon, .ident cs!"last-of-type"]
  | .col => [.colon, .func cs!"nth-col" []]
  | .lastCol => [.colon, .func cs!"nth-last-col" []]

/-- The names of parts (selectors/parser.rs:1946-1955). -/
def partToks : List Str → List Tok
  | [] => []
  | [s] => [.ident s]
  | s :: l => .ident s :: .ws :: partToks l

/-- The four pseudo-elements that are written with one colon (src/selector.rs:1180-1186). -/
def oneColon (n : Str) : Bool := [cs!"before", cs!"after", cs!"first-line", cs!"first-letter"].contains n

/-- A component and how it is printed. -/
abbrev Item := Comp × List Tok

/-- `Combinator` as stored (selectors/parser.rs:1150-1178): also before pseudo-elements that are known, `::slotted()` and `::part()`
(selectors/parser.rs:2762-2795). `pseudo` is `PseudoElement` and `SlotAssignment`. -/
inductive PComb
  | comb (k : Comb) | pseudo | part
deriving DecidableEq

/-- What is pushed before a component (selectors/parser.rs:2762-2795). -/
def breakOf (c : Comp) : Option PComb :=
  if c.isElem || c.isSlotted then some .pseudo else if c.isPart then some .part else none

/-- The selector cut at its combinators (src/selector.rs:1421-1422): the first compound, and the others with the combinator before. -/
def segs : List Item → List Item × List (PComb × List Item)
  | [] => ([], [])
  | x :: r =>
    match x.1 with
    | .comb k => ([], (.comb k, (segs r).1) :: (segs r).2)
    | c =>
      match breakOf c with
      | some b => ([], (b, x :: (segs r).1) :: (segs r).2)
      | none => (x :: (segs r).1, (segs r).2)

/-- What is printed for a combinator (src/selector.rs:1367-1386). -/
def pcombToks (p : Style) : Option PComb → List Tok
  | some (.comb k) => combToks p k
  | _ => []

/-- Step 2 (src/selector.rs:1534-1546): the universal selector is left out, its namespace not. -/
def step2 (canElide : Bool) (x : Item) : List Tok :=
  match x.1 with
  | .type ns none => ns.toks ++ if canElide then [] else [.delim '*']
  | _ => x.2

/-- One compound selector (src/selector.rs:1448-1547). -/
def compoundToks (first : Bool) (cp : List Item) (next : Option PComb) : List Tok :=
  let lead := first && match cp with
    | (.nesting, _) :: _ => true
    | _ => false
  let r := if lead then cp.drop 1 else cp
  let canElide := match r with
    | (.type ns _, _) :: _ => decide (ns = .implicit)
    | _ => true
  match r with
  | [(.type _ none, _)] => if next = some .pseudo then cp.flatMap (step2 canElide) else cp.flatMap (·.2)
  | _ => cp.flatMap (step2 canElide)

/-- The first component is `:scope` (src/selector.rs:1432). -/
def isScope (cp : List Item) : Bool :=
  match cp with
  | (.pclass n, _) :: _ => decide (n = cs!"scope")
  | _ => false

/-- The loop over the compounds (src/selector.rs:1427-1560). The flags are `is_relative` and `first`; the combinators are an iterator of their own. -/
def loop (p : Style) (rel first : Bool) : List (List Item) → List PComb → List Tok
  | [], _ => []
  | cp :: cps, cs =>
    if rel && isScope cp then
      pcombToks p cs.head? ++
        (if cp.tail.isEmpty then loop p false first cps cs.tail
         else compoundToks first cp.tail cs.tail.head? ++ pcombToks p cs.tail.head? ++ loop p false false cps cs.tail.tail)
    else if cp.isEmpty then loop p rel first cps cs
    else compoundToks first cp cs.head? ++ pcombToks p cs.head? ++ loop p rel false cps cs.tail

/-- `serialize_selector` (src/selector.rs:1398-1563), given how its components are printed. -/
def assemble (p : Style) (rel : Bool) (xs : List Item) : List Tok :=
  loop p rel true ((segs xs).1 :: (segs xs).2.map (·.2)) ((segs xs).2.map (·.1))

/-- `is_type_selector`, after a namespace (src/selector.rs:1733-1746, 1753-1759). -/
def isType : Comp → Bool
  | .type _ _ => true
  | _ => false

/-- A combinator, also of the kinds that are not written. -/
def isBreak (c : Comp) : Bool := c.isComb || (breakOf c).isSome

/-- `should_unwrap_is` (src/selector.rs:1693-1702). -/
def unwraps : List Sel → Bool
  | [s] => (match s with
    | c :: _ => !isType c
    | [] => true) && s.all (!isBreak ·)
  | _ => false

/-- `serialize_selector_list` (src/selector.rs:1780-1798), given the texts. -/
def joinToks (p : Style) : List (List Tok) → List Tok
  | [] => []
  | [t] => t
  | t :: l => t ++ .comma :: (p.ws ++ joinToks p l)

mutual
/-- `serialize_component` (src/selector.rs:1565-1691) with `serialize_pseudo_class`, `serialize_pseudo_element` (661-850, 1148-1277) and
`Component::to_css` of selectors/parser.rs:1932-2063. -/
def prC (p : Style) : Comp → List Tok
  | .comb k => combToks p k
  | .nesting => [.delim '&']
  | .type ns n => ns.toks ++ [nameTok n]
  | .id s => [.idHash s]
  | .cls s => [.delim '.', .ident s]
  | .attr a => [.bracket (attrToks p a)]
  | .pclass n => [.colon, .ident n]
  | .pclassFn n args => [.colon, .func n args]
  | .logical f l =>
    if f = .is ∧ unwraps l = true then (prL p false l).headD [] else [.colon, .func f.name (joinToks p (prL p false l))]
  | .has l => [.colon, .func cs!"has" (joinToks p (prL p true l))]
  | .nth t a b => if a = 0 ∧ b = 1 then firstToks t else [.colon, .func t.name [.anb a b]]
  | .nthOf t a b l => [.colon, .func t.name (.anb a b :: .ws :: .ident cs!"of" :: .ws :: joinToks p (prL p true l))]
  | .hostFn s => [.colon, .func cs!"host" (assemble p false (items p s))]
  | .pelem n => if oneColon n then [.colon, .ident n] else [.colon, .colon, .ident n]
  | .pelemFn n args => [.colon, .colon, .func n args]
  | .cue region s => [.colon, .colon, .func (if region then cs!"cue-region" else cs!"cue") (assemble p false (items p s))]
  | .part l => [.colon, .colon, .func cs!"part" (partToks l)]
  | .slotted s => [.colon, .colon, .func cs!"slotted" (assemble p false (items p s))]
termination_by structural c => c
/-- The components of a selector with how they are printed. -/
def items (p : Style) : List Comp → List Item
  | [] => []
  | c :: cs => (c, prC p c) :: items p cs
termination_by structural s => s
/-- The selectors of a list, printed. -/
def prL (p : Style) (rel : Bool) : List (List Comp) → List (List Tok)
  | [] => []
  | s :: l => assemble p rel (items p s) :: prL p rel l
termination_by structural l => l
end

/-- `serialize_selector`. -/
def prS (p : Style) (rel : Bool) (s : Sel) : List Tok := assemble p rel (items p s)

/-- `SelectorList::to_css` (src/selector.rs:1355-1364). -/
def printList (p : Style) (l : List Sel) : List Tok := joinToks p (prL p false l)

end Verif.SelPrint
