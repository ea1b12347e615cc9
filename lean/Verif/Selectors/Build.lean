import Verif.Selectors.Ast
/-!
# Selectors: `SelectorBuilder` (selectors/builder.rs)
-/
namespace Verif.Selectors

/-- `MAX_10BIT` (selectors/builder.rs:216). -/
def max10 : Nat := (1 <<< 10) - 1

/-- `struct Specificity` (selectors/builder.rs:218-223). The fields are `u32`; additions cannot
overflow for fewer than 2^31 simple selectors, so they are naturals here. -/
structure Triple where
  ids : Nat
  classes : Nat
  elements : Nat
  deriving DecidableEq, Repr

/-- `impl Add for Specificity` (selectors/builder.rs:224-234, and `AddAssign`, 235-241). -/
instance : Add Triple :=
  ⟨fun a b => ⟨a.ids + b.ids, a.classes + b.classes, a.elements + b.elements⟩⟩

/-- `impl From<u32> for Specificity` (selectors/builder.rs:243-253). The `assert!` (no bits above
the 30th) is not modelled: `unpack_ok` below shows it cannot fail on a packed value. -/
def unpack (v : Nat) : Triple :=
  ⟨v >>> 20, (v >>> 10) &&& max10, v &&& max10⟩

/-- `impl From<Specificity> for u32` (selectors/builder.rs:255-262). -/
def pack (s : Triple) : Nat :=
  (min s.ids max10) <<< 20 ||| (min s.classes max10) <<< 10 ||| min s.elements max10

/-- The loop `for selector in list { max = cmp::max(selector.specificity(), max) }`
(selectors/builder.rs:339-342 and 351-354). -/
def maxSpecificity (l : List Selector) : Nat :=
  l.foldl (fun m s => max s.specificity m) 0

/-- `simple_selector_specificity` (selectors/builder.rs:275-370). The combinator case is
`unreachable!` in the code. -/
def addSimple (acc : Triple) : Component → Triple
  | .combinator _ => acc
  | .part _ | .pseudoElement _ | .viewTransitionAny _ | .localName _ _ =>
      { acc with elements := acc.elements + 1 }
  | .slotted s => { acc with elements := acc.elements + 1 } + unpack s.specificity
  | .host => { acc with classes := acc.classes + 1 }
  | .hostFn s => { acc with classes := acc.classes + 1 } + unpack s.specificity
  | .id _ => { acc with ids := acc.ids + 1 }
  | .cls _ | .attr _ | .attrExists _ | .attrOther _ | .root | .empty | .scope | .nth _
  | .pseudoClass _ | .local _ | .global _ => { acc with classes := acc.classes + 1 }
  | .nthOf _ l => { acc with classes := acc.classes + 1 } + unpack (maxSpecificity l)
  | .negation l | .is l | .any l => acc + unpack (maxSpecificity l)
  | .where _ | .has _ | .universal | .anyNamespace | .noNamespace | .defaultNamespace _
  | .namespace _ _ => acc
  | .nesting => acc

/-- `complex_selector_specificity` followed by `specificity` (selectors/builder.rs:264-377). -/
def specificityOf (simple : List Component) : Nat :=
  pack (simple.foldl addSimple ⟨0, 0, 0⟩)

/-- `struct SelectorBuilder` (selectors/builder.rs:38-50). -/
structure Builder where
  simple : List Component
  combinators : List (Combinator × Nat)
  currentLen : Nat

/-- `SelectorBuilder::default` (selectors/builder.rs:52-62). -/
def Builder.new : Builder := ⟨[], [], 0⟩

/-- `push_simple_selector` (selectors/builder.rs:74-79). -/
def Builder.pushSimple (b : Builder) (c : Component) : Builder :=
  { b with simple := b.simple ++ [c], currentLen := b.currentLen + 1 }

/-- `push_combinator` (selectors/builder.rs:83-87). -/
def Builder.pushCombinator (b : Builder) (c : Combinator) : Builder :=
  { b with combinators := b.combinators ++ [(c, b.currentLen)], currentLen := 0 }

/-- `add_nesting_prefix` (selectors/builder.rs:95-98). -/
def Builder.addNestingPrefix (b : Builder) : Builder :=
  { b with combinators := (.descendant, 1) :: b.combinators,
           simple := .nesting :: b.simple }

/-- `split_from_end` (selectors/builder.rs:174-176). -/
def splitFromEnd {α} (s : List α) (n : Nat) : List α × List α :=
  (s.take (s.length - n), s.drop (s.length - n))

/-- What the iterator `SelectorBuilderIter` yields (selectors/builder.rs:139-172) once its current
simple selectors are exhausted: the next combinator from the end, then the simple selectors of the
compound before it, and so on. The list is `combinators` reversed. -/
def collectRest (rest : List Component) : List (Combinator × Nat) → List Component
  | [] => []
  | (c, n) :: cs => .combinator c :: (splitFromEnd rest n).2 ++ collectRest (splitFromEnd rest n).1 cs

/-- `build_with_specificity_and_flags` (selectors/builder.rs:124-149). -/
def Builder.collect (b : Builder) : List Component :=
  (splitFromEnd b.simple b.currentLen).2 ++
    collectRest (splitFromEnd b.simple b.currentLen).1 b.combinators.reverse

/-- `build` (selectors/builder.rs:102-120). The flags are not modelled. -/
def Builder.build (b : Builder) : Selector :=
  .mk (specificityOf b.simple) b.collect

/-- `impl From<Vec<Component>> for Selector` (selectors/parser.rs:991-1004), the loop over the
components in parse order. -/
def Builder.pushAll (b : Builder) (cs : List Component) : Builder :=
  cs.foldl (fun b c => match c.asCombinator with
    | some k => b.pushCombinator k
    | none => b.pushSimple c) b

/-- `Selector::from(Vec<Component>)` (selectors/parser.rs:991-1004). -/
def Selector.ofParseOrder (cs : List Component) : Selector := (Builder.new.pushAll cs).build

/-- `Selector::append` (selectors/parser.rs:752-759): inserts a component at the end of the rightmost
compound selector, before a pseudo-element. The stored specificity is not updated. -/
def Selector.append (s : Selector) (c : Component) : Selector :=
  let cs := s.comps
  let i := match cs.findIdx? (fun c => c matches .combinator _ | .pseudoElement _ | .viewTransitionAny _) with
    | some i => i
    | none => cs.length
  .mk s.specificity (cs.take i ++ c :: cs.drop i)

end Verif.Selectors
