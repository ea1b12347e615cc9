import Verif.Selectors.Dom
/-!
# Selectors: the matching algorithm (selectors/matching.rs)
-/
namespace Verif.Selectors

variable {E : Type}

/-- `enum SelectorMatchingResult` (selectors/matching.rs:150-158). -/
inductive Res
  | matched | restartFromClosestLaterSibling | restartFromClosestDescendant | notMatchedGlobally
  deriving DecidableEq

/-- The elements obtained by following `next` repeatedly, nearest first; the number bounds the
steps. -/
def chain (next : E → Option E) : Nat → E → List E
  | 0, _ => []
  | n + 1, e => match next e with
      | none => []
      | some x => x :: chain next n x

/-- `next_element_for_combinator` applied again and again (selectors/matching.rs:383-433), in a
document without shadow trees: the candidates for the compound to the left of the combinator, nearest
first. For pseudo-elements, slots and parts there is no candidate. -/
def Dom.candidates (d : Dom E) : Combinator → E → List E
  | .nextSibling, e | .laterSibling, e => chain d.prev (d.rank e) e
  | .child, e | .descendant, e | .deep, e | .deepDescendant, e => chain d.parent (d.rank e) e
  | .pseudoElement, _ | .slotAssignment, _ | .part, _ => []

/-- `candidate_not_found` (selectors/matching.rs:465-476). -/
def notFound : Combinator → Res
  | .nextSibling | .laterSibling => .restartFromClosestDescendant
  | .child | .deep | .deepDescendant | .descendant | .slotAssignment | .part | .pseudoElement =>
      .notMatchedGlobally

/-- The loop of `matches_complex_selector_internal` (selectors/matching.rs:488-532) over the
candidates; `f` matches the rest of the selector against a candidate. Visited-link handling is not
modelled. -/
def loop (f : E → Res) (k : Combinator) : List E → Res
  | [] => notFound k
  | e :: es =>
    match f e, k with
    | .matched, _ => .matched
    | .notMatchedGlobally, _ => .notMatchedGlobally
    | r, .nextSibling => r
    | _, .pseudoElement | _, .child => .restartFromClosestDescendant
    | .restartFromClosestDescendant, .laterSibling => .restartFromClosestDescendant
    | _, _ => loop f k es

mutual
/-- `matches_simple_selector` (selectors/matching.rs:604-809). The simple selectors without selector
arguments are decided by `atom`. -/
def matchesSimple (d : Dom E) (atom : Component → E → Bool) : Component → E → Bool
  | .is l, e | .where l, e | .any l, e => matchesAny d atom l e
  | .negation l, e => !matchesAny d atom l e
  | c, e => atom c e
/-- The loop over a selector list (selectors/matching.rs:791-799, 800-807 and
`matches_selector_list`, 69-86). -/
def matchesAny (d : Dom E) (atom : Component → E → Bool) : List Selector → E → Bool
  | [], _ => false
  | s :: ss, e => if matchesSelector d atom s e then true else matchesAny d atom ss e
/-- `matches_complex_selector` (selectors/matching.rs:291-335). -/
def matchesSelector (d : Dom E) (atom : Component → E → Bool) : Selector → E → Bool
  | .mk _ cs, e => matchesInternal d atom cs e == .matched
/-- `matches_complex_selector_internal` (selectors/matching.rs:435-533) with
`matches_compound_selector` (selectors/matching.rs:548-602): the simple selectors up to the next
combinator are checked in order, then the loop over the candidates. -/
def matchesInternal (d : Dom E) (atom : Component → E → Bool) : List Component → E → Res
  | [], _ => .matched
  | .combinator k :: rest, e => loop (fun x => matchesInternal d atom rest x) k (d.candidates k e)
  | c :: rest, e =>
      if matchesSimple d atom c e then matchesInternal d atom rest e
      else .restartFromClosestLaterSibling
end

end Verif.Selectors
