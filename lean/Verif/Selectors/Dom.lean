import Verif.Selectors.Ast
import Mathlib.Logic.Relation
/-!
# Selectors: documents and the meaning of selectors (specification)
-/
namespace Verif.Selectors

/-- A document tree, seen from its elements: the parent and the previous sibling of an element.
`rank` is the position in document order. No shadow trees. -/
structure Dom (E : Type) where
  parent : E → Option E
  prev : E → Option E
  rank : E → Nat
  /-- Siblings have the same parent. -/
  parent_prev : ∀ e e', prev e = some e' → parent e' = parent e
  /-- A parent comes before its children. -/
  rank_parent : ∀ e e', parent e = some e' → rank e' < rank e
  /-- A previous sibling comes before. -/
  rank_prev : ∀ e e', prev e = some e' → rank e' < rank e

variable {E : Type}

/-- `x` is a proper ancestor of `e`. -/
def Dom.Ancestor (d : Dom E) (e x : E) : Prop := Relation.TransGen (fun a b => d.parent a = some b) e x

/-- `x` is a sibling before `e`. -/
def Dom.Before (d : Dom E) (e x : E) : Prop := Relation.TransGen (fun a b => d.prev a = some b) e x

/-- Selectors 4, section 16: `A k B` relates an element of `B` to an element of `A`. The Vue and
`/deep/` combinators act as descendant combinators. The combinators for pseudo-elements, slots and
parts relate nothing here (they need shadow trees or pseudo-elements). -/
def Dom.Rel (d : Dom E) : Combinator → E → E → Prop
  | .child, e, x => d.parent e = some x
  | .descendant, e, x | .deep, e, x | .deepDescendant, e, x => d.Ancestor e x
  | .nextSibling, e, x => d.prev e = some x
  | .laterSibling, e, x => d.Before e x
  | .pseudoElement, _, _ | .slotAssignment, _, _ | .part, _, _ => False

mutual
/-- Does an element satisfy a simple selector? `atom` decides the simple selectors without selector
arguments (type, id, class, attribute, state, `&`, …). -/
def Component.Sem (d : Dom E) (atom : Component → E → Prop) : Component → E → Prop
  | .is l, e | .where l, e | .any l, e => AnySem d atom l e
  | .negation l, e => ¬ AnySem d atom l e
  | c, e => atom c e
/-- Does an element match one of the selectors? -/
def AnySem (d : Dom E) (atom : Component → E → Prop) : List Selector → E → Prop
  | [], _ => False
  | s :: ss, e => s.Sem d atom e ∨ AnySem d atom ss e
/-- Does an element match a complex selector? -/
def Selector.Sem (d : Dom E) (atom : Component → E → Prop) : Selector → E → Prop
  | .mk _ cs, e => ComplexSem d atom cs e
/-- The components in match order: the rightmost compound holds of the element, and the rest of a
related element. -/
def ComplexSem (d : Dom E) (atom : Component → E → Prop) : List Component → E → Prop
  | [], _ => True
  | .combinator k :: rest, e => ∃ x, d.Rel k e x ∧ ComplexSem d atom rest x
  | c :: rest, e => c.Sem d atom e ∧ ComplexSem d atom rest e
end

end Verif.Selectors
