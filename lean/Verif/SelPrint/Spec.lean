import Verif.SelParse.Spec
/-!
# What selectors mean, as far as printing is concerned

A component leads from what is selected so far to what is selected next: a combinator or a pseudo-element moves, everything else tests. What the
tests and moves are is left open (`Meaning`), except that `*` is always true, `:is()` is the disjunction and `:nth-child(1)` is `:first-child`, and so on.
-/
namespace Verif.SelPrint
open Verif.SelParse

/-- The components with selectors as argument. -/
inductive Fn
  | logical (f : Logical) | has | nthOf (t : NthTy) (a b : Int) | host | cue (region : Bool) | slotted

/-- An interpretation of the components over elements and pseudo-elements `E`. -/
structure Meaning (E : Type) where
  /-- a component that tests -/
  test : Comp → E → Prop
  /-- a combinator, or a pseudo-element: from right to left -/
  move : Comp → E → E → Prop
  /-- a function that tests, given what its arguments match -/
  fnTest : Fn → List (E → Prop) → E → Prop
  /-- a function that is a pseudo-element -/
  fnMove : Fn → List (E → Prop) → E → E → Prop
  /-- `*` -/
  universal : ∀ e, test (.type .implicit none) e
  /-- `:is()` -/
  is : ∀ ps e, fnTest (.logical .is) ps e ↔ ∃ q ∈ ps, q e
  /-- `:nth-child(1)` -/
  firstChild : ∀ e, test (.nth .child 0 1) e ↔ test (.pclass cs!"first-child") e
  /-- `:nth-last-child(1)` -/
  lastChild : ∀ e, test (.nth .lastChild 0 1) e ↔ test (.pclass cs!"last-child") e
  /-- `:nth-of-type(1)` -/
  firstOfType : ∀ e, test (.nth .ofType 0 1) e ↔ test (.pclass cs!"first-of-type") e
  /-- `:nth-last-of-type(1)` -/
  lastOfType : ∀ e, test (.nth .lastOfType 0 1) e ↔ test (.pclass cs!"last-of-type") e

variable {E : Type}

mutual
/-- What is matched after a component, given what is matched before it. -/
def after (M : Meaning E) : Comp → (E → Prop) → E → Prop
  | .logical f l, P, e => M.fnTest (.logical f) (matchL M l) e ∧ P e
  | .has l, P, e => M.fnTest .has (matchL M l) e ∧ P e
  | .nthOf t a b l, P, e => M.fnTest (.nthOf t a b) (matchL M l) e ∧ P e
  | .hostFn s, P, e => M.fnTest .host [afterAll M s fun _ => True] e ∧ P e
  | .cue r s, P, e => ∃ e', M.fnMove (.cue r) [afterAll M s fun _ => True] e e' ∧ P e'
  | .slotted s, P, e => ∃ e', M.fnMove .slotted [afterAll M s fun _ => True] e e' ∧ P e'
  | .comb k, P, e => ∃ e', M.move (.comb k) e e' ∧ P e'
  | .pelem n, P, e => ∃ e', M.move (.pelem n) e e' ∧ P e'
  | .pelemFn n args, P, e => ∃ e', M.move (.pelemFn n args) e e' ∧ P e'
  | .part l, P, e => ∃ e', M.move (.part l) e e' ∧ P e'
  | .nesting, P, e => M.test .nesting e ∧ P e
  | .type ns n, P, e => M.test (.type ns n) e ∧ P e
  | .id s, P, e => M.test (.id s) e ∧ P e
  | .cls s, P, e => M.test (.cls s) e ∧ P e
  | .attr a, P, e => M.test (.attr a) e ∧ P e
  | .pclass n, P, e => M.test (.pclass n) e ∧ P e
  | .pclassFn n args, P, e => M.test (.pclassFn n args) e ∧ P e
  | .nth t a b, P, e => M.test (.nth t a b) e ∧ P e
termination_by structural c => c
/-- What is matched after some components. -/
def afterAll (M : Meaning E) : List Comp → (E → Prop) → E → Prop
  | [], P => P
  | c :: cs, P => afterAll M cs (after M c P)
termination_by structural s => s
/-- What selectors match. -/
def matchL (M : Meaning E) : List (List Comp) → List (E → Prop)
  | [] => []
  | s :: l => (afterAll M s fun _ => True) :: matchL M l
termination_by structural l => l
end

/-- What a selector matches. -/
def Matches (M : Meaning E) (s : Sel) : E → Prop := afterAll M s fun _ => True

/-- No `&ns|*` after a combinator. -/
def NoAmpNs (s : Sel) : Prop := ∀ a b k ns, s = a ++ .comb k :: .nesting :: .type ns none :: b → ns = .implicit

/-- `:scope` is not a component of the selector (it may be in an argument). -/
def NoScope (s : Sel) : Prop := Comp.pclass cs!"scope" ∉ s

/-- A selector of `:has()`: no `:scope` but that of a relative selector. -/
def HasScope (s : Sel) : Prop := NoScope s ∨ ∃ k s', s = .pclass cs!"scope" :: .comb k :: s' ∧ k ≠ .descendant ∧ NoScope s' ∧ NoAmpNs s'

/-- The only selector of `:is()` has no type selector after `&`. -/
def NoAmpType : List Sel → Prop
  | [.nesting :: s] => ∀ ns n, Comp.type ns n ∉ s
  | _ => True

mutual
/-- None of the selectors that the code prints wrong is in a component: `&ns|*` after a combinator; `:is(&a)`; `:nth-col(1)`; `:scope` in
`:has()` and `:nth-child(An+B of …)`. -/
def Printable : Comp → Prop
  | .logical f l => (f = .is → NoAmpType l) ∧ PrintableL l
  | .has l => (∀ s ∈ l, HasScope s) ∧ PrintableL l
  | .nth t a b => a = 0 ∧ b = 1 → t ≠ .col ∧ t ≠ .lastCol
  | .nthOf _ _ _ l => (∀ s ∈ l, NoScope s) ∧ PrintableL l
  | .hostFn s => NoAmpNs s ∧ PrintableS s
  | .cue _ s => NoAmpNs s ∧ PrintableS s
  | .slotted s => NoAmpNs s ∧ PrintableS s
  | _ => True
/-- The same for all components of a selector. -/
def PrintableS : List Comp → Prop
  | [] => True
  | c :: s => Printable c ∧ PrintableS s
/-- The same for selectors. -/
def PrintableL : List (List Comp) → Prop
  | [] => True
  | s :: l => NoAmpNs s ∧ PrintableS s ∧ PrintableL l
end

end Verif.SelPrint
