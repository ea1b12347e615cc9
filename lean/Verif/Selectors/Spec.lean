import Verif.Selectors.Build
/-!
# Selectors: specificity according to the standard

Selectors 4, section 17: count the id selectors, the class selectors / attribute selectors /
pseudo-classes and the type selectors / pseudo-elements; `:is()`, `:not()` and `:has()` count as the
most specific of their arguments, `:nth-child(… of S)` as a pseudo-class plus its most specific
argument, `:where()` and the universal selector as nothing. CSS Scoping: `:host(S)` is a pseudo-class
plus its argument, `::slotted(S)` a pseudo-element plus its argument. The CSS modules functions
`:local(S)` and `:global(S)` are replaced by their argument in the output. View transition
pseudo-elements with argument `*` count as nothing. `&` counts as nothing here (its specificity is
that of the parent rule, which is not part of the selector).

Specificities are compared lexicographically.
-/
namespace Verif.Selectors

/-- Lexicographic comparison of specificities. -/
def Triple.lexLe (a b : Triple) : Prop :=
  a.ids < b.ids ∨ (a.ids = b.ids ∧ (a.classes < b.classes ∨
    (a.classes = b.classes ∧ a.elements ≤ b.elements)))

instance (a b : Triple) : Decidable (a.lexLe b) := by unfold Triple.lexLe; infer_instance

/-- The larger of two specificities. -/
def Triple.lexMax (a b : Triple) : Triple := if a.lexLe b then b else a

mutual
/-- The specificity of a simple selector. -/
def Component.weight : Component → Triple
  | .combinator _ | .anyNamespace | .noNamespace | .defaultNamespace _ | .namespace _ _
  | .universal | .where _ | .viewTransitionAny _ | .nesting => ⟨0, 0, 0⟩
  | .localName _ _ | .part _ | .pseudoElement _ => ⟨0, 0, 1⟩
  | .id _ => ⟨1, 0, 0⟩
  | .cls _ | .attrExists _ | .attr _ | .attrOther _ | .root | .empty | .scope | .nth _
  | .pseudoClass _ | .host => ⟨0, 1, 0⟩
  | .negation l | .is l | .any l | .has l => maxWeight l
  | .nthOf _ l => ⟨0, 1, 0⟩ + maxWeight l
  | .local s | .global s => s.weight
  | .slotted s => ⟨0, 0, 1⟩ + s.weight
  | .hostFn s => ⟨0, 1, 0⟩ + s.weight
/-- The specificity of a complex selector: the sum over its simple selectors. -/
def Selector.weight : Selector → Triple
  | .mk _ cs => sumWeight cs
/-- The sum over a list of simple selectors. -/
def sumWeight : List Component → Triple
  | [] => ⟨0, 0, 0⟩
  | c :: cs => c.weight + sumWeight cs
/-- The most specific selector of a list. -/
def maxWeight : List Selector → Triple
  | [] => ⟨0, 0, 0⟩
  | s :: ss => s.weight.lexMax (maxWeight ss)
end

mutual
/-- The number of simple selectors, arguments included. -/
def Component.count : Component → Nat
  | .negation l | .is l | .any l | .has l | .where l | .nthOf _ l => 1 + countList l
  | .local s | .global s | .slotted s | .hostFn s => 1 + s.count
  | .combinator _ => 0
  | _ => 1
/-- The number of simple selectors of a selector, arguments included. -/
def Selector.count : Selector → Nat
  | .mk _ cs => countComps cs
/-- The number of simple selectors of a list of components, arguments included. -/
def countComps : List Component → Nat
  | [] => 0
  | c :: cs => c.count + countComps cs
/-- The number of simple selectors of a list of selectors, arguments included. -/
def countList : List Selector → Nat
  | [] => 0
  | s :: ss => s.count + countList ss
end

mutual
/-- The specificities stored in the arguments of a component are those computed when they were
built. -/
def Component.Built : Component → Prop
  | .negation l | .is l | .any l | .nthOf _ l => BuiltList l
  | .slotted s | .hostFn s => s.Built
  | _ => True
/-- The stored specificity is the one the builder computed from the simple selectors, in all
arguments as well. -/
def Selector.Built : Selector → Prop
  | .mk n cs => n = specificityOf cs ∧ BuiltComps cs
/-- All components are built. -/
def BuiltComps : List Component → Prop
  | [] => True
  | c :: cs => c.Built ∧ BuiltComps cs
/-- All selectors are built. -/
def BuiltList : List Selector → Prop
  | [] => True
  | s :: ss => s.Built ∧ BuiltList ss
end

mutual
/-- No `:has()`, no `:local()` / `:global()` and no view transition pseudo-element with argument `*`,
outside of `:where()`. -/
def Component.Plain : Component → Prop
  | .has _ | .local _ | .global _ | .viewTransitionAny _ => False
  | .negation l | .is l | .any l | .nthOf _ l => PlainList l
  | .slotted s | .hostFn s => s.Plain
  | _ => True
/-- See `Component.Plain`. -/
def Selector.Plain : Selector → Prop
  | .mk _ cs => PlainComps cs
/-- See `Component.Plain`. -/
def PlainComps : List Component → Prop
  | [] => True
  | c :: cs => c.Plain ∧ PlainComps cs
/-- See `Component.Plain`. -/
def PlainList : List Selector → Prop
  | [] => True
  | s :: ss => s.Plain ∧ PlainList ss
end

/-! ## Order of the components -/

/-- The components of a compound selector followed by further `(combinator, compound)` pairs, as they
are written: from left to right. -/
def written (first : List Component) (rest : List (Combinator × List Component)) : List Component :=
  first ++ rest.flatMap fun (k, c) => .combinator k :: c

/-- The same in match order: compounds from right to left, each compound from left to right.
The argument is the list of pairs from the right. -/
def matchOrder (first : List Component) : List (Combinator × List Component) → List Component
  | [] => first
  | (k, c) :: prev => c ++ .combinator k :: matchOrder first prev

end Verif.Selectors
