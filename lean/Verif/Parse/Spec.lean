import Verif.Parse.Model
/-!
# What a sheet says

The declarations and other rules of a sheet in the order they apply, each with the rules it is in. Items that are not valid where they are do not count. Declarations with and without `!important` are read apart, as the cascade does.
-/
namespace Verif.Parse
namespace Spec

/-- What is read: a rule starts, a declaration, another rule. -/
inductive Entry
  | start (path : List (Bool × Nat))
  | decl (path : List (Bool × Nat)) (d : Nat)
  | leaf (path : List (Bool × Nat)) (n : Nat)
  | parts (path : List (Bool × Nat)) (n : Nat) (ps : List Nat)
  | layer (path : List (Bool × Nat)) (n : Nat)
  | unknown (path : List (Bool × Nat)) (n : Nat)
deriving DecidableEq

mutual
/-- What a browser reads of an item of the source, in a block inside a style rule (`inStyle`) and with declarations allowed (`allow`). -/
def readItem (imp inStyle allow : Bool) (path : List (Bool × Nat)) : Item → List Entry
  | .decl d i => if allow ∧ i = imp then [.decl path d] else []
  | .bad => []
  | .style sel body => .start (path ++ [(true, sel)]) :: readItems imp true true (path ++ [(true, sel)]) body
  | .group g body => .start (path ++ [(false, g)]) :: readItems imp inStyle (allow || inStyle) (path ++ [(false, g)]) body
  | .leaf n => if inStyle then [] else [.leaf path n]
  | .parts n ps => if inStyle then [] else [.parts path n (ps.filterMap id)]
  | .layer n => if inStyle then [] else [.layer path n]
  | .unknown n => [.unknown path n]
  | .property n => if inStyle then [] else [.leaf path n]

/-- In the order of the source. -/
def readItems (imp inStyle allow : Bool) (path : List (Bool × Nat)) : List Item → List Entry
  | [] => []
  | i :: is => readItem imp inStyle allow path i ++ readItems imp inStyle allow path is
end

mutual
/-- What a rule of the parsed sheet says. -/
def readRule (imp : Bool) (path : List (Bool × Nat)) : Rule → List Entry
  | .style sel decls imps rules => .start (path ++ [(true, sel)]) :: ((if imp then imps else decls).map (Entry.decl (path ++ [(true, sel)])) ++ readRules imp (path ++ [(true, sel)]) rules)
  | .group g rules => .start (path ++ [(false, g)]) :: readRules imp (path ++ [(false, g)]) rules
  | .nested decls imps => (if imp then imps else decls).map (Entry.decl path)
  | .leaf n => [.leaf path n]
  | .parts n ps => [.parts path n ps]
  | .layer n => [.layer path n]
  | .unknown n => [.unknown path n]

/-- In the order of the rules. -/
def readRules (imp : Bool) (path : List (Bool × Nat)) : List Rule → List Entry
  | [] => []
  | r :: rs => readRule imp path r ++ readRules imp path rs
end

mutual
/-- An item that is valid where it is, with all that is in it. -/
def cleanItem (inStyle allow : Bool) : Item → Bool
  | .decl _ _ => allow
  | .bad => false
  | .style _ body => cleanItems true true body
  | .group _ body => cleanItems inStyle (allow || inStyle) body
  | .leaf _ => !inStyle
  | .parts _ ps => !inStyle && ps.all Option.isSome
  | .layer _ => !inStyle
  | .unknown _ => true
  | .property _ => !inStyle

/-- All items are valid. -/
def cleanItems (inStyle allow : Bool) : List Item → Bool
  | [] => true
  | i :: is => cleanItem inStyle allow i && cleanItems inStyle allow is
end

/-- An item that is itself not valid where it is, whatever is in it. -/
def invalid (inStyle allow : Bool) : Item → Bool
  | .decl _ _ => !allow
  | .bad => true
  | .leaf _ => inStyle
  | .parts _ _ => inStyle
  | .layer _ => inStyle
  | _ => false

mutual
/-- No `@property` in style rules. -/
def noProperty (inStyle : Bool) : Item → Bool
  | .style _ body => noPropertyAll true body
  | .group _ body => noPropertyAll inStyle body
  | .property _ => !inStyle
  | _ => true

/-- In a block. -/
def noPropertyAll (inStyle : Bool) : List Item → Bool
  | [] => true
  | i :: is => noProperty inStyle i && noPropertyAll inStyle is
end

mutual
/-- No errors inside `@font-face` and `@keyframes`. -/
def wholeParts : Item → Bool
  | .style _ body => wholePartsAll body
  | .group _ body => wholePartsAll body
  | .parts _ ps => ps.all Option.isSome
  | _ => true

/-- In a block. -/
def wholePartsAll : List Item → Bool
  | [] => true
  | i :: is => wholeParts i && wholePartsAll is
end

/-- A declaration. -/
def isDecl : Item → Bool
  | .decl _ _ => true
  | _ => false

mutual
/-- In every block with declarations, invalid items come before declarations. -/
def EarlyErrors (inStyle allow : Bool) : Item → Prop
  | .style _ body => EarlyErrorsAll true true body
  | .group _ body => EarlyErrorsAll inStyle (allow || inStyle) body
  | _ => True

/-- In a block, and in all blocks in it. -/
def EarlyErrorsAll (inStyle allow : Bool) : List Item → Prop
  | [] => True
  | i :: is => EarlyErrors inStyle allow i ∧ (isDecl i = true → allow = true → ∀ j ∈ is, invalid inStyle allow j = false) ∧ EarlyErrorsAll inStyle allow is
end

/-! ### The order at the top of a sheet (CSS Cascade 5, section 2: "Any @import rules must precede all other valid at-rules and style rules in a style sheet (ignoring @charset and @layer statement rules) and must not have any other valid at-rules or style rules between it and previous @import rules, or else the @import rule is invalid.") -/

/-- A valid statement of its own: its syntax is right and it is not unknown. -/
def valid : Top → Bool
  | .charset _ => false
  | .import _ ok => ok
  | .namespace _ ok => ok
  | .customMedia _ ok => ok
  | .layer _ preludeOk names => preludeOk && names
  | .unknown _ => false
  | .custom _ preludeOk ok => preludeOk && ok
  | .block _ preludeOk ok => preludeOk && ok
  | .unknownBlock _ => false
  | .style _ selOk ok => selOk && ok

/-- An `@import`. -/
def isImport : Top → Bool
  | .import _ _ => true
  | _ => false

/-- A `@layer` statement. -/
def isLayer : Top → Bool
  | .layer _ _ _ => true
  | _ => false

/-- Whether an `@import` is in a valid place after the rules before it (all valid ones are imports or layer statements, and there is no layer statement after an import). -/
def importPlace (before : List Top) : Prop :=
  (∀ t ∈ before, valid t = true → isImport t = true ∨ isLayer t = true) ∧
  before.Pairwise fun t u => ¬ (valid t = true ∧ isImport t = true ∧ valid u = true ∧ isLayer u = true)

/-- All syntax is right, and there are no unknown rules with a block. -/
def allRight : Top → Bool
  | .charset _ => true
  | .unknown _ => true
  | .unknownBlock _ => false
  | t => valid t

end Spec
end Verif.Parse
