import Verif.LightDark.Model
/-!
# Which colour is used

The cascade and inheritance for one property, the used colour scheme, and the substitution of `var()`. This file uses the types of the model only.
-/
namespace Verif.LightDark

/-- The declared value that wins among the rules that match an element, in the order of the cascade: the last important one, or the last one. `f` takes
the value of the property from a declaration. -/
def cascaded {α : Type} (f : Item → Option α) (rules : List Block) : Option α :=
  (((rules.flatMap (·.decls)) ++ (rules.flatMap (·.imp))).filterMap f).getLast?

/-- An inherited property of an element; the chain goes from the root to the element, with the rules that match each of them. -/
def computed {α : Type} (f : Item → Option α) (initial : α) (chain : List (List Block)) : α :=
  chain.foldl (fun parent rules => (cascaded f rules).getD parent) initial

/-- `color-scheme`. -/
def asScheme : Item → Option Scheme
  | .scheme s => some s
  | _ => none

/-- One of the variables. -/
def asVar (w : Which) : Item → Option VarVal
  | .var w' v => if w' = w then some v else none
  | _ => none

/-- Whether the used colour scheme is dark, for a user who prefers dark or not (css-color-adjust-1): `normal` is light. -/
def usedDark (prefersDark : Bool) (s : Scheme) : Bool := if s.light && s.dark then prefersDark else s.dark

/-- What `light-dark()` is. -/
def Col.used {C : Type} (dark : Bool) : Col C → C
  | .plain c => c
  | .lightDark l d => if dark then d.used dark else l.used dark

mutual
/-- What a printed value is after substitution: a variable that is `initial` is replaced by the fallback, and one that is a space by nothing. -/
def Text.subst {C : Type} (v : Which → VarVal) : Text C → List C
  | .col c => [c]
  | .var w fb => match v w with
    | .initial => substAll v fb
    | .space => []
/-- All of them. -/
def substAll {C : Type} (v : Which → VarVal) : List (Text C) → List C
  | [] => []
  | t :: ts => t.subst v ++ substAll v ts
end

/-- The rules that apply, for a user who prefers dark or not. -/
def applying (prefersDark : Bool) (rules : List CRule) : List Block := (rules.filter fun r => !r.1 || prefersDark).map (·.2)

/-- The schemes that are declared. -/
def schemes (is : List Item) : List Scheme := is.filterMap asScheme

/-- The block can be compiled: it does not set the variables itself, all schemes are light or dark, no important one is both, and if a scheme in the
block is both, then the last one is. -/
structure Fine (b : Block) : Prop where
  noVar : ∀ w v, Item.var w v ∉ b.decls ++ b.imp
  notNormal : ∀ s ∈ schemes (b.decls ++ b.imp), s.light = true ∨ s.dark = true
  important : ∀ s ∈ schemes b.imp, ¬ (s.light = true ∧ s.dark = true)
  last : (∃ s ∈ schemes b.decls, s.light = true ∧ s.dark = true) → ∀ s ∈ (schemes b.decls).getLast?, s.light = true ∧ s.dark = true

end Verif.LightDark
