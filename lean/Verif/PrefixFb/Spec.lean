import Verif.PrefixFb.Model
/-!
# Which declaration of a property wins, written without the functions of the model
-/
namespace Verif.PrefixFb
open Verif.Targets

/-- A browser, as far as one property is concerned: the names (prefixes) under which it knows the property, all of which set the same thing, and the values it understands. -/
structure View (V : Type) where
  knows : Prefix → Prop
  understands : V → Prop

/-- A browser knows the declaration under at least one of its names. -/
def View.Knows {V : Type} (w : View V) (p : PrefixSet) : Prop := ∃ q, w.knows q ∧ p.has q = true

/-- What wins: a value, or an unparsed value, which is always valid. -/
inductive Won (V : Type)
  | value (v : V)
  | unparsed (v : V)
deriving DecidableEq

/-- The browser takes the declaration into account, with this value. -/
inductive View.Sets {V : Type} (w : View V) : Item V → Won V → Prop
  | own {v : V} {p : PrefixSet} : w.Knows p → w.understands v → w.Sets (.own v p) (.value v)
  | unparsed {v : V} {p : PrefixSet} : w.Knows p → w.Sets (.unparsed v p) (.unparsed v)

/-- The last declaration that the browser takes into account wins. -/
def View.Wins {V : Type} (w : View V) (ds : List (Item V)) (x : Won V) : Prop :=
  ∃ before d after, ds = before ++ d :: after ∧ w.Sets d x ∧ ∀ e ∈ after, ∀ y, ¬ w.Sets e y

/-- The declaration is one of the property with a parsed value. -/
def Item.IsOwn {V : Type} : Item V → Prop
  | .own _ _ => True
  | _ => False

/-- The declaration is one of the property with an unparsed value. -/
def Item.IsUnparsed {V : Type} : Item V → Prop
  | .unparsed _ _ => True
  | _ => False

/-- The declaration names the property with this prefix. -/
def Item.Names {V : Type} (p : Prefix) : Item V → Prop
  | .own _ ps => ps.has p = true
  | .unparsed _ ps => ps.has p = true
  | .other _ => False

end Verif.PrefixFb
