import Verif.Background.Model
/-!
# What a block of background declarations means to a browser

A declaration sets longhands; later ones win. A browser ignores a declaration it does not understand (`acc`) and one that is invalid: a list without values, or `background` with a colour on a layer other than the last. Prefixed `background-clip` is an alias of the unprefixed property. A declaration with `var()` (`raw`) sets all its longhands to a value not known here. This file uses the declarations of the model only.
-/
namespace Verif.Background
namespace Spec

/-- The value of a longhand: what it was before the block, a value, or that of a declaration with `var()`. -/
inductive Value (α : Type)
  | before
  | val (a : α)
  | raw (id : PId) (u : Nat)
deriving DecidableEq

/-- The values of the nine longhands. -/
structure State (V : Type) where
  color : Value V
  f : Field → Value (List V)

variable {V : Type}

/-- The longhands of a property. -/
def covers : PId → Field → Prop
  | .color, _ => False
  | .list g, f => f = g
  | .position, f => f = .x ∨ f = .y
  | .background, _ => True

/-- Whether a property sets the colour. -/
def coversColor : PId → Prop
  | .color => True
  | .background => True
  | _ => False

instance (p : PId) (f : Field) : Decidable (covers p f) := by cases p <;> simp only [covers] <;> infer_instance
instance (p : PId) : Decidable (coversColor p) := by cases p <;> simp only [coversColor] <;> infer_instance

/-- A valid declaration: lists have a value, and there is no colour on layers other than the last. -/
def Valid (noColor : V) : Decl V → Prop
  | .color _ => True
  | .list _ l => l ≠ []
  | .position l => l ≠ []
  | .clip l vp => l ≠ [] ∧ (vp.none ∨ vp.webkit ∨ vp.moz)
  | .background ls => ls ≠ [] ∧ ∀ l ∈ ls.dropLast, l.color = noColor
  | .raw _ _ => True

instance [DecidableEq V] (noColor : V) (d : Decl V) : Decidable (Valid noColor d) := by cases d <;> simp only [Valid] <;> infer_instance

/-- What a valid declaration does. -/
def apply (d : Decl V) (s : State V) : State V := match d with
  | .color v => { s with color := .val v }
  | .list g l => { s with f := fun f => if f = g then .val l else s.f f }
  | .position l => { s with f := fun f => if f = .x then .val (l.map (·.1)) else if f = .y then .val (l.map (·.2)) else s.f f }
  | .clip l _ => { s with f := fun f => if f = .clip then .val l else s.f f }
  | .background ls => { color := (ls.getLast?.map fun l => Value.val l.color).getD s.color, f := fun f => .val (ls.map (·.f f)) }
  | .raw id u => { color := if coversColor id then .raw id u else s.color, f := fun f => if covers id f then .raw id u else s.f f }

/-- What a browser makes of a block: it ignores invalid declarations, and those it does not understand. -/
def compute [DecidableEq V] (noColor : V) (acc : Decl V → Bool) : List (Decl V) → State V → State V
  | [], s => s
  | d :: ds, s => compute noColor acc ds (if acc d ∧ Valid noColor d then apply d s else s)

/-- Two declarations of the same property. -/
def SameProperty : Decl V → Decl V → Prop
  | .color _, .color _ => True
  | .list f _, .list g _ => f = g
  | .position _, .position _ => True
  | .clip _ _, .clip _ _ => True
  | .background _, .background _ => True
  | _, _ => False

/-- The images of a declaration. -/
def imagesOf : Decl V → List V
  | .list .image l => l
  | .background ls => ls.map (·.f .image)
  | _ => []

end Spec
end Verif.Background
