import Verif.Visit.Model
/-! What a visitor should be shown. -/
namespace Verif.Visit

mutual
/-- The value and everything in it, from the outside in, from left to right. -/
def everything : Node → List Node
  | .mk ty id children => .mk ty id children :: everythingAll children

/-- Everything in a list of values. -/
def everythingAll : List Node → List Node
  | [] => []
  | c :: cs => everything c ++ everythingAll cs
end

mutual
/-- The values in fields are of the types of the fields. -/
def Typed : Node → Prop
  | .mk ty _ children => (∀ c ∈ children, c.ty ∈ (decl ty).fields ++ (decl ty).skipped) ∧ TypedAll children

/-- The same for a list of values. -/
def TypedAll : List Node → Prop
  | [] => True
  | c :: cs => Typed c ∧ TypedAll cs
end

/-- The visitor asks for values of this type. -/
def wanted (asked : List Kind) (n : Node) : Bool :=
  match (decl n.ty).own with
  | some k => decide (k ∈ asked)
  | none => false

end Verif.Visit
