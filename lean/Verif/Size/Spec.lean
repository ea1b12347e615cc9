import Verif.Size.Model
/-! # Specification: what a browser makes of the sizes in a block -/
namespace Verif.Size.Spec
open Verif.Targets

variable {L : Type}

/-- A browser: which values of the size properties it understands as they are written, and whether it has the logical size properties. -/
structure Agent (L : Type) where
  knows : Sz L → Bool
  logical : Bool

/-- The meaning of a value: vendor prefixes do not matter. -/
inductive Meaning (L : Type)
  | size (v : Sz L)
  | raw (text : Str)
deriving DecidableEq

/-- A value without its prefix. -/
def plain : Sz L → Sz L
  | .kw k _ => .kw k .none
  | v => v

/-- The property of a declaration. -/
def nameOf : Decl L → Name
  | .size n _ => n
  | .unparsed n _ => n

/-- The box dimension that a property sets in a horizontal writing mode, under its physical or its logical name. -/
def slot (n : Name) : Kind × Axis := (n.kind, n.axis)

/-- What a declaration sets the dimension to, if the browser takes it into account. A value with `var()` is always taken. -/
def sets (b : Agent L) (d : Decl L) : Option (Meaning L) :=
  if (nameOf d).cat = .logical ∧ b.logical = false then none
  else match d with
    | .size _ v => if b.knows v then some (.size (plain v)) else none
    | .unparsed _ t => some (.raw t)

/-- The winner for a dimension: the last declaration that the browser takes into account. -/
def winner (b : Agent L) (s : Kind × Axis) : List (Decl L) → Option (Meaning L)
  | [] => none
  | d :: ds => match winner b s ds with
    | some m => some m
    | none => if slot (nameOf d) = s then sets b d else none

/-- The meaning that a declaration has when the browser understands it. -/
def meaning : Decl L → Meaning L
  | .size _ v => .size (plain v)
  | .unparsed _ t => .raw t

end Verif.Size.Spec
