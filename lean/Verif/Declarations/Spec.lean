import Verif.Declarations.Model
/-! Well-formedness of the data (what the Rust types enforce) and the vocabulary of the properties of `get`, `set` and
`remove`. -/
namespace Verif.Declarations
open Verif.Targets
variable {V : Type}

/-- A property id of the Rust type: a prefix exactly for the properties that carry one, and never the empty set. -/
def Id.WF (i : Id) : Prop :=
  i.vp ≠ some .empty ∧
  match i.name with
  | .pr p => i.vp.isSome = p.hasVp
  | _ => i.vp = none

/-- A property of the Rust type: shorthand values are values of shorthand properties and have all their fields, all
other parsed values are values of longhands. -/
def Decl.WF : Decl V → Prop
  | .long i _ => i.WF ∧ i.sh = none
  | .short i fs => i.WF ∧ ∃ info, i.sh = some info ∧ fs.length = info.groups.length
  | .unparsed i _ => i.WF

/-- A block of the Rust type. -/
def Block.WF (b : Block V) : Prop := ∀ d ∈ b.decls ++ b.imps, d.WF

/-- Property `q` (with any prefix) is one of the longhands of `i`. -/
def Id.covers (i q : Id) : Prop := ∃ info m, i.sh = some info ∧ q.name = .pr m ∧ m ∈ info.groups.flatten

/-- The unprefixed property. -/
def Id.unprefixed (i : Id) : Prop := i.vp = none ∨ i.vp = some Prefix.none.set

end Verif.Declarations
