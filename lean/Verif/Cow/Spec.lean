import Verif.Cow.Model
/-!
# What strings are to a user: variables with texts

Each variable has a text of its own; nothing is shared.
-/
namespace Verif.Cow
namespace Spec
variable {T : Type}

/-- The texts of the variables. -/
def Texts (T : Type) := Nat → Option T

/-- What an operation does to the texts. -/
def apply (src : Nat → Nat → T) (rc : Nat → T) (v : Texts T) : Op T → Texts T
  | .fromStr h ptr len => fun x => if x = h then some (src ptr len) else v x
  | .fromString h _ t => fun x => if x = h then some t else v x
  | .fromRc h ptr len _ => fun x => if x = h then some (if len = maxLen then rc ptr else src ptr len) else v x
  | .clone h h' => fun x => if x = h' then v h else v x
  | .intoOwned _ _ => v
  | .drop h => fun x => if x = h then none else v x

/-- What the Rust compiler and the allocator guarantee: new variables are new, used variables exist, new memory is not in use, and no slice of memory is as long as `usize::MAX`. -/
def Legal (v : Texts T) (used : Nat → Prop) : Op T → Prop
  | .fromStr h _ len => v h = none ∧ len < maxLen
  | .fromString h a _ => v h = none ∧ ¬ used a
  | .fromRc h _ len a => v h = none ∧ ¬ used a ∧ len ≤ maxLen
  | .clone h h' => (v h).isSome ∧ v h' = none
  | .intoOwned h a => (v h).isSome ∧ ¬ used a
  | .drop h => (v h).isSome

/-- All operations are legal, for whatever addresses the allocator chooses. -/
def LegalRun (src : Nat → Nat → T) (rc : Nat → T) : Mem T → Texts T → List (Op T) → Prop
  | _, _, [] => True
  | m, v, o :: os => Legal v (fun a => (m.heap a).isSome = true) o ∧ ∀ m', step src rc m o = some m' → LegalRun src rc m' (apply src rc v o) os

/-- The texts after some operations. -/
def texts (src : Nat → Nat → T) (rc : Nat → T) (ops : List (Op T)) : Texts T := ops.foldl (apply src rc) fun _ => none

end Spec
end Verif.Cow
