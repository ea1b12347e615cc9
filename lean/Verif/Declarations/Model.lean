import Verif.Declarations.Table
import Verif.Targets.Model
/-! Model of `DeclarationBlock::get`, `set` and `remove` (src/declaration.rs) with the shorthand conversions of
src/macros.rs and src/properties/mod.rs. -/
namespace Verif.Declarations
open Verif.Targets

/-- The property part of src/properties/mod.rs `PropertyId`. -/
inductive Name where
  | pr (p : Pr)
  | all
  | custom (s : Str)
deriving DecidableEq, Repr

/-- src/properties/mod.rs `PropertyId`: a property, and a prefix for those that carry one. -/
structure Id where
  name : Name
  vp : Option PrefixSet
deriving DecidableEq, Repr

/-- src/properties/mod.rs:301-322 `PropertyId::prefix`: empty for properties without prefix. -/
def Id.pre (i : Id) : PrefixSet := i.vp.getD .empty

/-- The shorthand a property id stands for, if any. -/
def Id.sh (i : Id) : Option ShInfo :=
  match i.name with
  | .pr p => p.sh
  | _ => none

/-- src/properties/mod.rs:401-416 `is_shorthand`. -/
def Id.isShorthand (i : Id) : Bool := i.sh.isSome

/-- The prefix passed to `longhands` and `from_longhands` (`prefix_default!`, src/properties/mod.rs:457-464). -/
def Id.shPrefix (i : Id) : PrefixSet := i.vp.getD Prefix.none.set

/-- One longhand id, `PropertyId::$prop$((vendor_prefix))?` (src/macros.rs:508). -/
def memberId (vp : PrefixSet) (m : Pr) : Id := ⟨.pr m, if m.hasVp then some vp else none⟩

/-- src/macros.rs:507-509 `longhands`. -/
def Id.longhands (i : Id) : Option (List Id) :=
  i.sh.map fun info => info.groups.flatten.map (memberId i.shPrefix)

/-- src/properties/mod.rs:484-499 `logical_group`. -/
def Id.group (i : Id) : Option Group :=
  match i.name with
  | .pr p => p.group
  | _ => none

/-- src/properties/mod.rs:502-517 `category`. -/
def Id.category (i : Id) : Option Category :=
  match i.name with
  | .pr p => p.category
  | _ => none

/-- src/properties/mod.rs:671-688 `Property`: a longhand (or `all`, or a custom property) with its value, a shorthand with
one value per field, or an unparsed value. Values are abstract; for a list shorthand (`SmallVec<[Name; 1]>`) a field
holds the list of that component of all items. -/
inductive Decl (V : Type) where
  | long (id : Id) (v : V)
  | short (id : Id) (fields : List V)
  | unparsed (id : Id) (v : V)
deriving DecidableEq, Repr

variable {V : Type}

/-- src/properties/mod.rs:724-736 `property_id`. -/
def Decl.id : Decl V → Id
  | .long i _ => i
  | .short i _ => i
  | .unparsed i _ => i

/-- The field of a shorthand that holds the value of a longhand: the first one that lists it (src/macros.rs:511-521). -/
def keyOf (groups : List (List Pr)) (m : Pr) : Option Nat :=
  match groups with
  | [] => none
  | g :: gs => if m ∈ g then some 0 else (keyOf gs m).map (· + 1)

/-- src/properties/mod.rs:884-904 `Property::longhand` with src/macros.rs:511-522. -/
def Decl.longhand (d : Decl V) (q : Id) : Option (Decl V) :=
  match d with
  | .short i fs =>
    match i.sh, q.name with
    | some info, .pr m =>
      if i.vp ≠ none ∧ i.vp ≠ some q.pre then none
      else match keyOf info.groups m with
        | some k => (fs[k]?).map (.long q ·)
        | none => none
    | _, _ => none
  | _ => none

/-- src/properties/mod.rs:907-926 `Property::set_longhand` with src/macros.rs:524-553 and, for list shorthands, 697-714;
`none` is `Err(())`. `len` is the number of items of a list value. -/
def Decl.setLonghand (len : V → Nat) (d p : Decl V) : Option (Decl V) :=
  match d, p with
  | .short i fs, .long q v =>
    match i.sh, q.name with
    | some info, .pr m =>
      if i.vp ≠ none ∧ i.vp ≠ some q.pre then none
      else match keyOf info.groups m with
        | some k =>
          if info.isList then
            match fs[k]? with
            | some old => if len v = len old then some (.short i (fs.set k v)) else none
            | none => none
          else if ((info.groups[k]?).getD []).length > 1 then none
          else some (.short i (fs.set k v))
        | none => none
    | _, _ => none
  | _, _ => none

/-- src/declaration.rs:60-73 `DeclarationBlock`. -/
structure Block (V : Type) where
  decls : List (Decl V)
  imps : List (Decl V)
deriving Repr

/-- src/declaration.rs:308-314 `iter`. -/
def Block.iter (b : Block V) : List (Decl V × Bool) := b.decls.map (·, false) ++ b.imps.map (·, true)

/-! ### Reading a shorthand -/

/-- The variables of `from_longhands` (src/macros.rs:395-404 and 595-602). -/
structure Acc (V : Type) where
  vals : Pr → Option V
  count : Nat
  imps : Nat
  length : Option Nat

/-- The initial variables. -/
def Acc.init : Acc V := ⟨fun _ => none, 0, 0, none⟩

/-- `[<$prop:snake _value>] = Some(val); count += 1; if important { important_count += 1 }`. -/
def Acc.put (a : Acc V) (m : Pr) (v : V) (imp : Bool) : Acc V :=
  { a with
    vals := fun x => if x = m then some v else a.vals x
    count := a.count + 1
    imps := if imp then a.imps + 1 else a.imps }

/-- src/macros.rs:431-444: the fields of the shorthand itself, in order. -/
def Acc.putFields (a : Acc V) (groups : List (List Pr)) (fs : List V) (imp : Bool) : List Pr → Acc V
  | [] => a
  | m :: ms =>
    match (keyOf groups m).bind (fs[·]?) with
    | some v => Acc.putFields (a.put m v imp) groups fs imp ms
    | none => Acc.putFields a groups fs imp ms

/-- src/macros.rs:446-459: the longhands a different property provides. -/
def Acc.putLonghands (a : Acc V) (vp : PrefixSet) (d : Decl V) (imp : Bool) : List Pr → Acc V
  | [] => a
  | m :: ms =>
    match d.longhand (memberId vp m) with
    | some (.long _ v) => Acc.putLonghands (a.put m v imp) vp d imp ms
    | _ => Acc.putLonghands a vp d imp ms

/-- How the loop of `from_longhands` sees a declaration: as one of the longhands, the shorthand itself, or another. -/
inductive Kind (V : Type) where
  | member (m : Pr) (v : V)
  | self (fs : List V)
  | other

/-- The `match property` of src/macros.rs:406-461. -/
def kindOf (p : Pr) (info : ShInfo) : Decl V → Kind V
  | .long ⟨.pr m, _⟩ v => if m ∈ info.groups.flatten then .member m v else .other
  | .short ⟨.pr q, _⟩ fs => if q = p then .self fs else .other
  | _ => .other

/-- One step of the loop of src/macros.rs:405-462, and of 603-645 for list shorthands; `none` is `return None`. -/
def fromStep (len : V → Nat) (p : Pr) (info : ShInfo) (vp : PrefixSet) (a : Acc V) (d : Decl V × Bool) : Option (Acc V) :=
  let res : Option (Acc V × Nat) :=
    match kindOf p info d.1 with
    | .member m v => if m.hasVp ∧ d.1.id.vp ≠ some vp then none else some (a.put m v d.2, len v)
    | .self fs =>
      if p.hasVp ∧ d.1.id.vp ≠ some vp then none
      else
        let a' := a.putFields info.groups fs d.2 info.groups.flatten
        let a' := if info.isList then
            { a' with count := a.count + 1, imps := if d.2 then a.imps + 1 else a.imps } else a'
        some (a', ((fs[0]?).map len).getD 0)
    | .other =>
      let a' := a.putLonghands vp d.1 d.2 info.groups.flatten
      let lens := info.groups.flatten.filterMap fun m =>
        match d.1.longhand (memberId vp m) with
        | some (.long _ v) => some (len v)
        | _ => none
      some (a', (lens.getLast?).getD 0)
  match res with
  | none => none
  | some (a', n) =>
    if info.isList then
      match a'.length with
      | none => some { a' with length := some n }
      | some l => if l ≠ n then none else some a'
    else some a'

/-- The loop. -/
def fromLoop (len : V → Nat) (p : Pr) (info : ShInfo) (vp : PrefixSet) (a : Acc V) : List (Decl V × Bool) → Option (Acc V)
  | [] => some a
  | d :: ds =>
    match fromStep len p info vp a d with
    | none => none
    | some a' => fromLoop len p info vp a' ds

/-- src/macros.rs:470-485: the longhands of a field must have the same value. -/
def groupValue [DecidableEq V] (vals : Pr → Option V) : List Pr → Option V
  | [] => none
  | m :: ms => if ms.all fun x => decide (vals x = vals m) then vals m else none

/-- All fields, or `none`. -/
def groupValues [DecidableEq V] (vals : Pr → Option V) : List (List Pr) → Option (List V)
  | [] => some []
  | g :: gs =>
    match groupValue vals g, groupValues vals gs with
    | some v, some vs => some (v :: vs)
    | _, _ => none

/-- src/macros.rs:392-505 and 594-680 `from_longhands`. `valid` is `is_valid`. -/
def fromLonghands [DecidableEq V] (len : V → Nat) (valid : Pr → List V → Bool) (p : Pr) (info : ShInfo) (vp : PrefixSet)
    (b : Block V) : Option (List V × Bool) :=
  match fromLoop len p info vp .init b.iter with
  | none => none
  | some a =>
    if a.imps > 0 ∧ a.imps ≠ a.count then none
    else
      match groupValues a.vals info.groups with
      | none => none
      | some fs => if valid p fs then some (fs, decide (a.imps > 0)) else none

/-- src/properties/mod.rs:420-453 `shorthand_value`. -/
def Id.shorthandValue [DecidableEq V] (len : V → Nat) (valid : Pr → List V → Bool) (i : Id) (b : Block V) :
    Option (Decl V × Bool) :=
  match i.name with
  | .pr p =>
    match p.sh with
    | some info => (fromLonghands len valid p info i.shPrefix b).map fun r => (.short i r.1, r.2)
    | none => none
  | _ => none

/-! ### get, set, remove -/

/-- What a declaration says about a longhand (src/declaration.rs:333-339). -/
def Decl.provides (d : Decl V) (q : Id) : Option (Decl V) := if d.id = q then some d else d.longhand q

/-- src/declaration.rs:326-345 `get`. -/
def Block.get [DecidableEq V] (len : V → Nat) (valid : Pr → List V → Bool) (b : Block V) (q : Id) : Option (Decl V × Bool) :=
  if q.isShorthand then q.shorthandValue len valid b
  else b.iter.reverse.findSome? fun d => (d.1.provides q).map (·, d.2)

/-- The longhands of an id, or the id itself (src/declaration.rs:364 and 372). -/
def Id.parts (i : Id) : List Id := i.longhands.getD [i]

/-- src/declaration.rs:367-383: some longhand of the new property is in the same logical group as one of the
declaration, in the other category. -/
def conflict (p d : Id) : Bool :=
  p.parts.any fun l => l.group.isSome && d.parts.any fun k => decide (l.group = k.group) && decide (l.category ≠ k.category)

/-- src/declaration.rs:366-394, the loop over the reversed list; `none` when the loop ends without return. -/
def setRev (len : V → Nat) (p : Decl V) : List (Decl V) → Option (List (Decl V))
  | [] => none
  | d :: ds =>
    if conflict p.id d.id then none
    else if d.id = p.id then some (p :: ds)
    else match d.setLonghand len p with
      | some d' => some (d' :: ds)
      | none => (setRev len p ds).map (d :: ·)

/-- src/declaration.rs:366-397: update in place or push. -/
def setList (len : V → Nat) (p : Decl V) (ds : List (Decl V)) : List (Decl V) :=
  match setRev len p ds.reverse with
  | some r => r.reverse
  | none => ds ++ [p]

/-- src/declaration.rs:352-398 `set`. -/
def Block.set (len : V → Nat) (b : Block V) (p : Decl V) (important : Bool) : Block V :=
  if important then
    { decls := b.decls.filter fun d => d.id ≠ p.id, imps := setList len p b.imps }
  else
    { decls := setList len p b.decls, imps := b.imps.filter fun d => d.id ≠ p.id }

/-- What happens to one declaration in `remove` (src/declaration.rs:410-437): `some ps` when it is replaced by `ps`
(nothing when it is removed), `none` when it is kept. -/
def replacement (q : Id) (d : Decl V) : Option (List (Decl V)) :=
  let longhands := q.longhands.getD []
  if d.id = q ∨ d.id ∈ longhands then some []
  else if longhands.isEmpty ∧ q ∈ d.id.longhands.getD [] then
    some ((d.id.longhands.getD []).filterMap fun l => if l = q then none else d.longhand l)
  else none

/-- src/declaration.rs:408-450, the loop with an index into the changing list. -/
def removeLoop (q : Id) (ds : List (Decl V)) (i : Nat) : List (Decl V) :=
  if h : i < ds.length then
    match replacement q ds[i] with
    | some ps => removeLoop q (ds.take i ++ ps ++ ds.drop (i + 1)) (i + ps.length)
    | none => removeLoop q ds (i + 1)
  else ds
termination_by ds.length - i
decreasing_by
  · simp only [List.length_append, List.length_take, List.length_drop]; omega
  · omega

/-- src/declaration.rs:405-456 `remove`. -/
def Block.remove (b : Block V) (q : Id) : Block V := ⟨removeLoop q b.decls 0, removeLoop q b.imps 0⟩

end Verif.Declarations
