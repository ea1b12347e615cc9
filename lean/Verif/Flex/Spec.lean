import Verif.Flex.Model
/-!
# What browsers make of flexbox declarations

A browser reads a declaration if it knows the property under one of the written prefixes; the last declaration it reads decides. Modern browsers know the unprefixed properties, and some of them `-webkit-` as an alias; browsers of the draft of 2009 know `box-*` with a prefix; Internet Explorer 10 (draft of 2012) knows `-ms-flex-*`. This file uses the declarations of the model only.
-/
namespace Verif.Flex
namespace Spec
variable {V : Type}

/-- The value of a property: as before the block, a value, or that of a declaration with `var()`. -/
inductive Value (V : Type)
  | before
  | val (v : V)
  | raw (u : Nat)
deriving DecidableEq

/-- The last declaration that is read decides. -/
def final (reads : Decl V → Option (Value V)) : List (Decl V) → Value V → Value V
  | [], s => s
  | d :: ds, s => final reads ds ((reads d).getD s)

/-- One of the written prefixes is known. -/
def meets (known vp : Vp) : Bool := (known.none && vp.none) || (known.webkit && vp.webkit) || (known.moz && vp.moz) || (known.ms && vp.ms)

/-- The value that a declaration has for a standard longhand, apart from prefixes. -/
def valueFor (p : Std) : Decl V → Option (Value V × Vp)
  | .std q v vp => if q = p then some (.val v, vp) else none
  | .flow d w vp => match p with
    | .direction => some (.val d, vp)
    | .wrap => some (.val w, vp)
    | _ => none
  | .flex g s b vp => match p with
    | .grow => some (.val g, vp)
    | .shrink => some (.val s, vp)
    | .basis => some (.val b, vp)
    | _ => none
  | .raw (.std q) vp u => if q = p then some (.raw u, vp) else none
  | .raw .flow vp u => if p = .direction ∨ p = .wrap then some (.raw u, vp) else none
  | .raw .flex vp u => if p = .grow ∨ p = .shrink ∨ p = .basis then some (.raw u, vp) else none
  | .leg _ _ _ => none
  | .rawLeg _ _ _ => none

/-- A browser that knows the standard properties, with some prefixes as aliases. -/
def modern (known : Vp) (p : Std) (d : Decl V) : Option (Value V) := match valueFor p d with
  | some (v, vp) => if meets known vp then some v else none
  | none => none

/-- A modern browser, with or without `-webkit-` as an alias. -/
def browser (alias : Bool) : Vp := ⟨true, alias, false, false⟩

/-- A browser of 2009 that knows `box-*` with a prefix. -/
def old (known : Vp) (q : Leg) : Decl V → Option (Value V)
  | .leg r v vp => if r = q ∧ meets known vp then some (.val v) else none
  | .rawLeg r vp u => if r = q ∧ meets known vp then some (.raw u) else none
  | _ => none

/-- The names of the longhands of 2012. -/
def name2012 : Std → Option Leg
  | .grow => some .positive
  | .shrink => some .negative
  | .basis => some .preferred
  | .order => some .flexOrder
  | _ => none

/-- Internet Explorer 10: `-ms-flex-direction`, `-ms-flex-wrap`, `-ms-flex-flow`, `-ms-flex`, and other names for the longhands of `flex` and for `order`. -/
def ie10 (p : Std) : Decl V → Option (Value V)
  | .std q v vp => if q = p ∧ name2012 p = none ∧ vp.ms then some (.val v) else none
  | .flow d w vp => if vp.ms then (match p with
    | .direction => some (.val d)
    | .wrap => some (.val w)
    | _ => none) else none
  | .flex g s b vp => if vp.ms then (match p with
    | .grow => some (.val g)
    | .shrink => some (.val s)
    | .basis => some (.val b)
    | _ => none) else none
  | .leg q v vp => if name2012 p = some q ∧ vp.ms then some (.val v) else none
  | _ => none

/-- A browser of 2009 with `-webkit-`. -/
def webkit2009 : Vp := ⟨false, true, false, false⟩

/-- A browser of 2009 with `-moz-`. -/
def moz2009 : Vp := ⟨false, false, true, false⟩

/-- The value for another property. -/
def Value.map (f : V → V) : Value V → Value V
  | .before => .before
  | .val v => .val (f v)
  | .raw u => .raw u

/-- No declaration of a longhand with unknown prefixes follows one that is read: "prefixed first". -/
def PrefixedFirst (known : Vp) (p : Std) (ds : List (Decl V)) : Prop :=
  ds.Pairwise fun d e => (modern known p d).isSome → (valueFor p e).isSome → (modern known p e).isSome

/-- What `targets.prefixes` gives: nothing is added to prefixed properties, and the unprefixed property stays. -/
structure Prefixes (env : Env V) : Prop where
  plain : ∀ f vp, vp.none = true → (env.prefixes f vp).none = true
  other : ∀ f vp, vp.none = false → env.prefixes f vp = vp

/-- An unprefixed declaration of a standard property with a value. -/
def Plain : Decl V → Prop
  | .std _ _ vp => vp = Vp.plain
  | .flow _ _ vp => vp = Vp.plain
  | .flex _ _ _ vp => vp = Vp.plain
  | _ => False

end Spec
end Verif.Flex
