import Verif.Align.Model
/-!
# What browsers make of alignment declarations

A browser reads a declaration if it knows the property under one of the written prefixes; the last declaration it reads decides. This file uses the declarations of the model only.
-/
namespace Verif.Align
open Verif.Flex (Vp)
variable {V : Type}

/-- The value of a property: as before the block, a value, or that of a declaration with `var()`. -/
inductive Value (V : Type)
  | before
  | val (v : V)
  | raw (u : Nat)
deriving DecidableEq

/-- A browser: the prefixes with which it knows properties, the shorthands `place-*` it has, and whether it has `gap`. -/
structure Browser where
  known : Vp
  place : Place → Bool
  gap : Bool

/-- One of the written prefixes is known. -/
def meets (known vp : Vp) : Bool := (known.none && vp.none) || (known.webkit && vp.webkit) || (known.moz && vp.moz) || (known.ms && vp.ms)

/-- What a declaration says for a property, apart from prefixes. -/
def says (k : Key) : Decl V → Option (Value V)
  | .one k' v _ => if k' = k then some (.val v) else none
  | .place p a j => if k = .std p.align then some (.val a) else if k = .std p.justify then some (.val j) else none
  | .gap r c => if k = .std .rowGap then some (.val r) else if k = .std .columnGap then some (.val c) else none
  | .raw (.key k') _ u => if k' = k then some (.raw u) else none
  | .raw (.place p) _ u => if k = .std p.align ∨ k = .std p.justify then some (.raw u) else none
  | .raw .gap _ u => if k = .std .rowGap ∨ k = .std .columnGap then some (.raw u) else none

/-- The browser has the property of the declaration. -/
def Browser.has (b : Browser) : Decl V → Bool
  | .one _ _ vp => meets b.known vp
  | .place p _ _ => b.place p
  | .gap _ _ => b.gap
  | .raw (.key _) vp _ => meets b.known vp
  | .raw (.place p) _ _ => b.place p
  | .raw .gap _ _ => b.gap

/-- What the browser reads. -/
def Browser.reads (b : Browser) (k : Key) (d : Decl V) : Option (Value V) := if b.has d then says k d else none

/-- The last declaration that is read decides. -/
def final (reads : Decl V → Option (Value V)) : List (Decl V) → Value V → Value V
  | [], s => s
  | d :: ds, s => final reads ds ((reads d).getD s)

/-- No declaration for a property that the browser does not have follows one that it reads: "prefixed first". -/
def PrefixedFirst (b : Browser) (k : Key) (ds : List (Decl V)) : Prop :=
  ds.Pairwise fun d e => (b.reads k d).isSome → (says k e).isSome → (b.reads k e).isSome

/-- The shorthands in the block are known to the browser. -/
def Shorthands (b : Browser) (ds : List (Decl V)) : Prop := ∀ k a j, .place k a j ∈ ds → b.place k = true

/-- What `targets.prefixes` gives: nothing is added to prefixed properties, and the unprefixed property stays. -/
structure Prefixes (env : Env V) : Prop where
  plain : ∀ p vp, vp.none = true → (env.prefixes p vp).none = true
  other : ∀ p vp, vp.none = false → env.prefixes p vp = vp

/-- The standard property that a property of an older draft stands for. -/
def standard : Leg → Long
  | .linePack => .alignContent
  | .boxPack | .flexPack => .justifyContent
  | .itemAlign => .alignSelf
  | .boxAlign | .flexAlign => .alignItems

/-- A property of the draft of 2009. -/
def of2009 : Leg → Bool
  | .boxPack | .boxAlign => true
  | _ => false

/-- The targets ask for a property of an older draft that the browser has: for 2009 with `-webkit-` or `-moz-`, for 2012 with `-ms-`. -/
def Asks (env : Env V) (b : Browser) (q : Leg) : Prop :=
  if of2009 q then env.browsers = true ∧ (env.is2009 = true ∧ b.known.webkit = true ∨ (env.prefixes (standard q) Vp.plain).moz = true ∧ b.known.moz = true)
  else (env.prefixes (standard q) Vp.plain).ms = true ∧ b.known.ms = true

/-- Properties without prefixes are written without. -/
def WellFormed : Decl V → Prop
  | .one (.std p) _ vp => p.prefixed = true ∨ vp = Vp.plain
  | _ => True

/-- An unprefixed declaration of standard properties with a value. -/
def Plain : Decl V → Prop
  | .one (.std _) _ vp => vp = Vp.plain
  | .one (.leg _) _ _ => False
  | .raw _ _ _ => False
  | _ => True

/-- A browser that has everything without prefixes, and nothing else. -/
def modern : Browser := ⟨Vp.plain, fun _ => true, true⟩

/-- What a value of a standard property is in an older draft. -/
def Value.convert (f : V → Option V) : Value V → Value V
  | .val v => match f v with
    | some w => .val w
    | none => .before
  | _ => .before

/-! ### Values of the older drafts -/

/-- Where items, or lines, are put in a container that is neither reversed nor wraps in reverse. -/
inductive Layout
  | auto | start | «end» | center | baseline | stretch | between | around
deriving DecidableEq

/-- The layout of a value of today; none if the older drafts have no such layout, or it depends on more. -/
def Val.layout : Val → Option Layout
  | .auto => some .auto
  | .start | .flexStart => some .start
  | .end | .flexEnd => some .end
  | .center => some .center
  | .baseline => some .baseline
  | .stretch => some .stretch
  | .spaceBetween => some .between
  | .spaceAround => some .around
  | _ => none

/-- The layout of a value of the older drafts. -/
def Old.layout : Old → Layout
  | .auto => .auto
  | .start => .start
  | .end => .end
  | .center => .center
  | .baseline => .baseline
  | .stretch => .stretch
  | .justify => .between
  | .distribute => .around

/-- The values that the properties of the older drafts can have (css-flexbox of 2009 and of 2012). -/
def Leg.has : Leg → List Old
  | .boxAlign => [.start, .end, .center, .baseline, .stretch]
  | .flexAlign => [.start, .end, .center, .baseline, .stretch]
  | .boxPack => [.start, .end, .center, .justify]
  | .flexPack => [.start, .end, .center, .justify, .distribute]
  | .itemAlign => [.auto, .start, .end, .center, .baseline, .stretch]
  | .linePack => [.start, .end, .center, .justify, .distribute, .stretch]

end Verif.Align
