import Verif.Flex.Model
/-!
# `AlignHandler` (`/repo/src/properties/align.rs:847-1183`)

Values are an opaque type `V`; sets of prefixes are those of `Verif.Flex`. The values of the older drafts are tables at the end.
-/
namespace Verif.Align
open Verif.Flex (Vp)

/-- The standard longhands. The first four can have prefixes. -/
inductive Long
  | alignContent | justifyContent | alignSelf | alignItems | justifySelf | justifyItems | rowGap | columnGap
deriving DecidableEq

/-- The properties that can be written with prefixes (src/properties/mod.rs, `VendorPrefix`). -/
def Long.prefixed : Long → Bool
  | .alignContent | .justifyContent | .alignSelf | .alignItems => true
  | _ => false

/-- The properties of the drafts of 2009 (`box-*`) and 2012 (`flex-*`). -/
inductive Leg
  | linePack | boxPack | flexPack | itemAlign | boxAlign | flexAlign
deriving DecidableEq

/-- `place-content`, `place-self` and `place-items`. -/
inductive Place
  | content | self | items
deriving DecidableEq

/-- The first longhand of a shorthand. -/
def Place.align : Place → Long
  | .content => .alignContent
  | .self => .alignSelf
  | .items => .alignItems

/-- The second longhand of a shorthand. -/
def Place.justify : Place → Long
  | .content => .justifyContent
  | .self => .justifySelf
  | .items => .justifyItems

/-- What the handler holds values for. -/
inductive Key
  | std (p : Long) | leg (q : Leg)
deriving DecidableEq

/-- The names of unparsed declarations. -/
inductive Id
  | key (k : Key) | place (k : Place) | gap
deriving DecidableEq

/-- The declarations; `raw` is `Unparsed`. Properties that have no prefixes have `Vp.plain`. -/
inductive Decl (V : Type)
  | one (k : Key) (v : V) (vp : Vp)
  | place (k : Place) (a j : V)
  | gap (r c : V)
  | raw (id : Id) (vp : Vp) (u : Nat)
deriving DecidableEq

/-- What the handler asks: whether there are browsers, `is_flex_2009`, `targets.prefixes`, `targets.is_compatible` for `place-*`, and `from_standard`. -/
structure Env (V : Type) where
  browsers : Bool
  is2009 : Bool
  prefixes : Long → Vp → Vp
  place : Place → Bool
  conv : Leg → V → Option V

/-- `AlignHandler` (src/properties/align.rs:847-864). Properties without prefixes, which the code holds without, are held with `Vp.plain`: with it,
`property!` does the same as setting them and `has_any`. -/
structure Handler (V : Type) where
  slot : Key → Option (V × Vp) := fun _ => none
  any : Bool := false

section
variable {V : Type}

/-- `prefixes!` (src/properties/align.rs:1008-1016). -/
def stdPrefixes (env : Env V) (p : Long) : Vp := ((env.prefixes p Vp.plain).remove Vp.mozOnly).remove Vp.msOnly

/-- `prefixed_property!` for what the source has for the older drafts (src/properties/align.rs:1071-1077). -/
def legOut (q : Leg) : Option (V × Vp) → List (Decl V)
  | none => []
  | some (v, vp) => [.one (.leg q) v vp]

/-- The properties of the source (src/properties/align.rs:1129-1137). -/
def legs (h : Handler V) : List (Decl V) :=
  [Leg.boxAlign, .boxPack, .flexPack, .flexAlign, .itemAlign, .linePack].flatMap fun q => legOut q (h.slot (.leg q))

/-- The prefixes for the property of 2009 (src/properties/align.rs:1041-1048). -/
def prefixes2009 (env : Env V) (p : Vp) : Vp := ⟨false, env.is2009, p.moz, false⟩

/-- `legacy_property!` (src/properties/align.rs:1032-1069). -/
def legacy (env : Env V) (p : Long) (leg2009 : Option Leg) (leg2012 : Leg) : Option (V × Vp) → List (Decl V)
  | none => []
  | some (v, vp) =>
    let prefixes := env.prefixes p vp
    (match leg2009 with
      | some q => if prefixes.none && env.browsers && !(prefixes2009 env prefixes).isEmpty then
          match env.conv q v with
          | some w => [.one (.leg q) w (prefixes2009 env prefixes)]
          | none => []
        else []
      | none => []) ++
    (if prefixes.ms then match env.conv leg2012 v with
      | some w => [.one (.leg leg2012) w Vp.msOnly]
      | none => []
    else [])

/-- `standard_property!`, and `unprefixed_property!` for properties without prefixes (src/properties/align.rs:1018-1030, 1079-1085). -/
def stdOut (env : Env V) (p : Long) : Option (V × Vp) → List (Decl V)
  | none => []
  | some (v, vp) => [.one (.std p) v (if p.prefixed && vp.none then stdPrefixes env p else vp)]

/-- A prefixed longhand before a shorthand (src/properties/align.rs:1098-1115). -/
def before (env : Env V) (p : Long) (v : V) : List (Decl V) :=
  if p.prefixed then
    if ((stdPrefixes env p).remove Vp.plain).isEmpty then [] else [.one (.std p) v ((stdPrefixes env p).remove Vp.plain)]
  else []

/-- A shorthand or its longhands: `shorthand!` if the targets have it, and then `standard_property!` for what is left
(src/properties/align.rs:1087-1127, 1141-1151, 1154-1158, 1161-1165). -/
def group (env : Env V) (k : Place) (h : Handler V) : List (Decl V) :=
  let longhands := stdOut env k.align (h.slot (.std k.align)) ++ stdOut env k.justify (h.slot (.std k.justify))
  match h.slot (.std k.align), h.slot (.std k.justify) with
  | some (a, avp), some (j, jvp) =>
    if env.place k && (avp.and jvp).none then before env k.align a ++ before env k.justify j ++ [.place k a j] else longhands
  | _, _ => longhands

/-- `gap` and its longhands (src/properties/align.rs:1167-1180). -/
def gapOut (h : Handler V) : List (Decl V) := match h.slot (.std .rowGap), h.slot (.std .columnGap) with
  | some r, some c => [.gap r.1 c.1]
  | some r, none => [.one (.std .rowGap) r.1 Vp.plain]
  | none, some c => [.one (.std .columnGap) c.1 Vp.plain]
  | none, none => []

/-- What `flush` writes (src/properties/align.rs:985-1181). -/
def flushOut (env : Env V) (h : Handler V) : List (Decl V) :=
  legs h ++
  legacy env .alignContent none .linePack (h.slot (.std .alignContent)) ++
  legacy env .justifyContent (some .boxPack) .flexPack (h.slot (.std .justifyContent)) ++
  group env .content h ++
  legacy env .alignSelf none .itemAlign (h.slot (.std .alignSelf)) ++
  group env .self h ++
  legacy env .alignItems (some .boxAlign) .flexAlign (h.slot (.std .alignItems)) ++
  group env .items h ++
  gapOut h

/-- `AlignHandler::flush` (src/properties/align.rs:985-1181). -/
def flush (env : Env V) (s : Handler V × List (Decl V)) : Handler V × List (Decl V) :=
  if s.1.any then ({}, s.2 ++ flushOut env s.1) else s

/-- What a standard property clears (src/properties/align.rs:903-951). -/
def clears : Long → Leg → Bool
  | .alignContent, .linePack | .justifyContent, .boxPack | .justifyContent, .flexPack | .alignSelf, .itemAlign | .alignItems, .boxAlign | .alignItems, .flexAlign => true
  | _, _ => false

/-- Clearing. -/
def clear (s : Handler V × List (Decl V)) (c : Leg → Bool) : Handler V × List (Decl V) :=
  ({ s.1 with slot := fun k => match k with
    | .leg q => if c q then none else s.1.slot (.leg q)
    | .std p => s.1.slot (.std p) }, s.2)

variable [DecidableEq V]

/-- `maybe_flush!` (src/properties/align.rs:876-886). -/
def maybeFlush (env : Env V) (s : Handler V × List (Decl V)) (k : Key) (v : V) (vp : Vp) : Handler V × List (Decl V) := match s.1.slot k with
  | some (w, have') => if w ≠ v ∧ have'.contains vp = false then flush env s else s
  | none => s

omit [DecidableEq V] in
/-- The value with its prefixes after a declaration (src/properties/align.rs:893-899). -/
def merged (o : Option (V × Vp)) (v : V) (vp : Vp) : V × Vp := match o with
  | some (_, have') => (v, have'.or vp)
  | none => (v, vp)

/-- `property!` (src/properties/align.rs:888-900). -/
def property (env : Env V) (s : Handler V × List (Decl V)) (k : Key) (v : V) (vp : Vp) : Handler V × List (Decl V) :=
  let s := maybeFlush env s k v vp
  ({ slot := fun k' => if k' = k then some (merged (s.1.slot k) v vp) else s.1.slot k', any := s.1.any || (s.1.slot k).isNone }, s.2)

/-- `AlignHandler::handle_property` (src/properties/align.rs:868-977). -/
def handle (env : Env V) (s : Handler V × List (Decl V)) : Decl V → Handler V × List (Decl V)
  | .one (.std p) v vp => property env (clear s (clears p)) (.std p) v vp
  | .one (.leg q) v vp => property env s (.leg q) v vp
  | .place k a j =>
    let s := clear s fun q => clears k.align q || clears k.justify q
    let s := maybeFlush env s (.std k.align) a Vp.plain
    let s := maybeFlush env s (.std k.justify) j Vp.plain
    property env (property env s (.std k.align) a Vp.plain) (.std k.justify) j Vp.plain
  | .gap r c => property env (property env s (.std .rowGap) r Vp.plain) (.std .columnGap) c Vp.plain
  | .raw id vp u => let s := flush env s; (s.1, s.2 ++ [.raw id vp u])

/-- The handler over the declarations of a block, with `finalize` (src/properties/align.rs:979-981). -/
def run (env : Env V) (ds : List (Decl V)) : List (Decl V) := (flush env (ds.foldl (handle env) ({}, []))).2

end

/-! ### The values of the older drafts -/

/-- The values of `align-content`, `justify-content`, `align-self` and `align-items` that `from_standard` looks at; `unsafeOr` is a position with
`safe` or `unsafe`, and `other` anything else (src/properties/align.rs:124-345). -/
inductive Val
  | auto | normal | stretch | spaceBetween | spaceAround | spaceEvenly | baseline | lastBaseline
  | start | flexStart | «end» | flexEnd | center | left | right | selfStart | selfEnd | unsafeOr | other
deriving DecidableEq

/-- The values of the older drafts (src/properties/flex.rs:268-283, 300-313, 362-377, 400-417, 435-452). -/
inductive Old
  | auto | start | «end» | center | baseline | stretch | justify | distribute
deriving DecidableEq

/-- `BoxAlign::from_standard`, also for `FlexAlign` (src/properties/flex.rs:285-298, 398). -/
def toBoxAlign : Val → Option Old
  | .start | .flexStart => some .start
  | .end | .flexEnd => some .end
  | .center => some .center
  | .stretch => some .stretch
  | _ => none

/-- `BoxPack::from_standard` (src/properties/flex.rs:315-330). -/
def toBoxPack : Val → Option Old
  | .spaceBetween => some .justify
  | .start | .flexStart => some .start
  | .end | .flexEnd => some .end
  | .center => some .center
  | _ => none

/-- `FlexPack::from_standard` (src/properties/flex.rs:379-395). -/
def toFlexPack : Val → Option Old
  | .spaceBetween => some .justify
  | .spaceAround => some .distribute
  | .start | .flexStart => some .start
  | .end | .flexEnd => some .end
  | .center => some .center
  | _ => none

/-- `FlexItemAlign::from_standard` (src/properties/flex.rs:419-433). -/
def toItemAlign : Val → Option Old
  | .auto => some .auto
  | .stretch => some .stretch
  | .start | .flexStart => some .start
  | .end | .flexEnd => some .end
  | .center => some .center
  | _ => none

/-- `FlexLinePack::from_standard` (src/properties/flex.rs:454-470). -/
def toLinePack : Val → Option Old
  | .spaceBetween => some .justify
  | .spaceAround => some .distribute
  | .stretch => some .stretch
  | .start | .flexStart => some .start
  | .end | .flexEnd => some .end
  | .center => some .center
  | _ => none

/-- All of them. -/
def convert : Leg → Val → Option Old
  | .boxAlign | .flexAlign => toBoxAlign
  | .boxPack => toBoxPack
  | .flexPack => toFlexPack
  | .itemAlign => toItemAlign
  | .linePack => toLinePack

end Verif.Align
