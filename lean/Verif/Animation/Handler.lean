import Verif.Targets.Model
import Verif.Transition.Model
/-!
# The handler of the animation properties (`/repo/src/properties/animation.rs:720-1095`)

The values of the eight longhands with vendor prefixes are an opaque type `V`, timelines `W` (with the value `auto`), ends of ranges `R`.
-/
namespace Verif.Animation.Hd
open Verif.Targets
open Verif.Transition (contains inter remove orNone)

/-- The longhands that take vendor prefixes. -/
inductive Field
  | name | duration | timing | iteration | direction | play | delay | fill
deriving DecidableEq

/-- The order in which the handler goes through them. -/
def order : List Field := [.name, .duration, .timing, .iteration, .direction, .play, .delay, .fill]

/-- `Feature::$property`. -/
def Field.feature : Field → PrefixFeature
  | .name => .animationName | .duration => .animationDuration | .timing => .animationTimingFunction | .iteration => .animationIterationCount
  | .direction => .animationDirection | .play => .animationPlayState | .delay => .animationDelay | .fill => .animationFillMode

/-- One item of the `animation` shorthand (src/properties/animation.rs:583-610). -/
structure Row (V W : Type) where
  f : Field → V
  tl : W

/-- The property of an unparsed declaration (`is_animation_property`, src/properties/animation.rs:1076-1096). -/
inductive UId
  | animation | lh (k : Field) | timeline | range | rangeStart | rangeEnd | composition

/-- A declaration that the handler sees or writes. -/
inductive Decl (V W R : Type)
  | lh (k : Field) (val : List V) (p : PrefixSet)
  | timeline (val : List W)
  | rangeStart (val : List R)
  | rangeEnd (val : List R)
  | range (val : List (R × R))
  | composition (val : Str)
  | animation (val : List (Row V W)) (p : PrefixSet)
  | unparsed (id : UId) (text : Str) (p : PrefixSet)

/-- `AnimationHandler` (src/properties/animation.rs:722-735) without `has_any`: it is true if one of the fields is set, and if none is, `flush` does nothing. -/
structure Handler (V W R : Type) where
  f : Field → Option (List V × PrefixSet) := fun _ => none
  tl : Option (List W) := none
  rs : Option (List R) := none
  re : Option (List R) := none

/-- The context: the targets, and the value `auto` of `animation-timeline`. -/
structure Env (W : Type) where
  targets : Targets
  auto : W

section
variable {V W R : Type} [Inhabited V]

/-- `izip!` over the nine lists (src/properties/animation.rs:965-1004). -/
def zipRows : List W → (Field → List V) → List (Row V W)
  | [], _ => []
  | t :: ts, cols =>
    if order.all fun k => !(cols k).isEmpty then ⟨fun k => (cols k).headD default, t⟩ :: zipRows ts (fun k => (cols k).tail) else []

/-- The intersection of the prefixes (src/properties/animation.rs:927-934). -/
def interAll (p : Field → PrefixSet) : PrefixSet :=
  inter (inter (inter (inter (inter (inter (inter (p .name) (p .duration)) (p .timing)) (p .iteration)) (p .direction)) (p .play)) (p .delay)) (p .fill)

/-- The macro `prop!` (src/properties/animation.rs:1024-1033). -/
def pushRest (env : Env W) (f : Field → Option (List V × PrefixSet)) (k : Field) : List (Decl V W R) :=
  match f k with
  | some (v, p) => if p = .empty then [] else [.lh k v (env.targets.prefixes p k.feature)]
  | none => []

/-- The timeline, if it is still held (src/properties/animation.rs:1044-1046). -/
def pushTl (tl : Option (List W)) : List (Decl V W R) :=
  match tl with
  | some t => [.timeline t]
  | none => []

/-- The ranges (src/properties/animation.rs:1048-1071). -/
def pushRanges (rs re : Option (List R)) : List (Decl V W R) :=
  match rs, re with
  | some s, some e => if s.length = e.length then [.range (s.zip e)] else [.rangeStart s, .rangeEnd e]
  | some s, none => [.rangeStart s]
  | none, some e => [.rangeEnd e]
  | none, none => []

/-- The timelines for the shorthand (src/properties/animation.rs:935-942). -/
def timelines (env : Env W) (tl : Option (List W)) (i : PrefixSet) (len : Nat) : List W :=
  match tl with
  | some t => t
  | none => if i.none then [] else List.replicate len env.auto

variable [DecidableEq W]

/-- Whether the timeline gets its own declaration (src/properties/animation.rs:954-963). -/
def separate (env : Env W) (t : List W) (i : PrefixSet) : Bool :=
  t.any (· ≠ env.auto) && (i ≠ Prefix.none.set || !env.targets.isCompatible .animationTimelineShorthand)

/-- The shorthand, if all eight longhands are there with a common prefix and the same number of items (src/properties/animation.rs:908-1021): its declarations. Afterwards the lists are empty (`drain`) and the prefixes are removed. -/
def shorthand (env : Env W) (h : Handler V W R) : Option (List (Decl V W R) × PrefixSet) :=
  if order.all fun k => (h.f k).isSome then
    let cols := fun k => ((h.f k).getD ([], .empty)).1
    let i := interAll fun k => ((h.f k).getD ([], .empty)).2
    let len := (cols .name).length
    let t := timelines env h.tl i len
    if i ≠ .empty ∧ (order.all fun k => (cols k).length = len) ∧ t.length = len then
      let sep := separate env t i
      let rows := (zipRows t cols).map fun r => { r with tl := if sep then env.auto else r.tl }
      some (.animation rows (env.targets.prefixes i .animation) :: (if sep then [.timeline t] else []), i)
    else none
  else none

/-- `flush` (src/properties/animation.rs:887-1073). -/
def flush (env : Env W) (h : Handler V W R) : List (Decl V W R) :=
  match shorthand env h with
  | some (ds, i) => ds ++ order.flatMap (pushRest env fun k => (h.f k).map fun x => ([], remove x.2 i)) ++ pushRanges h.rs h.re
  | none => order.flatMap (pushRest env h.f) ++ pushTl h.tl ++ pushRanges h.rs h.re

variable [DecidableEq V]

/-- The condition of `maybe_flush!` (src/properties/animation.rs:745-755). -/
def conflict (h : Handler V W R) (k : Field) (val : List V) (vp : PrefixSet) : Bool :=
  match h.f k with
  | some (v, p) => v ≠ val && !contains p vp
  | none => false

/-- `maybe_flush!`. -/
def maybeFlush (env : Env W) (s : Handler V W R × List (Decl V W R)) (k : Field) (val : List V) (vp : PrefixSet) : Handler V W R × List (Decl V W R) :=
  if conflict s.1 k val vp then ({}, s.2 ++ flush env s.1) else s

/-- The second half of `property!` (src/properties/animation.rs:761-768). -/
def update (h : Handler V W R) (k : Field) (val : List V) (vp : PrefixSet) : Handler V W R :=
  { h with f := fun j => if j = k then (match h.f k with
      | some (_, p) => some (val, p.union vp)
      | none => some (val, vp)) else h.f j }

/-- `handle_property` (src/properties/animation.rs:739-878). `animation-composition` is not handled: the caller pushes it. -/
def handle (env : Env W) (s : Handler V W R × List (Decl V W R)) : Decl V W R → Handler V W R × List (Decl V W R)
  | .lh k val vp =>
    let s := maybeFlush env s k val vp
    (update s.1 k val vp, s.2)
  | .timeline val => ({ s.1 with tl := some val }, s.2)
  | .rangeStart val => ({ s.1 with rs := some val }, s.2)
  | .rangeEnd val => ({ s.1 with re := some val }, s.2)
  | .range val => ({ s.1 with rs := some (val.map (·.1)), re := some (val.map (·.2)) }, s.2)
  | .composition val => (s.1, s.2 ++ [.composition val])
  | .animation val vp =>
    let col := fun k => val.map (·.f k)
    let s := order.foldl (fun s k => maybeFlush env s k (col k) vp) s
    -- 823-832; the `maybe_flush!` inside of `property!` finds no conflict any more
    let h := order.foldl (fun h k => update h k (col k) vp) { s.1 with tl := some (val.map (·.tl)) }
    ({ h with rs := none, re := none }, s.2)
  | .unparsed id text p =>
    let h := match id with
      | .animation => { s.1 with rs := none, re := none }
      | _ => s.1
    ({}, s.2 ++ flush env h ++ [.unparsed id text (env.targets.prefixes (orNone p) .animation)])

/-- The handler over the declarations of a block, with `finalize` (src/declaration.rs:238-264). -/
def run (env : Env W) (ds : List (Decl V W R)) : List (Decl V W R) :=
  let s := ds.foldl (handle env) ({}, [])
  s.2 ++ flush env s.1

end
end Verif.Animation.Hd

/-! # What a browser makes of the declarations -/
namespace Verif.Animation.Hd.Spec
open Verif.Targets Verif.Animation.Hd

/-- A computed value: the initial value, a list, or a text that is resolved later. -/
inductive Value (A : Type)
  | initial
  | list (l : List A)
  | raw (shorthand : Bool) (text : Str)
deriving DecidableEq

/-- The computed values of the longhands of `animation`. -/
structure Computed (V W R : Type) where
  f : Field → Value V
  tl : Value W
  rs : Value R
  re : Value R
  comp : Value Str

/-- A browser: the vendor prefixes of the animation properties that it knows. A prefixed property is another name of the unprefixed one. -/
structure Agent where
  knows : Prefix → Bool

/-- The declaration is written with a prefix that the browser knows. -/
def Agent.takes (b : Agent) (p : PrefixSet) : Bool :=
  (p.none && b.knows .none) || (p.webkit && b.knows .webkit) || (p.moz && b.knows .moz) || (p.ms && b.knows .ms) || (p.o && b.knows .o)

variable {V W R : Type}

/-- The effect of a declaration. A declaration with an empty value is invalid and ignored. The shorthand sets the ranges and the composition to their initial values (css-animations-2, section 3; scroll-animations-1, section 4.3). -/
def apply (b : Agent) (c : Computed V W R) : Decl V W R → Computed V W R
  | .lh k v p => if b.takes p ∧ v ≠ [] then { c with f := fun j => if j = k then .list v else c.f j } else c
  | .timeline v => if v ≠ [] then { c with tl := .list v } else c
  | .rangeStart v => if v ≠ [] then { c with rs := .list v } else c
  | .rangeEnd v => if v ≠ [] then { c with re := .list v } else c
  | .range v => if v ≠ [] then { c with rs := .list (v.map (·.1)), re := .list (v.map (·.2)) } else c
  | .composition v => { c with comp := .list [v] }
  | .animation v p =>
    if b.takes p ∧ v ≠ [] then
      { f := fun k => .list (v.map (·.f k)), tl := .list (v.map (·.tl)), rs := .initial, re := .initial, comp := .initial }
    else c
  | .unparsed id t p => match id with
    | .animation => if b.takes p then ⟨fun _ => .raw true t, .raw true t, .raw true t, .raw true t, .raw true t⟩ else c
    | .lh k => if b.takes p then { c with f := fun j => if j = k then .raw false t else c.f j } else c
    | .timeline => { c with tl := .raw false t }
    | .range => { c with rs := .raw true t, re := .raw true t }
    | .rangeStart => { c with rs := .raw false t }
    | .rangeEnd => { c with re := .raw false t }
    | .composition => { c with comp := .raw false t }

/-- The computed values after a list of declarations, when other rules give `c`. -/
def computed (b : Agent) (c : Computed V W R) (ds : List (Decl V W R)) : Computed V W R := ds.foldl (apply b) c

end Verif.Animation.Hd.Spec
