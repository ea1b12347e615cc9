import Verif.Targets.Model
import Verif.Transition.Model
/-!
# The radii of borders (`/repo/src/properties/border_radius.rs`, handler)

A radius (`Size2D<LengthPercentage>`) is an opaque type `V`; which browsers support one is a parameter. The shorthand's text is the area Sides.
-/
namespace Verif.Radius
open Verif.Targets
open Verif.Transition (orNone contains inter remove)

/-- The physical corners. -/
inductive Corner
  | tl | tr | br | bl
deriving DecidableEq
/-- The logical corners. -/
inductive LCorner
  | ss | se | ee | es
deriving DecidableEq

/-- A parsed value or the text of an unparsed one. -/
inductive Val (V : Type)
  | val (v : V)
  | raw (text : Str)
deriving DecidableEq

/-- The properties; `border-radius` has the values of the four corners in the order of `BorderRadius` (src/properties/border_radius.rs:24-33). Unparsed declarations have a text. -/
inductive Decl (V : Type)
  | corner (c : Corner) (v : Val V) (p : PrefixSet)
  | radius (tl tr br bl : V) (p : PrefixSet)
  | rawRadius (text : Str) (p : PrefixSet)
  | logical (c : LCorner) (v : Val V)
deriving DecidableEq

/-- What the handler sees of its context. -/
structure Env (V : Type) where
  targets : Targets
  styleAttribute : Bool
  compat : V → Browsers → Bool

section
variable {V : Type}

/-- `PropertyHandlerContext::should_compile_logical(LogicalBorderRadius)` (src/context.rs:74-82). -/
def Env.compile (env : Env V) : Bool :=
  if env.styleAttribute then false else env.targets.shouldCompileLogical .logicalBorderRadius

/-- `BorderRadiusHandler` (src/properties/border_radius.rs:92-104). The flag `physical` is the category. -/
structure Handler (V : Type) where
  phys : Corner → Option (V × PrefixSet)
  log : LCorner → Option (Val V)
  physical : Bool
  hasAny : Bool

/-- The declarations written: in the block, and in the rules for both directions. -/
structure Out (V : Type) where
  dest : List (Decl V) := []
  ltr : List (Decl V) := []
  rtl : List (Decl V) := []
deriving DecidableEq

/-- Setting a field. -/
def put {A B : Type} [DecidableEq A] (f : A → B) (a : A) (x : B) : A → B := fun y => if y = a then x else f y

/-- The prefix features of the corners. -/
def Corner.feature : Corner → PrefixFeature
  | .tl => .borderTopLeftRadius
  | .tr => .borderTopRightRadius
  | .br => .borderBottomRightRadius
  | .bl => .borderBottomLeftRadius

/-- The macro `single_property!` (src/properties/border_radius.rs:258-267). -/
def single (env : Env V) (f : Corner → Option (V × PrefixSet)) (c : Corner) : List (Decl V) :=
  match f c with
  | none => []
  | some (v, p) => if p = .empty then [] else [.corner c (.val v) (env.targets.prefixes p c.feature)]

/-- Four values, one for each corner. -/
def corners {A : Type} (a b c d : A) : Corner → A
  | .tl => a
  | .tr => b
  | .br => c
  | .bl => d

/-- The shorthand (src/properties/border_radius.rs:230-256): what is written, and the fields that are left. -/
def shorthand (env : Env V) (f : Corner → Option (V × PrefixSet)) : List (Decl V) × (Corner → Option (V × PrefixSet)) :=
  match f .tl, f .tr, f .br, f .bl with
  | some (a, pa), some (b, pb), some (c, pc), some (d, pd) =>
    let i := inter (inter (inter pa pb) pc) pd
    if i = .empty then ([], f)
    else ([.radius a b c d (env.targets.prefixes i .borderRadius)],
      corners (some (a, remove pa i)) (some (b, remove pb i)) (some (c, remove pc i)) (some (d, remove pd i)))
  | _, _, _, _ => ([], f)

/-- The corners of a logical corner, left to right and right to left (src/properties/border_radius.rs:302-325). -/
def LCorner.ltr : LCorner → Corner
  | .ss => .tl
  | .se => .tr
  | .ee => .br
  | .es => .bl
/-- The corners of a logical corner, left to right and right to left (src/properties/border_radius.rs:302-325). -/
def LCorner.rtl : LCorner → Corner
  | .ss => .tr
  | .se => .tl
  | .ee => .bl
  | .es => .br

/-- The macro `logical_property!` of `flush` (src/properties/border_radius.rs:271-297). -/
def flushLogical (env : Env V) (f : LCorner → Option (Val V)) (o : Out V) (c : LCorner) : Out V :=
  match f c with
  | none => o
  | some v =>
    if env.compile then
      let vp := env.targets.prefixes Prefix.none.set c.ltr.feature
      { o with ltr := o.ltr ++ [.corner c.ltr v vp], rtl := o.rtl ++ [.corner c.rtl v vp] }
    else { o with dest := o.dest ++ [.logical c v] }

/-- Nothing pending. -/
def Handler.clear (h : Handler V) : Handler V := ⟨fun _ => none, fun _ => none, h.physical, false⟩

/-- `BorderRadiusHandler::flush` (src/properties/border_radius.rs:214-326). -/
def flush (env : Env V) (s : Handler V × Out V) : Handler V × Out V :=
  if s.1.hasAny then
    let (d, f) := shorthand env s.1.phys
    let o := { s.2 with dest := s.2.dest ++ d ++ single env f .tl ++ single env f .tr ++ single env f .br ++ single env f .bl }
    (s.1.clear, [LCorner.ss, .se, .ee, .es].foldl (flushLogical env s.1.log) o)
  else s

/-- `matches!(context.targets.browsers, Some(targets) if !$val.is_compatible(targets))`. -/
def Env.incompatible (env : Env V) (v : V) : Bool :=
  match env.targets.browsers with
  | some br => !env.compat v br
  | none => false

variable [DecidableEq V]

/-- The macro `maybe_flush!` (src/properties/border_radius.rs:115-129). -/
def maybeFlush (env : Env V) (c : Corner) (v : V) (vp : PrefixSet) (s : Handler V × Out V) : Handler V × Out V :=
  let s := match s.1.phys c with
    | some (w, p) => if w ≠ v && !contains p vp then flush env s else s
    | none => s
  if (s.1.phys c).isSome && env.incompatible v then flush env s else s

/-- The macro `property!` (src/properties/border_radius.rs:131-149). -/
def property (env : Env V) (c : Corner) (v : V) (vp : PrefixSet) (s : Handler V × Out V) : Handler V × Out V :=
  let s := if s.1.physical then s else flush env s
  let s := maybeFlush env c v vp s
  match s.1.phys c with
  | some (_, p) => ({ s.1 with phys := put s.1.phys c (some (v, p.union vp)), physical := true }, s.2)
  | none => ({ s.1 with phys := put s.1.phys c (some (v, vp)), physical := true, hasAny := true }, s.2)

/-- The macro `logical_property!` of `handle_property` (src/properties/border_radius.rs:151-161). -/
def logicalProperty (env : Env V) (c : LCorner) (v : Val V) (s : Handler V × Out V) : Handler V × Out V :=
  let s := if s.1.physical then flush env s else s
  ({ s.1 with log := put s.1.log c (some v), physical := false, hasAny := true }, s.2)

/-- `handle_property` (src/properties/border_radius.rs:163-204). -/
def handle (env : Env V) (s : Handler V × Out V) : Decl V → Handler V × Out V
  | .corner c (.val v) vp => property env c v vp s
  | .logical c v => logicalProperty env c v s
  | .radius a b c d vp =>
    let s := ({ s.1 with log := fun _ => none }, s.2)
    let s := maybeFlush env .bl d vp (maybeFlush env .br c vp (maybeFlush env .tr b vp (maybeFlush env .tl a vp s)))
    property env .bl d vp (property env .br c vp (property env .tr b vp (property env .tl a vp s)))
  | .corner c (.raw t) p =>
    let s := flush env s
    (s.1, { s.2 with dest := s.2.dest ++ [.corner c (.raw t) (env.targets.prefixes (orNone p) .borderRadius)] })
  | .rawRadius t p =>
    let s := flush env s
    (s.1, { s.2 with dest := s.2.dest ++ [.rawRadius t (env.targets.prefixes (orNone p) .borderRadius)] })

/-- The handler over one block, with `finalize` (src/properties/border_radius.rs:208-210). -/
def run (env : Env V) (h : Handler V) (ds : List (Decl V)) : Handler V × Out V := flush env (ds.foldl (handle env) (h, {}))

/-- A new handler (`Default`). -/
def Handler.new : Handler V := ⟨fun _ => none, fun _ => none, true, false⟩

end
end Verif.Radius
