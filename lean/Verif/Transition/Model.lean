import Verif.Targets.Model
import Verif.Transition.Easing
/-!
# The transition properties (`/repo/src/properties/transition.rs`)

Times are an opaque type `T` with a zero (units and their text are the area Units). A panic (an index out of bounds) is `none`.
-/
namespace Verif.Transition
open Verif.Targets

/-- `PropertyId` (src/properties/mod.rs): an id without vendor prefixes, or one with a set of prefixes. -/
inductive Pid
  | plain (name : Str)
  | pref (name : Str) (p : PrefixSet)
deriving DecidableEq

/-- `PropertyId::name` (src/properties/mod.rs:388-). -/
def Pid.name : Pid → Str
  | .plain n => n
  | .pref n _ => n

/-- `PropertyId::prefix` (src/properties/mod.rs:301-322). -/
def Pid.prefix : Pid → PrefixSet
  | .plain _ => .empty
  | .pref _ p => p

/-- `PropertyId::with_prefix` (src/properties/mod.rs:324-344). -/
def Pid.withPrefix (q : PrefixSet) : Pid → Pid
  | .plain n => .plain n
  | .pref n _ => .pref n q

/-- `PropertyId::add_prefix` (src/properties/mod.rs:346-364). -/
def Pid.addPrefix (q : PrefixSet) : Pid → Pid
  | .plain n => .plain n
  | .pref n p => .pref n (p.union q)

/-- Iteration over the flags of a set, in the order of their declaration (bitflags; src/vendor_prefix.rs:22-33). -/
def flags (s : PrefixSet) : List Prefix :=
  (if s.webkit then [.webkit] else []) ++ (if s.moz then [.moz] else []) ++ (if s.ms then [.ms] else []) ++
    (if s.o then [.o] else []) ++ (if s.none then [.none] else [])

/-- `VendorPrefix::or_none` (src/vendor_prefix.rs:56-68). -/
def orNone (s : PrefixSet) : PrefixSet := if s = .empty then Prefix.none.set else s

/-- `VendorPrefix::contains`. -/
def contains (a b : PrefixSet) : Bool := (flags b).all a.has

/-- `&` on flags. -/
def inter (a b : PrefixSet) : PrefixSet := ⟨a.none && b.none, a.webkit && b.webkit, a.moz && b.moz, a.ms && b.ms, a.o && b.o⟩

/-- `VendorPrefix::remove`. -/
def remove (a b : PrefixSet) : PrefixSet := ⟨a.none && !b.none, a.webkit && !b.webkit, a.moz && !b.moz, a.ms && !b.ms, a.o && !b.o⟩

/-- `PropertyId::to_css` (src/properties/mod.rs:247-270): the names that are written, separated by commas. -/
def Pid.print (q : Pid) : List (Prefix × Str) := (flags (orNone q.prefix)).map (·, q.name)

/-- `Transition` (src/properties/transition.rs:22-36). -/
structure Tr (T : Type) where
  property : Pid
  duration : T
  delay : T
  timing : Easing
deriving DecidableEq

/-! ### The value of the shorthand -/

/-- A component of one transition: a time, or an identifier or function. -/
inductive Comp (T : Type)
  | time (t : T)
  | text (e : Text)
deriving DecidableEq

/-- The next component as a time. -/
def Comp.asTime {T : Type} : Comp T → Option T
  | .time t => some t
  | _ => none
/-- The next component as an easing function. -/
def Comp.asEasing {T : Type} : Comp T → Option Easing
  | .text e => Easing.parse e
  | .time _ => none
/-- The next component as a property name (`PropertyId::parse` takes any identifier). -/
def Comp.asName {T : Type} : Comp T → Option Str
  | .text (.ident s) => some s
  | _ => none

/-- The local variables of `Transition::parse`. -/
structure Slots (T : Type) where
  property : Option Str := none
  duration : Option T := none
  delay : Option T := none
  timing : Option Easing := none

/-- One round of the loop (src/properties/transition.rs:45-76); `none` is `break`. -/
def Slots.step {T : Type} (s : Slots T) (c : Comp T) : Option (Slots T) :=
  match (if s.duration.isNone then c.asTime else none) with
  | some v => some { s with duration := some v }
  | none => match (if s.timing.isNone then c.asEasing else none) with
    | some v => some { s with timing := some v }
    | none => match (if s.delay.isNone then c.asTime else none) with
      | some v => some { s with delay := some v }
      | none => match (if s.property.isNone then c.asName else none) with
        | some v => some { s with property := some v }
        | none => none

/-- The loop; the components that are left over make the caller fail. -/
def Slots.loop {T : Type} (s : Slots T) : List (Comp T) → Option (Slots T)
  | [] => some s
  | c :: cs => match s.step c with
    | some s' => s'.loop cs
    | none => none

/-- One transition of the shorthand, with the property as its text. -/
structure Single (T : Type) where
  property : Str
  duration : T
  delay : T
  timing : Easing
deriving DecidableEq

/-- `Transition::parse` (src/properties/transition.rs:38-84). `PropertyId::parse` accepts every identifier; the id is modelled by its text. -/
def Single.parse {T : Type} [Zero T] (cs : List (Comp T)) : Option (Single T) :=
  (Slots.loop {} cs).map fun s =>
    ⟨s.property.getD cs!"all", s.duration.getD 0, s.delay.getD 0, s.timing.getD .ease⟩

/-- `Transition::to_css` (src/properties/transition.rs:86-111), for a property id with one name. -/
def Single.print {T : Type} [Zero T] [DecidableEq T] (t : Single T) : List (Comp T) :=
  [.text (.ident t.property)] ++
  (if t.duration ≠ 0 ∨ t.delay ≠ 0 then [.time t.duration] else []) ++
  (if t.timing.isEase then [] else [.text t.timing.print]) ++
  (if t.delay ≠ 0 then [.time t.delay] else [])

/-! ### The handler -/

/-- `LogicalPropertyId` (src/properties/transition.rs:472-480). -/
inductive Logical
  | none
  | block (f : CompatFeature) (props : List Pid)
  | inline (f : CompatFeature) (ltr rtl : List Pid)

/-- The table of `get_logical_properties` (src/properties/transition.rs:487-568). -/
def logicalRows : List (Str × Logical) := [
  (cs!"block-size", .block .logicalSize [.plain cs!"height"]),
  (cs!"inline-size", .inline .logicalSize [.plain cs!"width"] [.plain cs!"height"]),
  (cs!"min-block-size", .block .logicalSize [.plain cs!"min-height"]),
  (cs!"max-block-size", .block .logicalSize [.plain cs!"max-height"]),
  (cs!"min-inline-size", .inline .logicalSize [.plain cs!"min-width"] [.plain cs!"min-height"]),
  (cs!"max-inline-size", .inline .logicalSize [.plain cs!"max-width"] [.plain cs!"max-height"]),
  (cs!"inset-block-start", .block .logicalInset [.plain cs!"top"]),
  (cs!"inset-block-end", .block .logicalInset [.plain cs!"bottom"]),
  (cs!"inset-inline-start", .inline .logicalInset [.plain cs!"left"] [.plain cs!"right"]),
  (cs!"inset-inline-end", .inline .logicalInset [.plain cs!"right"] [.plain cs!"left"]),
  (cs!"inset-block", .block .logicalInset [.plain cs!"top", .plain cs!"bottom"]),
  (cs!"inset-inline", .block .logicalInset [.plain cs!"left", .plain cs!"right"]),
  (cs!"inset", .block .logicalInset [.plain cs!"top", .plain cs!"bottom", .plain cs!"left", .plain cs!"right"]),
  (cs!"margin-block-start", .block .logicalMargin [.plain cs!"margin-top"]),
  (cs!"margin-block-end", .block .logicalMargin [.plain cs!"margin-bottom"]),
  (cs!"margin-inline-start", .inline .logicalMargin [.plain cs!"margin-left"] [.plain cs!"margin-right"]),
  (cs!"margin-inline-end", .inline .logicalMargin [.plain cs!"margin-right"] [.plain cs!"margin-left"]),
  (cs!"margin-block", .block .logicalMargin [.plain cs!"margin-top", .plain cs!"margin-bottom"]),
  (cs!"margin-inline", .block .logicalMargin [.plain cs!"margin-left", .plain cs!"margin-right"]),
  (cs!"padding-block-start", .block .logicalPadding [.plain cs!"padding-top"]),
  (cs!"padding-block-end", .block .logicalPadding [.plain cs!"padding-bottom"]),
  (cs!"padding-inline-start", .inline .logicalPadding [.plain cs!"padding-left"] [.plain cs!"padding-right"]),
  (cs!"padding-inline-end", .inline .logicalPadding [.plain cs!"padding-right"] [.plain cs!"padding-left"]),
  (cs!"padding-block", .block .logicalPadding [.plain cs!"padding-top", .plain cs!"padding-bottom"]),
  (cs!"padding-inline", .block .logicalPadding [.plain cs!"padding-left", .plain cs!"padding-right"]),
  (cs!"border-block-start", .block .logicalBorders [.plain cs!"border-top"]),
  (cs!"border-block-start-width", .block .logicalBorders [.plain cs!"border-top-width"]),
  (cs!"border-block-start-color", .block .logicalBorders [.plain cs!"border-top-color"]),
  (cs!"border-block-start-style", .block .logicalBorders [.plain cs!"border-top-style"]),
  (cs!"border-block-end", .block .logicalBorders [.plain cs!"border-bottom"]),
  (cs!"border-block-end-width", .block .logicalBorders [.plain cs!"border-bottom-width"]),
  (cs!"border-block-end-color", .block .logicalBorders [.plain cs!"border-bottom-color"]),
  (cs!"border-block-end-style", .block .logicalBorders [.plain cs!"border-bottom-style"]),
  (cs!"border-inline-start", .inline .logicalBorders [.plain cs!"border-left"] [.plain cs!"border-right"]),
  (cs!"border-inline-start-width", .inline .logicalBorders [.plain cs!"border-left-width"] [.plain cs!"border-right-width"]),
  (cs!"border-inline-start-color", .inline .logicalBorders [.plain cs!"border-left-color"] [.plain cs!"border-right-color"]),
  (cs!"border-inline-start-style", .inline .logicalBorders [.plain cs!"border-left-style"] [.plain cs!"border-right-style"]),
  (cs!"border-inline-end", .inline .logicalBorders [.plain cs!"border-right"] [.plain cs!"border-left"]),
  (cs!"border-inline-end-width", .inline .logicalBorders [.plain cs!"border-right-width"] [.plain cs!"border-left-width"]),
  (cs!"border-inline-end-color", .inline .logicalBorders [.plain cs!"border-right-color"] [.plain cs!"border-left-color"]),
  (cs!"border-inline-end-style", .inline .logicalBorders [.plain cs!"border-right-style"] [.plain cs!"border-left-style"]),
  (cs!"border-block", .block .logicalBorders [.plain cs!"border-top", .plain cs!"border-bottom"]),
  (cs!"border-block-color", .block .logicalBorders [.plain cs!"border-top-color", .plain cs!"border-bottom-color"]),
  (cs!"border-block-width", .block .logicalBorders [.plain cs!"border-top-width", .plain cs!"border-bottom-width"]),
  (cs!"border-block-style", .block .logicalBorders [.plain cs!"border-top-style", .plain cs!"border-bottom-style"]),
  (cs!"border-inline", .block .logicalBorders [.plain cs!"border-left", .plain cs!"border-right"]),
  (cs!"border-inline-color", .block .logicalBorders [.plain cs!"border-left-color", .plain cs!"border-right-color"]),
  (cs!"border-inline-width", .block .logicalBorders [.plain cs!"border-left-width", .plain cs!"border-right-width"]),
  (cs!"border-inline-style", .block .logicalBorders [.plain cs!"border-left-style", .plain cs!"border-right-style"]),
  (cs!"border-start-start-radius", .inline .logicalBorders [.pref cs!"border-top-left-radius" Prefix.none.set] [.pref cs!"border-top-right-radius" Prefix.none.set]),
  (cs!"border-start-end-radius", .inline .logicalBorders [.pref cs!"border-top-right-radius" Prefix.none.set] [.pref cs!"border-top-left-radius" Prefix.none.set]),
  (cs!"border-end-start-radius", .inline .logicalBorders [.pref cs!"border-bottom-left-radius" Prefix.none.set] [.pref cs!"border-bottom-right-radius" Prefix.none.set]),
  (cs!"border-end-end-radius", .inline .logicalBorders [.pref cs!"border-bottom-right-radius" Prefix.none.set] [.pref cs!"border-bottom-left-radius" Prefix.none.set])]

/-- `get_logical_properties` (src/properties/transition.rs:483-571). -/
def logical : Pid → Logical
  | .plain n => (logicalRows.lookup n).getD .none
  | .pref _ _ => .none

/-- `get_webkit_mask_property` (src/properties/masking.rs:1171-1183). -/
def maskProperty : Pid → Option Pid
  | .plain n =>
    if n = cs!"mask-border-source" then some (.pref cs!"mask-box-image-source" Prefix.webkit.set)
    else if n = cs!"mask-border-slice" then some (.pref cs!"mask-box-image-slice" Prefix.webkit.set)
    else if n = cs!"mask-border-width" then some (.pref cs!"mask-box-image-width" Prefix.webkit.set)
    else if n = cs!"mask-border-outset" then some (.pref cs!"mask-box-image-outset" Prefix.webkit.set)
    else if n = cs!"mask-border-repeat" then some (.pref cs!"mask-box-image-repeat" Prefix.webkit.set)
    else if n = cs!"mask-border" then some (.pref cs!"mask-box-image" Prefix.webkit.set)
    else if n = cs!"mask-composite" then some (.plain cs!"-webkit-mask-composite")
    else if n = cs!"mask-mode" then some (.pref cs!"mask-source-type" Prefix.webkit.set)
    else none
  | .pref _ _ => none

/-- What the handler needs of its context: the targets, whether it is a style attribute, and the feature of each property that takes vendor prefixes (`Feature::$property` in the macro; `none` for properties that exist with a prefix only). -/
structure Env where
  targets : Targets
  styleAttribute : Bool
  feature : Str → Option PrefixFeature

/-- `PropertyHandlerContext::should_compile_logical` (src/context.rs:74-82). -/
def Env.compileLogical (env : Env) (f : CompatFeature) : Bool :=
  if env.styleAttribute then false else env.targets.shouldCompileLogical f

/-- `PropertyId::set_prefixes_for_targets` (src/properties/mod.rs:366-385). -/
def Env.setPrefixes (env : Env) : Pid → Pid
  | .plain n => .plain n
  | .pref n p => match env.feature n with
    | some f => .pref n (env.targets.prefixes p f)
    | none => .pref n p

/-- The condition for the `-webkit-mask-*` names (src/properties/transition.rs:437-442, 451-456). -/
def Env.webkitMask (env : Env) : Bool := (env.targets.prefixes Prefix.none.set .maskBorder).webkit

/-- `merge_properties` (src/properties/transition.rs:378-393). -/
def mergeProperties (ps : List Pid) : List Pid := ps.foldl step []
where
  /-- One round of the loop. -/
  step (acc : List Pid) (p : Pid) : List Pid :=
    match acc.findIdx? (fun c => c.withPrefix .empty = p.withPrefix .empty) with
    | some i => acc.modify i (·.addPrefix p.prefix)
    | none => acc ++ [p]

/-- The macro `replace!` at an index (src/properties/transition.rs:402-409): one element becomes several. -/
def replaceAt (l : List Pid) (i : Nat) (props : List Pid) : Option (List Pid) :=
  if i < l.length then some (l.take i ++ props ++ l.drop (i + 1)) else none

/-- `replace!` on the right-to-left list, if there is one. -/
def replaceRtl (rtl : Option (List Pid)) (i : Nat) (props : List Pid) : Option (Option (List Pid)) :=
  match rtl with
  | none => some none
  | some r => (replaceAt r i props).map some

/-- The right-to-left list in the default arm (src/properties/transition.rs:448-461); `i` is past an inserted mask property. -/
def expandRtl (env : Env) (rtl : Option (List Pid)) (i : Nat) : Option (Option (List Pid)) :=
  match rtl with
  | none => some none
  | some r => match r[i]? with
    | none => none
    | some q =>
      let q := env.setPrefixes q
      match maskProperty q with
      | some m => if env.webkitMask then some (some (r.take i ++ [m, q] ++ r.drop (i + 1))) else some (some (r.set i q))
      | none => some (some (r.set i q))

/-- What is inserted before a property in the default arm (src/properties/transition.rs:436-446). -/
def maskBefore (env : Env) (q : Pid) : List Pid :=
  match maskProperty q with
  | some m => if env.webkitMask then [m] else []
  | none => []

/-- The loop of `expand_properties` (src/properties/transition.rs:412-466). `done` are the elements before the index `i`, `todo` the ones from `i` on; what is put in place of an element is not looked at again. The result is `none` if an index is out of bounds. -/
def expandLoop (env : Env) (done : List Pid) (rtl : Option (List Pid)) : List Pid → Option (List Pid × Option (List Pid))
  | [] => some (done, rtl)
  | q :: todo =>
    let other :=
      -- 432-463
      let q' := env.setPrefixes q
      let done' := done ++ maskBefore env q'
      match expandRtl env rtl done'.length with
      | some rtl' => expandLoop env (done' ++ [q']) rtl' todo
      | none => none
    match logical q with
    | .block f props =>
      if env.compileLogical f then
        match replaceRtl rtl done.length props with
        | some rtl' => expandLoop env (done ++ props) rtl' todo
        | none => none
      else other
    | .inline f ltr rt =>
      if env.compileLogical f then
        match replaceRtl (some (rtl.getD (done ++ q :: todo))) done.length rt with
        | some rtl' => expandLoop env (done ++ ltr) rtl' todo
        | none => none
      else other
    | .none => other

/-- `expand_properties` (src/properties/transition.rs:395-469): the changed list, and the right-to-left one. -/
def expandProperties (env : Env) (ps : List Pid) : Option (List Pid × Option (List Pid)) := expandLoop env [] none ps

/-- The longhands of `transition`. -/
inductive Lh
  | property | duration | delay | timing
deriving DecidableEq

/-- A declaration that the handler sees or writes. An unparsed declaration has the longhand, or `none` for `transition`, and its text. -/
inductive Decl (T : Type)
  | property (val : List Pid) (p : PrefixSet)
  | duration (val : List T) (p : PrefixSet)
  | delay (val : List T) (p : PrefixSet)
  | timing (val : List Easing) (p : PrefixSet)
  | transition (val : List (Tr T)) (p : PrefixSet)
  | unparsed (lh : Option Lh) (text : Str) (p : PrefixSet)
deriving DecidableEq

/-- `TransitionHandler` (src/properties/transition.rs:154-161) without `has_any`, which is true exactly if one of the fields is set. -/
structure Handler (T : Type) where
  properties : Option (List Pid × PrefixSet) := none
  durations : Option (List T × PrefixSet) := none
  delays : Option (List T × PrefixSet) := none
  timings : Option (List Easing × PrefixSet) := none
deriving DecidableEq

/-- The declarations written so far: in the block, and for left-to-right and right-to-left rules (`context.ltr`, `context.rtl`). -/
structure Out (T : Type) where
  dest : List (Decl T) := []
  ltr : List (Decl T) := []
  rtl : List (Decl T) := []
deriving DecidableEq

section
variable {T : Type} [Zero T]

/-- `iter().cycle().nth(i)` with the default of `unwrap_or`. -/
def cycle {A : Type} (l : List A) (dflt : A) (i : Nat) : A := (l[i % l.length]?).getD dflt

/-- The macro `get_transitions!` (src/properties/transition.rs:268-300). -/
def getTransitions (durations delays : List T) (timings : List Easing) (ps : List Pid) : List (Tr T) :=
  (go 0 ps).flatten
where
  /-- The transitions of the properties from an index on. -/
  go (i : Nat) : List Pid → List (List (Tr T))
    | [] => []
    | q :: qs =>
      (flags (orNone q.prefix)).map (fun p =>
        ⟨q.withPrefix p.set, cycle durations 0 i, cycle delays 0 i, cycle timings .ease i⟩) :: go (i + 1) qs

/-- `dest.push`, or `add_logical_rule` if there is a right-to-left value. -/
def Out.add (o : Out T) (ltr : Decl T) (rtl : Option (Decl T)) : Out T :=
  match rtl with
  | none => { o with dest := o.dest ++ [ltr] }
  | some r => { o with ltr := o.ltr ++ [ltr], rtl := o.rtl ++ [r] }

/-- A longhand that has prefixes left (src/properties/transition.rs:325-355). -/
def pushRest {A : Type} (mk : List A → PrefixSet → Decl T) (v : Option (List A × PrefixSet)) (o : Out T) : Out T :=
  match v with
  | none => o
  | some (val, p) => if p = .empty then o else { o with dest := o.dest ++ [mk val p] }

/-- `TransitionHandler::flush` after `expand_properties` (src/properties/transition.rs:255-357). -/
def flushWith (h : Handler T) (rtl : Option (List Pid)) (o : Out T) : Out T :=
  let rest (h : Handler T) (o : Out T) : Out T :=
    let o := match h.properties with
      | none => o
      | some (ps, p) => if p = .empty then o else o.add (.property ps p) (rtl.map (.property · p))
    pushRest .timing h.timings (pushRest .delay h.delays (pushRest .duration h.durations o))
  match h.properties, h.durations, h.delays, h.timings with
  | some (ps, p1), some (ds, p2), some (dl, p3), some (ts, p4) =>
    let i := inter (inter (inter p1 p2) p3) p4
    if i = .empty then rest h o
    else
      rest ⟨some (ps, remove p1 i), some (ds, remove p2 i), some (dl, remove p3 i), some (ts, remove p4 i)⟩
        (o.add (.transition (getTransitions ds dl ts ps) i) (rtl.map fun r => .transition (getTransitions ds dl ts r) i))
  | _, _, _, _ => rest h o

/-- `TransitionHandler::flush` (src/properties/transition.rs:239-358). -/
def flush (env : Env) (h : Handler T) (o : Out T) : Option (Out T) :=
  match h.properties with
  | none => some (flushWith h none o)
  | some (ps, p) => match expandProperties env ps with
    | none => none
    | some (ps', rtl) => some (flushWith { h with properties := some (ps', p) } rtl o)

variable [DecidableEq T]

/-- The condition of the macro `maybe_flush!` (src/properties/transition.rs:173-182). -/
def conflict {A : Type} [DecidableEq A] (f : Option (List A × PrefixSet)) (val : List A) (vp : PrefixSet) : Bool :=
  match f with
  | some (v, p) => v ≠ val && !contains p vp
  | none => false

/-- The second half of the macro `property!` (src/properties/transition.rs:188-198). -/
def update {A : Type} (env : Env) (feat : PrefixFeature) (f : Option (List A × PrefixSet)) (val : List A) (vp : PrefixSet) :
    Option (List A × PrefixSet) :=
  match f with
  | some (_, p) => some (val, env.targets.prefixes (p.union vp) feat)
  | none => some (val, env.targets.prefixes vp feat)

/-- `maybe_flush!`. -/
def flushIf (env : Env) (c : Bool) (s : Handler T × Out T) : Option (Handler T × Out T) :=
  if c then (flush env s.1 s.2).map ({}, ·) else some s

/-- `handle_property` (src/properties/transition.rs:164-232). The declarations of other properties do not reach the output of this handler. -/
def handle (env : Env) (s : Handler T × Out T) : Decl T → Option (Handler T × Out T)
  | .property val vp => do
    let m := mergeProperties val
    let (h, o) ← flushIf env (conflict s.1.properties m vp) s
    pure ({ h with properties := update env .transitionProperty h.properties m vp }, o)
  | .duration val vp => do
    let (h, o) ← flushIf env (conflict s.1.durations val vp) s
    pure ({ h with durations := update env .transitionDuration h.durations val vp }, o)
  | .delay val vp => do
    let (h, o) ← flushIf env (conflict s.1.delays val vp) s
    pure ({ h with delays := update env .transitionDelay h.delays val vp }, o)
  | .timing val vp => do
    let (h, o) ← flushIf env (conflict s.1.timings val vp) s
    pure ({ h with timings := update env .transitionTimingFunction h.timings val vp }, o)
  | .transition val vp => do
    let ps := mergeProperties (val.map (·.property))
    let ds := val.map (·.duration)
    let dl := val.map (·.delay)
    let ts := val.map (·.timing)
    -- 210-222; the `maybe_flush!` inside of `property!` finds the same values again and does nothing
    let s ← flushIf env (conflict s.1.properties ps vp) s
    let s ← flushIf env (conflict s.1.durations ds vp) s
    let s ← flushIf env (conflict s.1.delays dl vp) s
    let s ← flushIf env (conflict s.1.timings ts vp) s
    let h := s.1
    pure (⟨update env .transitionProperty h.properties ps vp, update env .transitionDuration h.durations ds vp,
      update env .transitionDelay h.delays dl vp, update env .transitionTimingFunction h.timings ts vp⟩, s.2)
  | .unparsed lh text p => do
    let o ← flush env s.1 s.2
    pure ({}, { o with dest := o.dest ++ [.unparsed lh text (env.targets.prefixes (orNone p) .transition)] })

/-- The handler over the declarations of a block, from `handle_property` to `finalize` (src/declaration.rs:238-264). -/
def run (env : Env) (ds : List (Decl T)) : Option (Out T) := do
  let s ← ds.foldlM (handle env) ({}, {})
  flush env s.1 s.2

end
end Verif.Transition
