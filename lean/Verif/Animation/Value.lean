import Verif.Transition.Easing
/-!
# The value of the `animation` shorthand (`/repo/src/properties/animation.rs`)

Times are an opaque type `T` with a zero, lengths and percentages an opaque type `L`. The text of a value is a list of components: a
time, a number, an identifier or easing function, a string, or the function of a timeline.
-/
namespace Verif.Animation
open Verif.Transition

/-- An argument of `scroll()` or `view()`. -/
inductive TlArg (L : Type)
  | ident (s : Str)
  | len (l : L)
deriving DecidableEq

/-- A component of one animation. -/
inductive Comp (T L : Type)
  | time (t : T)
  | num (n : Num)
  | text (e : Text)
  | str (s : Str)
  | fn (name : Str) (args : List (TlArg L))
deriving DecidableEq

/-- `AnimationName` (src/properties/animation.rs:37-46). -/
inductive Name
  | no
  | ident (s : Str)
  | string (s : Str)
deriving DecidableEq

/-- `AnimationIterationCount` (src/properties/animation.rs:100-105). -/
inductive Iter
  | number (n : Num)
  | infinite
deriving DecidableEq

/-- `AnimationDirection` (src/properties/animation.rs:113-125). -/
inductive Direction
  | normal | reverse | alternate | alternateReverse
deriving DecidableEq

/-- `AnimationPlayState` (src/properties/animation.rs:133-141). -/
inductive PlayState
  | running | paused
deriving DecidableEq

/-- `AnimationFillMode` (src/properties/animation.rs:149-161). -/
inductive Fill
  | no | forwards | backwards | both
deriving DecidableEq

/-- `Scroller` (src/properties/animation.rs:280-290). -/
inductive Scroller
  | root | nearest | self
deriving DecidableEq

/-- `ScrollAxis` (src/properties/animation.rs:298-310). -/
inductive Axis
  | block | inline | x | y
deriving DecidableEq

/-- `LengthPercentageOrAuto` in the inset of a view timeline. -/
inductive Inset (L : Type)
  | auto
  | len (l : L)
deriving DecidableEq

/-- `AnimationTimeline` (src/properties/animation.rs:192-204), with `ScrollTimeline` (225-230) and `ViewTimeline` (324-329). -/
inductive Timeline (L : Type)
  | auto | no
  | dashed (s : Str)
  | scroll (s : Scroller) (a : Axis)
  | view (a : Axis) (i j : Inset L)
deriving DecidableEq

/-! ### Keywords -/

/-- The derived `Parse` of `AnimationDirection` (derive/src/parse.rs:43-150), also `parse_string`. -/
def parseDirection (s : Str) : Option Direction :=
  if kw s cs!"normal" then some .normal
  else if kw s cs!"reverse" then some .reverse
  else if kw s cs!"alternate" then some .alternate
  else if kw s cs!"alternate-reverse" then some .alternateReverse
  else none
/-- The derived `Parse` of `AnimationPlayState`. -/
def parsePlayState (s : Str) : Option PlayState :=
  if kw s cs!"running" then some .running
  else if kw s cs!"paused" then some .paused
  else none
/-- The derived `Parse` of `AnimationFillMode`. -/
def parseFill (s : Str) : Option Fill :=
  if kw s cs!"none" then some .no
  else if kw s cs!"forwards" then some .forwards
  else if kw s cs!"backwards" then some .backwards
  else if kw s cs!"both" then some .both
  else none
/-- `Scroller::parse` (src/macros.rs:58-71). -/
def parseScroller (s : Str) : Option Scroller :=
  if kw s cs!"root" then some .root
  else if kw s cs!"nearest" then some .nearest
  else if kw s cs!"self" then some .self
  else none
/-- The derived `Parse` of `ScrollAxis`. -/
def parseAxis (s : Str) : Option Axis :=
  if kw s cs!"block" then some .block
  else if kw s cs!"inline" then some .inline
  else if kw s cs!"x" then some .x
  else if kw s cs!"y" then some .y
  else none

/-- The derived `ToCss`. -/
def Direction.text : Direction → Str
  | .normal => cs!"normal" | .reverse => cs!"reverse" | .alternate => cs!"alternate" | .alternateReverse => cs!"alternate-reverse"
/-- The derived `ToCss`. -/
def PlayState.text : PlayState → Str
  | .running => cs!"running" | .paused => cs!"paused"
/-- The derived `ToCss`. -/
def Fill.text : Fill → Str
  | .no => cs!"none" | .forwards => cs!"forwards" | .backwards => cs!"backwards" | .both => cs!"both"
/-- `Scroller::to_css`. -/
def Scroller.text : Scroller → Str
  | .root => cs!"root" | .nearest => cs!"nearest" | .self => cs!"self"
/-- The derived `ToCss`. -/
def Axis.text : Axis → Str
  | .block => cs!"block" | .inline => cs!"inline" | .x => cs!"x" | .y => cs!"y"

/-- `EasingFunction::is_ident` (src/values/easing.rs:186-191): the case counts here. -/
def easingIsIdent (s : Str) : Bool :=
  s ∈ [cs!"linear", cs!"ease", cs!"ease-in", cs!"ease-out", cs!"ease-in-out", cs!"step-start", cs!"step-end"]

/-- The words that are no `<custom-ident>` (`CustomIdent::parse`, src/values/ident.rs:35-38). -/
def cssWide (s : Str) : Bool :=
  kw s cs!"initial" || kw s cs!"inherit" || kw s cs!"unset" || kw s cs!"default" || kw s cs!"revert" || kw s cs!"revert-layer"

/-! ### Timelines -/

/-- `try_parse(Scroller::parse)`. -/
def takeScroller {L : Type} (sc : Option Scroller) (args : List (TlArg L)) : Option Scroller × List (TlArg L) :=
  match sc, args with
  | none, .ident s :: r => match parseScroller s with
    | some v => (some v, r)
    | none => (none, .ident s :: r)
  | sc, args => (sc, args)

/-- `try_parse(ScrollAxis::parse)`. -/
def takeAxis {L : Type} (ax : Option Axis) (args : List (TlArg L)) : Option Axis × List (TlArg L) :=
  match ax, args with
  | none, .ident s :: r => match parseAxis s with
    | some v => (some v, r)
    | none => (none, .ident s :: r)
  | ax, args => (ax, args)

/-- `ScrollTimeline::parse` (src/properties/animation.rs:232-257): the loop goes on only if an axis was found, and then ends in the next round. Tokens that are left over make `parse_nested_block` fail. -/
def parseScroll {L : Type} (args : List (TlArg L)) : Option (Timeline L) :=
  let r1 := takeScroller none args
  let r2 := takeAxis none r1.2
  let r3 := match r2.1 with
    | some _ => takeScroller r1.1 r2.2
    | none => (r1.1, r2.2)
  match r3.2 with
  | [] => some (.scroll (r3.1.getD .nearest) (r2.1.getD .block))
  | _ :: _ => none

/-- `LengthPercentageOrAuto::parse`. -/
def TlArg.inset {L : Type} : TlArg L → Option (Inset L)
  | .ident s => if kw s cs!"auto" then some .auto else none
  | .len l => some (.len l)

/-- `try_parse(Size2D::parse)` (src/values/size.rs): one value, or two. -/
def takeInset {L : Type} (args : List (TlArg L)) : Option (Inset L × Inset L) × List (TlArg L) :=
  match args with
  | [] => (none, [])
  | a :: r => match a.inset with
    | none => (none, a :: r)
    | some i => match r with
      | [] => (some (i, i), [])
      | b :: r' => match b.inset with
        | some j => (some (i, j), r')
        | none => (some (i, i), b :: r')

/-- `ViewTimeline::parse` (src/properties/animation.rs:331-356): the loop goes on only if an inset was found. -/
def parseView {L : Type} (args : List (TlArg L)) : Option (Timeline L) :=
  let r1 := takeAxis none args
  let r2 := takeInset r1.2
  let r3 := match r2.1 with
    | some _ => takeAxis r1.1 r2.2
    | none => (r1.1, r2.2)
  match r3.2 with
  | [] => some (.view (r3.1.getD .block) (r2.1.getD (.auto, .auto)).1 (r2.1.getD (.auto, .auto)).2)
  | _ :: _ => none

/-- The text of an inset. -/
def Inset.arg {L : Type} : Inset L → TlArg L
  | .auto => .ident cs!"auto"
  | .len l => .len l

/-- `ScrollTimeline::to_css` (src/properties/animation.rs:259-281): the arguments. -/
def scrollArgs {L : Type} (s : Scroller) (a : Axis) : List (TlArg L) :=
  (if s ≠ .nearest then [.ident s.text] else []) ++ (if a ≠ .block then [.ident a.text] else [])

/-- `ViewTimeline::to_css` (src/properties/animation.rs:358-381) with `Size2D::to_css`: the arguments. -/
def viewArgs {L : Type} [DecidableEq L] (a : Axis) (i j : Inset L) : List (TlArg L) :=
  (if a ≠ .block then [.ident a.text] else []) ++
  (if i ≠ .auto ∨ j ≠ .auto then (if i = j then [i.arg] else [i.arg, j.arg]) else [])

/-! ### One animation -/

/-- The components of the shorthand. -/
inductive Slot
  | duration | timing | delay | iteration | direction | fill | play | name | timeline
deriving DecidableEq

/-- The type of each component. -/
abbrev Ty (T L : Type) : Slot → Type
  | .duration => T
  | .timing => Easing
  | .delay => T
  | .iteration => Iter
  | .direction => Direction
  | .fill => Fill
  | .play => PlayState
  | .name => Name
  | .timeline => Timeline L

section
variable {T L : Type}

/-- `Time::parse` on the next component. -/
def Comp.asTime : Comp T L → Option T
  | .time t => some t
  | _ => none
/-- The next component as an identifier. -/
def Comp.asIdent : Comp T L → Option Str
  | .text (.ident s) => some s
  | _ => none
/-- `EasingFunction::parse`. -/
def Comp.asEasing : Comp T L → Option Easing
  | .text e => Easing.parse e
  | _ => none
/-- The derived `AnimationIterationCount::parse`: a number, or the keyword. -/
def Comp.asIter : Comp T L → Option Iter
  | .num n => some (.number n)
  | .text (.ident s) => if kw s cs!"infinite" then some .infinite else none
  | _ => none
/-- The derived `AnimationName::parse`. -/
def Comp.asName : Comp T L → Option Name
  | .text (.ident s) => if kw s cs!"none" then some .no else if cssWide s then none else some (.ident s)
  | .str s => some (.string s)
  | _ => none
/-- The derived `AnimationTimeline::parse`, with `DashedIdent::parse` (src/values/ident.rs:153-164). -/
def Comp.asTimeline : Comp T L → Option (Timeline L)
  | .text (.ident s) =>
    if kw s cs!"auto" then some .auto
    else if kw s cs!"none" then some .no
    else if (cs!"--").isPrefixOf s then some (.dashed s) else none
  | .fn name args =>
    if kw name cs!"scroll" then parseScroll args
    else if kw name cs!"view" then parseView args
    else none
  | _ => none

/-- The parser of each component. -/
def decode : (k : Slot) → Comp T L → Option (Ty T L k)
  | .duration, c => c.asTime
  | .timing, c => c.asEasing
  | .delay, c => c.asTime
  | .iteration, c => c.asIter
  | .direction, c => c.asIdent.bind parseDirection
  | .fill, c => c.asIdent.bind parseFill
  | .play, c => c.asIdent.bind parsePlayState
  | .name, c => c.asName
  | .timeline, c => c.asTimeline

/-- The order of the attempts in the loop (src/properties/animation.rs:632-643). -/
def order : List Slot := [.duration, .timing, .delay, .iteration, .direction, .fill, .play, .name, .timeline]

/-- The local variables of `Animation::parse` (src/properties/animation.rs:611-619). -/
abbrev Slots (T L : Type) := (k : Slot) → Option (Ty T L k)

/-- An assignment to one of the variables. -/
def Slots.set (s : Slots T L) (k : Slot) (v : Ty T L k) : Slots T L :=
  fun j => if h : j = k then some (h ▸ v) else s j

/-- `parse_prop!` (src/properties/animation.rs:621-630). -/
def Slots.try (s : Slots T L) (c : Comp T L) (k : Slot) : Option (Slots T L) :=
  if (s k).isNone then (decode k c).map (s.set k) else none

/-- One round of the loop; `none` is `break` (src/properties/animation.rs:632-643). -/
def Slots.step (s : Slots T L) (c : Comp T L) : Option (Slots T L) := order.findSome? (s.try c)

/-- The loop; components that are left over make the caller fail. -/
def Slots.loop (s : Slots T L) : List (Comp T L) → Option (Slots T L)
  | [] => some s
  | c :: cs => match s.step c with
    | some s' => s'.loop cs
    | none => none

/-- `Animation` (src/properties/animation.rs:580-603). -/
structure Anim (T L : Type) where
  name : Name
  duration : T
  timing : Easing
  iteration : Iter
  direction : Direction
  play : PlayState
  delay : T
  fill : Fill
  timeline : Timeline L
deriving DecidableEq

/-- `Animation::parse` (src/properties/animation.rs:609-657). -/
def Anim.parse [Zero T] (cs : List (Comp T L)) : Option (Anim T L) :=
  (Slots.loop (fun _ => none) cs).map fun s =>
    { name := (s .name).getD Name.no
      duration := (s .duration).getD (0 : T)
      timing := (s .timing).getD Easing.ease
      iteration := (s .iteration).getD (Iter.number ⟨1, 0⟩)
      direction := (s .direction).getD Direction.normal
      play := (s .play).getD PlayState.running
      delay := (s .delay).getD (0 : T)
      fill := (s .fill).getD Fill.no
      timeline := (s .timeline).getD Timeline.auto }

/-- `serialize_identifier` writes nothing for the empty string. -/
def identComps (s : Str) : List (Comp T L) := if s = [] then [] else [.text (.ident s)]

/-- `AnimationName::to_css` without CSS modules (src/properties/animation.rs:48-83). -/
def Name.print : Name → List (Comp T L)
  | .no => [.text (.ident cs!"none")]
  | .ident s => identComps s
  | .string s => if kw s cs!"none" || cssWide s then [.str s] else identComps s

/-- The derived `ToCss`. -/
def Iter.print : Iter → Comp T L
  | .number n => .num n
  | .infinite => .text (.ident cs!"infinite")

/-- The derived `ToCss` of `AnimationTimeline`. -/
def Timeline.print [DecidableEq L] : Timeline L → Comp T L
  | .auto => .text (.ident cs!"auto")
  | .no => .text (.ident cs!"none")
  | .dashed s => .text (.ident s)
  | .scroll s a => .fn cs!"scroll" (scrollArgs s a)
  | .view a i j => .fn cs!"view" (viewArgs a i j)

/-- The name as text. -/
def Name.str : Name → Option Str
  | .no => none
  | .ident s => some s
  | .string s => some s

/-- `Animation::to_css`, before the name (src/properties/animation.rs:665-703). -/
def Anim.before [Zero T] [DecidableEq T] (a : Anim T L) (n : Str) : List (Comp T L) :=
  (if a.duration ≠ 0 ∨ a.delay ≠ 0 then [.time a.duration] else []) ++
  ((if ¬a.timing.isEase ∨ easingIsIdent n then [.text a.timing.print] else []) ++
  ((if a.delay ≠ 0 then [.time a.delay] else []) ++
  ((if a.iteration ≠ .number ⟨1, 0⟩ ∨ n = cs!"infinite" then [a.iteration.print] else []) ++
  ((if a.direction ≠ .normal ∨ (parseDirection n).isSome then [.text (.ident a.direction.text)] else []) ++
  ((if a.fill ≠ .no ∨ (¬kw n cs!"none" ∧ (parseFill n).isSome) then [.text (.ident a.fill.text)] else []) ++
  (if a.play ≠ .running ∨ (parsePlayState n).isSome then [.text (.ident a.play.text)] else []))))))

/-- `Animation::to_css` (src/properties/animation.rs:659-717). -/
def Anim.print [Zero T] [DecidableEq T] [DecidableEq L] (a : Anim T L) : List (Comp T L) :=
  (match a.name.str with
    | none => []
    | some n => a.before n) ++
  (a.name.print ++
  (if a.name ≠ .no ∧ a.timeline ≠ .auto then [a.timeline.print] else []))

end
end Verif.Animation
