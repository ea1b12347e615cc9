import Verif.Shorthand.Model2
/-!
`animation`, `animation-range`, `transition`, the `scroll()` and `view()` timelines and easing functions
(src/properties/animation.rs, src/properties/transition.rs, src/values/easing.rs).
-/
namespace Verif.Shorthand

/-! ### Easing functions (src/values/easing.rs) -/

/-- `StepPosition` (src/values/easing.rs:193-203). -/
inductive StepPosition where
  /-- `start` -/
  | start
  /-- `end` -/
  | «end»
  /-- `jump-none` -/
  | jumpNone
  /-- `jump-both` -/
  | jumpBoth
  deriving DecidableEq, Repr

/-- `StepPosition::parse` (src/values/easing.rs:211-226). -/
def StepPosition.parse : Parser StepPosition := fun i =>
  match next i with
  | some (.ident s, r) =>
    if lower s = cs!"start" then some (.start, r)
    else if lower s = cs!"end" then some (.end, r)
    else if lower s = cs!"jump-start" then some (.start, r)
    else if lower s = cs!"jump-end" then some (.end, r)
    else if lower s = cs!"jump-none" then some (.jumpNone, r)
    else if lower s = cs!"jump-both" then some (.jumpBoth, r)
    else none
  | _ => none

/-- `#[derive(ToCss)]` of `StepPosition` (src/values/easing.rs:185). -/
def StepPosition.print : StepPosition → List Tok
  | .start => [.ident cs!"start"]
  | .end => [.ident cs!"end"]
  | .jumpNone => [.ident cs!"jump-none"]
  | .jumpBoth => [.ident cs!"jump-both"]

/-- `EasingFunction` (src/values/easing.rs:21-53); `N` is `CSSNumber`. -/
inductive Easing (N : Type) where
  /-- `linear` -/
  | linear
  /-- `ease` -/
  | ease
  /-- `ease-in` -/
  | easeIn
  /-- `ease-out` -/
  | easeOut
  /-- `ease-in-out` -/
  | easeInOut
  /-- `cubic-bezier()` -/
  | cubicBezier (x1 y1 x2 y2 : N)
  /-- `steps()` -/
  | steps (count : Int) (position : StepPosition)
  deriving DecidableEq, Repr

/-- What easing functions are made of: numbers, integers, and the numbers that are written in hundredths
in the source (`0.42` is `lit 42`). -/
structure EasingParts (N : Type) where
  /-- `CSSNumber` -/
  num : Codec N
  /-- `CSSInteger` -/
  int : Codec Int
  /-- the number of so many hundredths -/
  lit : Nat → N

/-- `EasingFunction::is_ease` (src/values/easing.rs:57-66). -/
def Easing.isEase {N} [DecidableEq N] (p : EasingParts N) (e : Easing N) : Bool :=
  e = .ease || e = .cubicBezier (p.lit 25) (p.lit 10) (p.lit 25) (p.lit 100)

/-- A number and the comma after it (src/values/easing.rs:91-96). -/
def parseNumComma {N} (num : Codec N) : Parser N := fun i =>
  match num.parse i with
  | some (x, i) => (expectComma i).map (fun i => (x, i))
  | none => none

/-- The keywords of `EasingFunction::parse` (src/values/easing.rs:73-82). -/
def Easing.ofKeyword {N} (k : Str) : Option (Easing N) :=
  if k = cs!"linear" then some .linear
  else if k = cs!"ease" then some .ease
  else if k = cs!"ease-in" then some .easeIn
  else if k = cs!"ease-out" then some .easeOut
  else if k = cs!"ease-in-out" then some .easeInOut
  else if k = cs!"step-start" then some (.steps 1 .start)
  else if k = cs!"step-end" then some (.steps 1 .end)
  else none

/-- The arguments of `cubic-bezier()` (src/values/easing.rs:90-99). -/
def parseBezier {N} (p : EasingParts N) : Parser (Easing N) := fun i =>
  match parseNumComma p.num i with
  | none => none
  | some (x1, i) =>
    match parseNumComma p.num i with
    | none => none
    | some (y1, i) =>
      match parseNumComma p.num i with
      | none => none
      | some (x2, i) =>
        match p.num.parse i with
        | none => none
        | some (y2, i) => some (.cubicBezier x1 y1 x2 y2, i)

/-- The comma and the position in `steps()` (src/values/easing.rs:102-105). -/
def parseStepPosition (i : List Tok) : Option (StepPosition × List Tok) :=
  match expectComma i with
  | some i => StepPosition.parse i
  | none => none

/-- The arguments of `steps()` (src/values/easing.rs:100-107). -/
def parseSteps {N} (p : EasingParts N) : Parser (Easing N) := fun i =>
  match p.int.parse i with
  | none => none
  | some (count, i) =>
    match parseStepPosition i with
    | some (position, i) => some (.steps count position, i)
    | none => some (.steps count .end, i)

/-- `input.parse_nested_block(f)`. -/
def nested {α} (f : Parser α) : Parser α := fun i =>
  match f i with
  | some (a, i) => (expectClose i).map (fun i => (a, i))
  | none => none

/-- `EasingFunction::parse` (src/values/easing.rs:69-112). -/
def Easing.parse {N} (p : EasingParts N) : Parser (Easing N) := fun i =>
  match next i with
  | some (.ident s, r) => (Easing.ofKeyword (lower s)).map (fun e => (e, r))
  | some (.func s, r) =>
    if lower s = cs!"cubic-bezier" then nested (parseBezier p) r
    else if lower s = cs!"steps" then nested (parseSteps p) r
    else none
  | _ => none

/-- `EasingFunction::to_css` (src/values/easing.rs:114-174). -/
def Easing.print {N} [DecidableEq N] (p : EasingParts N) (minify : Bool) (e : Easing N) : List Tok :=
  match e with
  | .linear => [.ident cs!"linear"]
  | .ease => [.ident cs!"ease"]
  | .easeIn => [.ident cs!"ease-in"]
  | .easeOut => [.ident cs!"ease-out"]
  | .easeInOut => [.ident cs!"ease-in-out"]
  | .cubicBezier x1 y1 x2 y2 =>
    if e.isEase p then [.ident cs!"ease"]
    else if e = .cubicBezier (p.lit 42) (p.lit 0) (p.lit 100) (p.lit 100) then [.ident cs!"ease-in"]
    else if e = .cubicBezier (p.lit 0) (p.lit 0) (p.lit 58) (p.lit 100) then [.ident cs!"ease-out"]
    else if e = .cubicBezier (p.lit 42) (p.lit 0) (p.lit 58) (p.lit 100) then [.ident cs!"ease-in-out"]
    else
      [.func cs!"cubic-bezier"] ++ p.num.print x1 ++ printDelim minify .comma false ++ p.num.print y1 ++
        printDelim minify .comma false ++ p.num.print x2 ++ printDelim minify .comma false ++
        p.num.print y2 ++ [.close]
  | .steps count position =>
    if count = 1 ∧ position = .start then [.ident cs!"step-start"]
    else if count = 1 ∧ position = .end then [.ident cs!"step-end"]
    else
      [.func cs!"steps"] ++ p.int.print count ++ printDelim minify .comma false ++ position.print ++ [.close]

/-- `EasingFunction::is_ident` (src/values/easing.rs:178-183); it is case-sensitive. -/
def Easing.isIdent (s : Str) : Bool :=
  s ∈ [cs!"linear", cs!"ease", cs!"ease-in", cs!"ease-out", cs!"ease-in-out", cs!"step-start", cs!"step-end"]

/-! ### `scroll()` and `view()` (src/properties/animation.rs) -/

/-- `Scroller` (src/properties/animation.rs:263-273). -/
inductive Scroller where
  /-- `root` -/
  | root
  /-- `nearest` -/
  | nearest
  /-- `self` -/
  | self
  deriving DecidableEq, Repr

/-- The keywords of `Scroller` (src/properties/animation.rs:263-273). -/
instance : Kw Scroller where
  all := [.root, .nearest, .self]
  name
    | .root => cs!"root"
    | .nearest => cs!"nearest"
    | .self => cs!"self"

/-- `ScrollAxis` (src/properties/animation.rs:281-293). -/
inductive ScrollAxis where
  /-- `block` -/
  | block
  /-- `inline` -/
  | «inline»
  /-- `x` -/
  | x
  /-- `y` -/
  | y
  deriving DecidableEq, Repr

/-- The keywords of `ScrollAxis` (src/properties/animation.rs:281-293). -/
instance : Kw ScrollAxis where
  all := [.block, .«inline», .x, .y]
  name
    | .block => cs!"block"
    | .«inline» => cs!"inline"
    | .x => cs!"x"
    | .y => cs!"y"

/-- `ScrollTimeline` (src/properties/animation.rs:209-214). -/
structure Scroll where
  /-- the scroll container -/
  scroller : Scroller
  /-- the axis -/
  axis : ScrollAxis
  deriving DecidableEq, Repr

/-- The body of the loop of `ScrollTimeline::parse` (src/properties/animation.rs:222-234): reading a
scroller does not `continue`, reading an axis does. -/
def Scroll.step (s : Option Scroller × Option ScrollAxis) (i : List Tok) :
    (Option Scroller × Option ScrollAxis) × List Tok × Bool :=
  let (scroller, i) := if s.1.isNone then optParse Kw.parse i else (s.1, i)
  if s.2.isNone then
    let (axis, i) := optParse Kw.parse i
    if axis.isSome then ((scroller, axis), i, true) else ((scroller, axis), i, false)
  else ((scroller, s.2), i, false)

/-- The arguments of `scroll()` (src/properties/animation.rs:219-240). -/
def Scroll.args : Parser Scroll := fun i =>
  let (s, i) := run Scroll.step 2 (none, none) i
  some (⟨s.1.getD .nearest, s.2.getD .block⟩, i)

/-- `ScrollTimeline::parse` (src/properties/animation.rs:216-242). -/
def Scroll.parse : Parser Scroll := fun i =>
  match expectFunc cs!"scroll" i with
  | some i => nested Scroll.args i
  | none => none

/-- `ScrollTimeline::to_css` (src/properties/animation.rs:244-265). -/
def Scroll.print (s : Scroll) : List Tok :=
  let a := if s.scroller ≠ .nearest then Kw.print s.scroller else []
  let needsSpace := decide (s.scroller ≠ .nearest)
  let b := if s.axis ≠ .block then (if needsSpace then [.ws] else []) ++ Kw.print s.axis else []
  [.func cs!"scroll"] ++ a ++ b ++ [.close]

/-- `LengthPercentageOrAuto` (src/values/length.rs:61-66); `T` is `LengthPercentage`. -/
inductive LpAuto (T : Type) where
  /-- `auto` -/
  | auto
  /-- a length or percentage -/
  | lp (t : T)
  deriving DecidableEq, Repr

/-- `#[derive(Parse)]` of `LengthPercentageOrAuto` (src/values/length.rs:52). -/
def LpAuto.parse {T} (lp : Codec T) : Parser (LpAuto T) := fun i =>
  match expectIdent cs!"auto" i with
  | some i => some (.auto, i)
  | none =>
    match lp.parse i with
    | some (v, i) => some (.lp v, i)
    | none => none

/-- `#[derive(ToCss)]` of `LengthPercentageOrAuto` (src/values/length.rs:52). -/
def LpAuto.print {T} (lp : Codec T) : LpAuto T → List Tok
  | .auto => [.ident cs!"auto"]
  | .lp v => lp.print v

/-- `ViewTimeline` (src/properties/animation.rs:307-312). -/
structure View (T : Type) where
  /-- the axis -/
  axis : ScrollAxis
  /-- the insets -/
  inset : LpAuto T × LpAuto T
  deriving DecidableEq, Repr

/-- `Size2D::parse` (src/values/size.rs:24-28). -/
def parseInset {T} (lp : Codec T) : Parser (LpAuto T × LpAuto T) := fun i =>
  match LpAuto.parse lp i with
  | none => none
  | some (a, i) =>
    match LpAuto.parse lp i with
    | some (b, i) => some ((a, b), i)
    | none => some ((a, a), i)

/-- `Size2D::to_css` (src/values/size.rs:35-45). -/
def printInset {T} [DecidableEq T] (lp : Codec T) (x : LpAuto T × LpAuto T) : List Tok :=
  x.1.print lp ++ if x.2 ≠ x.1 then .ws :: x.2.print lp else []

/-- The body of the loop of `ViewTimeline::parse` (src/properties/animation.rs:320-332). -/
def View.step {T} (lp : Codec T) (s : Option ScrollAxis × Option (LpAuto T × LpAuto T)) (i : List Tok) :
    (Option ScrollAxis × Option (LpAuto T × LpAuto T)) × List Tok × Bool :=
  let (axis, i) := if s.1.isNone then optParse Kw.parse i else (s.1, i)
  if s.2.isNone then
    let (inset, i) := optParse (parseInset lp) i
    if inset.isSome then ((axis, inset), i, true) else ((axis, inset), i, false)
  else ((axis, s.2), i, false)

/-- The arguments of `view()` (src/properties/animation.rs:317-338). -/
def View.args {T} (lp : Codec T) : Parser (View T) := fun i =>
  let (s, i) := run (View.step lp) 2 (none, none) i
  some (⟨s.1.getD .block, s.2.getD (.auto, .auto)⟩, i)

/-- `ViewTimeline::parse` (src/properties/animation.rs:314-340). -/
def View.parse {T} (lp : Codec T) : Parser (View T) := fun i =>
  match expectFunc cs!"view" i with
  | some i => nested (View.args lp) i
  | none => none

/-- `ViewTimeline::to_css` (src/properties/animation.rs:342-363). -/
def View.print {T} [DecidableEq T] (lp : Codec T) (v : View T) : List Tok :=
  let a := if v.axis ≠ .block then Kw.print v.axis else []
  let needsSpace := decide (v.axis ≠ .block)
  let b :=
    if v.inset.1 ≠ .auto ∨ v.inset.2 ≠ .auto then (if needsSpace then [.ws] else []) ++ printInset lp v.inset
    else []
  [.func cs!"view"] ++ a ++ b ++ [.close]

/-! ### `animation-range` (src/properties/animation.rs) -/

/-- `RangeName` (src/properties/animation.rs:375-390). -/
inductive RangeName where
  /-- `cover` -/
  | cover
  /-- `contain` -/
  | contain
  /-- `entry` -/
  | entry
  /-- `exit` -/
  | exit
  /-- `entry-crossing` -/
  | entryCrossing
  /-- `exit-crossing` -/
  | exitCrossing
  deriving DecidableEq, Repr

/-- The keywords of `RangeName` (src/properties/animation.rs:375-390). -/
instance : Kw RangeName where
  all := [.cover, .contain, .entry, .exit, .entryCrossing, .exitCrossing]
  name
    | .cover => cs!"cover"
    | .contain => cs!"contain"
    | .entry => cs!"entry"
    | .exit => cs!"exit"
    | .entryCrossing => cs!"entry-crossing"
    | .exitCrossing => cs!"exit-crossing"

/-- `AnimationAttachmentRange` (src/properties/animation.rs:403-420); `T` is `LengthPercentage`. -/
inductive Attachment (T : Type) where
  /-- `normal` -/
  | normal
  /-- a length or percentage -/
  | lp (t : T)
  /-- a named range with an offset -/
  | range (name : RangeName) (offset : T)
  deriving DecidableEq, Repr

/-- `AnimationAttachmentRange::parse` (src/properties/animation.rs:433-449); `dflt` is
`LengthPercentage::Percentage(Percentage(default))`. -/
def Attachment.parse {T} (lp : Codec T) (dflt : T) : Parser (Attachment T) := fun i =>
  match expectIdent cs!"normal" i with
  | some i => some (.normal, i)
  | none =>
    match lp.parse i with
    | some (v, i) => some (.lp v, i)
    | none =>
      match Kw.parse i with
      | some (name, i) =>
        match lp.parse i with
        | some (v, i) => some (.range name v, i)
        | none => some (.range name dflt, i)
      | none => none

/-- `AnimationAttachmentRange::to_css` (src/properties/animation.rs:451-468). -/
def Attachment.print {T} [DecidableEq T] (lp : Codec T) (dflt : T) : Attachment T → List Tok
  | .normal => [.ident cs!"normal"]
  | .lp v => lp.print v
  | .range name offset => Kw.print name ++ if offset ≠ dflt then .ws :: lp.print offset else []

/-- `AnimationRange` (src/properties/animation.rs:533-538); the two ends. -/
structure AnimationRange (T : Type) where
  /-- `animation-range-start` -/
  start : Attachment T
  /-- `animation-range-end` -/
  «end» : Attachment T
  deriving DecidableEq, Repr

/-- `LengthPercentage` with the percentages `0%` and `100%`. -/
structure RangeParts (T : Type) where
  /-- `LengthPercentage` -/
  lp : Codec T
  /-- `0%` -/
  p0 : T
  /-- `100%` -/
  p100 : T

/-- `AnimationRange::parse` (src/properties/animation.rs:540-561). The end is read with the parser of the
start. -/
def AnimationRange.parse {T} (p : RangeParts T) : Parser (AnimationRange T) := fun i =>
  match Attachment.parse p.lp p.p0 i with
  | none => none
  | some (start, i) =>
    match Attachment.parse p.lp p.p0 i with
    | some (e, i) => some (⟨start, e⟩, i)
    | none =>
      match start with
      | .range name _ => some (⟨start, .range name p.p100⟩, i)
      | _ => some (⟨start, .normal⟩, i)

/-- `omit_end` (src/properties/animation.rs:570-579). -/
def AnimationRange.omitEnd {T} [DecidableEq T] (p : RangeParts T) (r : AnimationRange T) : Bool :=
  match r.start, r.end with
  | .range n _, .range m o => n = m && o = p.p100
  | _, e => e = .normal

/-- `AnimationRange::to_css` (src/properties/animation.rs:563-587). -/
def AnimationRange.print {T} [DecidableEq T] (p : RangeParts T) (r : AnimationRange T) : List Tok :=
  r.start.print p.lp p.p0 ++ if !r.omitEnd p then .ws :: r.end.print p.lp p.p100 else []

/-! ### `animation` (src/properties/animation.rs) -/

/-- `Direction` (src/properties/animation.rs:109-121). -/
inductive Direction where
  /-- `normal` -/
  | normal
  /-- `reverse` -/
  | reverse
  /-- `alternate` -/
  | alternate
  /-- `alternate-reverse` -/
  | alternateReverse
  deriving DecidableEq, Repr

/-- The keywords of `Direction` (src/properties/animation.rs:109-121). -/
instance : Kw Direction where
  all := [.normal, .reverse, .alternate, .alternateReverse]
  name
    | .normal => cs!"normal"
    | .reverse => cs!"reverse"
    | .alternate => cs!"alternate"
    | .alternateReverse => cs!"alternate-reverse"

/-- `PlayState` (src/properties/animation.rs:129-137). -/
inductive PlayState where
  /-- `running` -/
  | running
  /-- `paused` -/
  | paused
  deriving DecidableEq, Repr

/-- The keywords of `PlayState` (src/properties/animation.rs:129-137). -/
instance : Kw PlayState where
  all := [.running, .paused]
  name
    | .running => cs!"running"
    | .paused => cs!"paused"

/-- `FillMode` (src/properties/animation.rs:145-157). -/
inductive FillMode where
  /-- `none` -/
  | none
  /-- `forwards` -/
  | forwards
  /-- `backwards` -/
  | backwards
  /-- `both` -/
  | both
  deriving DecidableEq, Repr

/-- The keywords of `FillMode` (src/properties/animation.rs:145-157). -/
instance : Kw FillMode where
  all := [.none, .forwards, .backwards, .both]
  name
    | .none => cs!"none"
    | .forwards => cs!"forwards"
    | .backwards => cs!"backwards"
    | .both => cs!"both"

/-- `AnimationName` (src/properties/animation.rs:36-45). -/
inductive AnimName where
  /-- `none` -/
  | none
  /-- an identifier -/
  | ident (s : Str)
  /-- a string -/
  | string (s : Str)
  deriving DecidableEq, Repr

/-- `#[derive(Parse)]` of `AnimationName` (src/properties/animation.rs:27). -/
def AnimName.parse : Parser AnimName := fun i =>
  match expectIdent cs!"none" i with
  | some i => some (.none, i)
  | Option.none =>
    match parseCustomIdent i with
    | some (s, i) => some (.ident s, i)
    | Option.none =>
      match next i with
      | some (.str s, r) => some (.string s, r)
      | _ => Option.none

/-- `AnimationName::to_css` (src/properties/animation.rs:47-84), without CSS modules. -/
def AnimName.print : AnimName → List Tok
  | .none => [.ident cs!"none"]
  | .ident s => [.ident s]
  | .string s =>
    if lower s ∈ [cs!"none", cs!"initial", cs!"inherit", cs!"unset", cs!"default", cs!"revert",
      cs!"revert-layer"] then [.str s]
    else [.ident s]

/-- `AnimationIterationCount` (src/properties/animation.rs:97-102). -/
inductive Count (N : Type) where
  /-- a number -/
  | number (n : N)
  /-- `infinite` -/
  | infinite
  deriving DecidableEq, Repr

/-- `#[derive(Parse)]` of `AnimationIterationCount` (src/properties/animation.rs:88). -/
def Count.parse {N} (num : Codec N) : Parser (Count N) := fun i =>
  match num.parse i with
  | some (n, i) => some (.number n, i)
  | none => (expectIdent cs!"infinite" i).map (fun i => (.infinite, i))

/-- `#[derive(ToCss)]` of `AnimationIterationCount` (src/properties/animation.rs:88). -/
def Count.print {N} (num : Codec N) : Count N → List Tok
  | .number n => num.print n
  | .infinite => [.ident cs!"infinite"]

/-- `AnimationTimeline` (src/properties/animation.rs:186-199); `T` is `LengthPercentage`. -/
inductive Timeline (T : Type) where
  /-- `auto` -/
  | auto
  /-- `none` -/
  | none
  /-- a dashed identifier -/
  | dashed (s : Str)
  /-- `scroll()` -/
  | scroll (s : Scroll)
  /-- `view()` -/
  | view (v : View T)
  deriving DecidableEq, Repr

/-- `DashedIdent::parse` (src/values/ident.rs:153-163). -/
def parseDashed : Parser Str := fun i =>
  match next i with
  | some (.ident s, r) => if s.take 2 = cs!"--" then some (s, r) else none
  | _ => none

/-- `#[derive(Parse)]` of `AnimationTimeline` (src/properties/animation.rs:177). -/
def Timeline.parse {T} (lp : Codec T) : Parser (Timeline T) := fun i =>
  let rest :=
    match parseDashed i with
    | some (s, i) => some (.dashed s, i)
    | Option.none =>
      match Scroll.parse i with
      | some (s, i) => some (.scroll s, i)
      | Option.none =>
        match View.parse lp i with
        | some (v, i) => some (.view v, i)
        | Option.none => Option.none
  match next i with
  | some (.ident s, r) =>
    if lower s = cs!"auto" then some (.auto, r)
    else if lower s = cs!"none" then some (.none, r)
    else rest
  | _ => rest

/-- `#[derive(ToCss)]` of `AnimationTimeline` (src/properties/animation.rs:177). -/
def Timeline.print {T} [DecidableEq T] (lp : Codec T) : Timeline T → List Tok
  | .auto => [.ident cs!"auto"]
  | .none => [.ident cs!"none"]
  | .dashed s => [.ident s]
  | .scroll s => s.print
  | .view v => v.print lp

/-- The types an animation is made of: times, numbers, lengths. -/
structure AnimParts (M N T : Type) where
  /-- `Time` -/
  time : Codec M
  /-- `Time::is_zero` -/
  isZero : M → Bool
  /-- `Time::Seconds(0.0)` -/
  zero : M
  /-- easing functions, with the numbers -/
  easing : EasingParts N
  /-- `LengthPercentage` -/
  lp : Codec T

/-- `Animation` (src/properties/animation.rs:591-613). -/
structure Animation (M N T : Type) where
  /-- `animation-name` -/
  name : AnimName
  /-- `animation-duration` -/
  duration : M
  /-- `animation-timing-function` -/
  timing : Easing N
  /-- `animation-iteration-count` -/
  count : Count N
  /-- `animation-direction` -/
  direction : Direction
  /-- `animation-play-state` -/
  play : PlayState
  /-- `animation-delay` -/
  delay : M
  /-- `animation-fill-mode` -/
  fill : FillMode
  /-- `animation-timeline` -/
  timeline : Timeline T
  deriving DecidableEq, Repr

/-- What is known while `animation` is read (src/properties/animation.rs:617-625). -/
structure AnimSlots (M N T : Type) where
  /-- the duration -/
  duration : Option M := none
  /-- the timing function -/
  timing : Option (Easing N) := none
  /-- the delay -/
  delay : Option M := none
  /-- the count -/
  count : Option (Count N) := none
  /-- the direction -/
  direction : Option Direction := none
  /-- the fill mode -/
  fill : Option FillMode := none
  /-- the play state -/
  play : Option PlayState := none
  /-- the name -/
  name : Option AnimName := none
  /-- the timeline -/
  timeline : Option (Timeline T) := none

/-- The body of the loop of `Animation::parse` (src/properties/animation.rs:638-649). -/
def Animation.step {M N T} (p : AnimParts M N T) (s : AnimSlots M N T) (i : List Tok) :
    AnimSlots M N T × List Tok × Bool :=
  match tryOne s.duration p.time.parse i with
  | some (v, i) => ({ s with duration := some v }, i, true)
  | none =>
  match tryOne s.timing (Easing.parse p.easing) i with
  | some (v, i) => ({ s with timing := some v }, i, true)
  | none =>
  match tryOne s.delay p.time.parse i with
  | some (v, i) => ({ s with delay := some v }, i, true)
  | none =>
  match tryOne s.count (Count.parse p.easing.num) i with
  | some (v, i) => ({ s with count := some v }, i, true)
  | none =>
  match tryOne s.direction Kw.parse i with
  | some (v, i) => ({ s with direction := some v }, i, true)
  | none =>
  match tryOne s.fill Kw.parse i with
  | some (v, i) => ({ s with fill := some v }, i, true)
  | none =>
  match tryOne s.play Kw.parse i with
  | some (v, i) => ({ s with play := some v }, i, true)
  | none =>
  match tryOne s.name AnimName.parse i with
  | some (v, i) => ({ s with name := some v }, i, true)
  | none =>
  match tryOne s.timeline (Timeline.parse p.lp) i with
  | some (v, i) => ({ s with timeline := some v }, i, true)
  | none => (s, i, false)

/-- `Animation::parse` (src/properties/animation.rs:615-663). -/
def Animation.parse {M N T} (p : AnimParts M N T) : Parser (Animation M N T) := fun i =>
  let (s, i) := run (Animation.step p) 10 {} i
  some (⟨s.name.getD .none, s.duration.getD p.zero, s.timing.getD .ease,
    s.count.getD (.number (p.easing.lit 100)), s.direction.getD .normal, s.play.getD .running,
    s.delay.getD p.zero, s.fill.getD .none, s.timeline.getD .auto⟩, i)

/-- The components before the name (src/properties/animation.rs:672-710): the name is `name`. -/
def Animation.front {M N T} [DecidableEq N] (p : AnimParts M N T) (minify : Bool) (a : Animation M N T)
    (name : Str) : List Tok :=
  (if !p.isZero a.duration || !p.isZero a.delay then p.time.print a.duration ++ [.ws] else []) ++
  (if !a.timing.isEase p.easing || Easing.isIdent name then a.timing.print p.easing minify ++ [.ws] else []) ++
  (if !p.isZero a.delay then p.time.print a.delay ++ [.ws] else []) ++
  (if a.count ≠ .number (p.easing.lit 100) ∨ name = cs!"infinite" then a.count.print p.easing.num ++ [.ws]
   else []) ++
  (if a.direction ≠ .normal ∨ Kw.isIdent Direction name then Kw.print a.direction ++ [.ws] else []) ++
  (if a.fill ≠ .none ∨ (lower name ≠ cs!"none" ∧ Kw.isIdent FillMode name) then Kw.print a.fill ++ [.ws]
   else []) ++
  (if a.play ≠ .running ∨ Kw.isIdent PlayState name then Kw.print a.play ++ [.ws] else [])

/-- `Animation::to_css` (src/properties/animation.rs:665-727). -/
def Animation.print {M N T} [DecidableEq N] [DecidableEq T] (p : AnimParts M N T) (minify : Bool)
    (a : Animation M N T) : List Tok :=
  (match a.name with
    | .none => []
    | .ident s => a.front p minify s
    | .string s => a.front p minify s) ++
  a.name.print ++
  if a.name ≠ .none ∧ a.timeline ≠ .auto then .ws :: a.timeline.print p.lp else []

/-! ### `transition` (src/properties/transition.rs) -/

/-- `Transition` (src/properties/transition.rs:22-35). A property is represented by its name, as
`PropertyId` is printed. -/
structure Transition (M N : Type) where
  /-- `transition-property` -/
  property : Str
  /-- `transition-duration` -/
  duration : M
  /-- `transition-delay` -/
  delay : M
  /-- `transition-timing-function` -/
  timing : Easing N
  deriving DecidableEq, Repr

/-- What is known while `transition` is read (src/properties/transition.rs:39-42). -/
structure TransSlots (M N : Type) where
  /-- the property -/
  property : Option Str := none
  /-- the duration -/
  duration : Option M := none
  /-- the delay -/
  delay : Option M := none
  /-- the timing function -/
  timing : Option (Easing N) := none

/-- `PropertyId::parse` (src/properties/mod.rs:240-245): every identifier is the name of a property. Names of
known properties are matched without regard to case; here they are kept as written. -/
def parsePropertyId : Parser Str := fun i =>
  match next i with
  | some (.ident s, r) => some (s, r)
  | _ => none

/-- The body of the loop of `Transition::parse` (src/properties/transition.rs:44-74). -/
def Transition.step {M N T} (p : AnimParts M N T) (s : TransSlots M N) (i : List Tok) :
    TransSlots M N × List Tok × Bool :=
  match tryOne s.duration p.time.parse i with
  | some (v, i) => ({ s with duration := some v }, i, true)
  | none =>
  match tryOne s.timing (Easing.parse p.easing) i with
  | some (v, i) => ({ s with timing := some v }, i, true)
  | none =>
  match tryOne s.delay p.time.parse i with
  | some (v, i) => ({ s with delay := some v }, i, true)
  | none =>
  match tryOne s.property parsePropertyId i with
  | some (v, i) => ({ s with property := some v }, i, true)
  | none => (s, i, false)

/-- `Transition::parse` (src/properties/transition.rs:37-82). -/
def Transition.parse {M N T} (p : AnimParts M N T) : Parser (Transition M N) := fun i =>
  let (s, i) := run (Transition.step p) 5 {} i
  some (⟨s.property.getD cs!"all", s.duration.getD p.zero, s.delay.getD p.zero, s.timing.getD .ease⟩, i)

/-- `Transition::to_css` (src/properties/transition.rs:84-107). -/
def Transition.print {M N T} [DecidableEq N] (p : AnimParts M N T) (minify : Bool) (t : Transition M N) :
    List Tok :=
  [.ident t.property] ++
  (if !p.isZero t.duration || !p.isZero t.delay then .ws :: p.time.print t.duration else []) ++
  (if !t.timing.isEase p.easing then .ws :: t.timing.print p.easing minify else []) ++
  (if !p.isZero t.delay then .ws :: p.time.print t.delay else [])

end Verif.Shorthand
