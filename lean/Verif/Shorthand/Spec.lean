import Verif.Shorthand.Anim
/-!
What is assumed of the types the shorthands are made of (numbers, lengths, times, colors, images), and
what the values of the shorthands mean. Only the types and tokens of the model are used.
-/
namespace Verif.Shorthand

/-- Where a value ends: the end of the declaration, a comma or a closing parenthesis. -/
def Ends (r : List Tok) : Prop := r = [] ∨ ∃ l, r = .comma :: l ∨ r = .close :: l

/-- Two tokens that would be read as one, or as other tokens, if written without a space: an identifier,
number, hash, … followed by an identifier, function, number, … (CSS Syntax § 9). -/
def Sticks (a b : Tok) : Prop :=
  (match a with | .ident _ => True | .other _ => True | _ => False) ∧
  (match b with | .ident _ => True | .func _ => True | .other _ => True | _ => False)

/-- No two adjacent tokens stick together: the text of the list reads as the list. -/
def Separated : List Tok → Prop
  | a :: b :: l => ¬Sticks a b ∧ Separated (b :: l)
  | _ => True

/-- A type of values with a parser, a printer and a meaning.
* `skip`: white space before a value is skipped;
* `back`: a printed value reads back as a value that means the same, and the rest is left;
* `stop`: no value begins where a value ends;
* `sep`: the tokens of a value are separated. -/
structure Leaf {α V : Type} (c : Codec α) (sem : α → V) : Prop where
  skip : ∀ i, c.parse (.ws :: i) = c.parse i
  back : ∀ a r, ∃ a', c.parse (c.print a ++ r) = some (a', r) ∧ sem a' = sem a
  stop : ∀ r, Ends r → c.parse r = none
  sep : ∀ a, Separated (c.print a)

/-- The functions that belong to other types than the numeric ones, colors and images. -/
def otherFunctions : List Str :=
  [cs!"cubic-bezier", cs!"steps", cs!"scroll", cs!"view", cs!"symbols"]

/-- A type whose values are never identifiers or strings: numbers, lengths, percentages, times, images. -/
structure Plain {α V : Type} (c : Codec α) (sem : α → V) : Prop extends Leaf c sem where
  no_ident : ∀ s r, c.parse (.ident s :: r) = none
  no_str : ∀ s r, c.parse (.str s :: r) = none
  no_func : ∀ s r, lower s ∈ otherFunctions → c.parse (.func s :: r) = none
  first : ∀ a, ∃ t l, c.print a = t :: l ∧
    ((∃ s, t = .other s) ∨ ∃ f, t = .func f ∧ lower f ∉ otherFunctions)

/-- Keywords that are not names of colors. -/
def notColors : List Str := [
  cs!"auto", cs!"bar", cs!"block", cs!"underscore", cs!"none", cs!"hidden", cs!"inset", cs!"groove",
  cs!"outset", cs!"ridge", cs!"dotted", cs!"dashed", cs!"solid", cs!"double", cs!"thin", cs!"medium",
  cs!"thick", cs!"wavy", cs!"from-font", cs!"underline", cs!"overline", cs!"line-through", cs!"blink",
  cs!"spelling-error", cs!"grammar-error", cs!"filled", cs!"open", cs!"dot", cs!"circle",
  cs!"double-circle", cs!"triangle", cs!"sesame"]

/-- The type of colors: a color may be an identifier, but not one of `notColors`. -/
structure ColorLaw {α V : Type} (c : Codec α) (sem : α → V) : Prop extends Leaf c sem where
  no_keyword : ∀ s r, lower s ∈ notColors → c.parse (.ident s :: r) = none
  no_str : ∀ s r, c.parse (.str s :: r) = none
  first : ∀ a, ∃ t l, c.print a = t :: l ∧
    ((∃ s, t = .ident s ∧ lower s ∉ notColors) ∨ (∃ s, t = .other s) ∨
      ∃ f, t = .func f ∧ lower f ∉ otherFunctions)

/-- `p` reads nothing at the beginning of a printed `c`. -/
def Apart {α β : Type} (p : Parser α) (c : Codec β) : Prop := ∀ b r, p (c.print b ++ r) = none

/-! ### What the values mean, given what their components mean -/

/-- A color or `auto`, with the meaning of the color. -/
def ColorOrAuto.map {C V} (f : C → V) : ColorOrAuto C → ColorOrAuto V
  | .auto => .auto
  | .color c => .color (f c)

/-- A caret, with the meaning of its color. -/
def Caret.map {C V} (f : C → V) (c : Caret C) : Caret V := ⟨c.color.map f, c.shape⟩

/-- A border width, with the meaning of the length. -/
def BorderWidth.map {L V} (f : L → V) : BorderWidth L → BorderWidth V
  | .thin => .thin
  | .medium => .medium
  | .thick => .thick
  | .length l => .length (f l)

/-- A border, with the meanings of its parts. -/
def Border.map {L S C U W} (f : L → U) (g : C → W) (b : Border L S C) : Border U S W :=
  ⟨b.width.map f, b.style, g b.color⟩

/-- A gap value, with the meaning of the length. -/
def GapValue.map {T V} (f : T → V) : GapValue T → GapValue V
  | .normal => .normal
  | .length t => .length (f t)

/-- A gap, with the meanings of its parts. -/
def Gap.map {T V} (f : T → V) (g : Gap T) : Gap V := ⟨g.row.map f, g.column.map f⟩

/-- What is assumed of the parts of `flex`: a zero percentage means `0%`; a number is not read where a
basis is printed, unless it is a zero length (which is printed as `0`). -/
structure FlexLaw {N L P K U V : Type} (p : FlexParts N L P K) (num : N → U) (basis : Basis L P K → V) :
    Prop where
  numbers : Plain p.num num
  bases : Leaf p.basis basis
  no_none : ∀ b r, expectIdent cs!"none" (p.basis.print b ++ r) = none
  zero : ∀ q, p.pctZero q = true → basis (.pct q) = basis (.pct p.pct0)
  apart : ∀ b r, (∀ l, b = .dim l → p.lengthZero l = false) → p.num.parse (p.basis.print b ++ r) = none

/-- The names that may be written in a `container` property: not `none`, `and`, `not`, `or` or a CSS-wide
keyword. -/
def NameOk (s : Str) : Prop :=
  lower s ∉ [cs!"initial", cs!"inherit", cs!"unset", cs!"default", cs!"revert", cs!"revert-layer",
    cs!"none", cs!"and", cs!"not", cs!"or"]

instance (s : Str) : Decidable (NameOk s) := by unfold NameOk; infer_instance

/-- A list of container names that can be written: `none`, or at least one name. -/
def ContainerNames.Ok : ContainerNames → Prop
  | .none => True
  | .names l => l ≠ [] ∧ ∀ s ∈ l, NameOk s

/-- The type of a list marker, with the meaning of `symbols()`. -/
def ListType.map {Y V} (f : Y → V) : ListType Y → ListType V
  | .none => .none
  | .string s => .string s
  | .predefined s => .predefined s
  | .name s => .name s
  | .symbols y => .symbols (f y)

/-- A list style, with the meanings of its parts. -/
def ListStyle.map {I Y V W} (f : I → V) (g : Y → W) (l : ListStyle I Y) : ListStyle V W :=
  ⟨l.position, l.image.map f, l.type.map g⟩

/-- A list marker that can be written: a name of a counter style is not `none`, a CSS-wide keyword or one of
the predefined counter styles. -/
def ListType.Ok {Y} : ListType Y → Prop
  | .predefined s => s ∈ predefinedCounterStyles
  | .name s => lower s ∉ predefinedCounterStyles ∧
      lower s ∉ [cs!"none", cs!"initial", cs!"inherit", cs!"unset", cs!"default", cs!"revert", cs!"revert-layer"]
  | _ => True

/-- What is assumed of `symbols()`: it is a function of that name. -/
structure SymbolsLaw {Y V : Type} (c : Codec Y) (sem : Y → V) : Prop extends Leaf c sem where
  no_ident : ∀ s r, c.parse (.ident s :: r) = none
  first : ∀ a, ∃ l, c.print a = .func cs!"symbols" :: l

/-- A text decoration, with the meanings of its parts. -/
def Thickness.map {T V} (f : T → V) : Thickness T → Thickness V
  | .auto => .auto
  | .fromFont => .fromFont
  | .length t => .length (f t)

/-- A text decoration, with the meanings of its parts. -/
def TextDecoration.map {T C V W} (f : T → V) (g : C → W) (d : TextDecoration T C) : TextDecoration V W :=
  ⟨d.line, d.thickness.map f, d.style, g d.color⟩

/-- A text emphasis, with the meaning of its color. -/
def TextEmphasis.map {C V} (f : C → V) (e : TextEmphasis C) : TextEmphasis V := ⟨e.style, f e.color⟩

/-- The lines that can be combined: `spelling-error` and `grammar-error` stand alone. -/
def TextLine.Ok (l : TextLine) : Prop :=
  (l.spellingError = true → l = ⟨false, false, false, false, true, false⟩) ∧
  (l.grammarError = true → l = ⟨false, false, false, false, false, true⟩)

/-! ### Easing functions -/

/-- What an easing function is: the identity, a cubic Bézier curve or a staircase
(CSS Easing Functions § 2). -/
inductive Curve (V : Type) where
  /-- the identity -/
  | linear
  /-- a cubic Bézier curve -/
  | bezier (x1 y1 x2 y2 : V)
  /-- a staircase -/
  | steps (count : Int) (position : StepPosition)
  deriving DecidableEq

/-- The curve of an easing function; `h n` is the number of `n` hundredths. -/
def Easing.curve {N V} (num : N → V) (h : Nat → V) : Easing N → Curve V
  | .linear => .linear
  | .ease => .bezier (h 25) (h 10) (h 25) (h 100)
  | .easeIn => .bezier (h 42) (h 0) (h 100) (h 100)
  | .easeOut => .bezier (h 0) (h 0) (h 58) (h 100)
  | .easeInOut => .bezier (h 42) (h 0) (h 58) (h 100)
  | .cubicBezier x1 y1 x2 y2 => .bezier (num x1) (num y1) (num x2) (num y2)
  | .steps n p => .steps n p

/-- What is assumed of the numbers of easing functions. -/
structure EasingLaw {N V : Type} (p : EasingParts N) (num : N → V) (h : Nat → V) : Prop where
  numbers : Plain p.num num
  ints : Plain p.int id
  lit : ∀ n, num (p.lit n) = h n

/-- The keywords of easing functions (CSS Easing Functions § 2). -/
def easingKeywords : List Str :=
  [cs!"linear", cs!"ease", cs!"ease-in", cs!"ease-out", cs!"ease-in-out", cs!"step-start", cs!"step-end"]

/-! ### `view()`, `animation-range` -/

/-- A length, percentage or `auto`, with its meaning. -/
def LpAuto.map {T V} (f : T → V) : LpAuto T → LpAuto V
  | .auto => .auto
  | .lp t => .lp (f t)

/-- A `view()` timeline, with the meanings of its insets. -/
def View.map {T V} (f : T → V) (v : View T) : View V := ⟨v.axis, v.inset.1.map f, v.inset.2.map f⟩

/-- A timeline, with the meanings of its insets. -/
def Timeline.map {T V} (f : T → V) : Timeline T → Timeline V
  | .auto => .auto
  | .none => .none
  | .dashed s => .dashed s
  | .scroll s => .scroll s
  | .view v => .view (v.map f)

/-- An end of a range, with the meaning of its offset. -/
def Attachment.map {T V} (f : T → V) : Attachment T → Attachment V
  | .normal => .normal
  | .lp t => .lp (f t)
  | .range n o => .range n (f o)

/-- How `animation-range` is read (Scroll-driven Animations § 3.3): in the start a name alone means `0%` of
that range, in the end it means `100%`; if the end is left out it is `100%` of the range that the start names,
or `normal`. -/
def readRange {T} (p : RangeParts T) : Parser (AnimationRange T) := fun i =>
  match Attachment.parse p.lp p.p0 i with
  | none => none
  | some (a, i) =>
    match Attachment.parse p.lp p.p100 i with
    | some (b, i) => some (⟨a, b⟩, i)
    | none =>
      match a with
      | .range n _ => some (⟨a, .range n p.p100⟩, i)
      | _ => some (⟨a, .normal⟩, i)

/-! ### `animation`, `transition` -/

/-- The name of the keyframes, if any; a string and an identifier with the same text are the same name. -/
def AnimName.key : AnimName → Option Str
  | .none => Option.none
  | .ident s => some s
  | .string s => some s

/-- An animation, with the meanings of its parts. -/
structure AnimValue (U V W : Type) where
  /-- the keyframes -/
  name : Option Str
  /-- the duration -/
  duration : U
  /-- the easing curve -/
  timing : Curve V
  /-- the iteration count -/
  count : Count V
  /-- the direction -/
  direction : Direction
  /-- the play state -/
  play : PlayState
  /-- the delay -/
  delay : U
  /-- the fill mode -/
  fill : FillMode
  /-- the timeline -/
  timeline : Timeline W

/-- The meaning of an iteration count. -/
def Count.map {N V} (f : N → V) : Count N → Count V
  | .number n => .number (f n)
  | .infinite => .infinite

/-- The meaning of an animation. -/
def Animation.value {M N T U V W} (time : M → U) (num : N → V) (h : Nat → V) (lp : T → W)
    (a : Animation M N T) : AnimValue U V W :=
  ⟨a.name.key, time a.duration, a.timing.curve num h, a.count.map num, a.direction, a.play, time a.delay, a.fill,
    a.timeline.map lp⟩

/-- What is assumed of the parts of an animation: a number is not a time. -/
structure AnimLaw {M N T U V W : Type} (p : AnimParts M N T) (time : M → U) (num : N → V) (h : Nat → V)
    (lp : T → W) : Prop where
  times : Plain p.time time
  easings : EasingLaw p.easing num h
  lengths : Plain p.lp lp
  zero : ∀ m, p.isZero m = true → time m = time p.zero
  apart : Apart p.time.parse p.easing.num

/-- The initial value of an animation, but for its name. -/
def Animation.Initial {M N T} (p : AnimParts M N T) (a : Animation M N T) : Prop :=
  p.isZero a.duration = true ∧ p.isZero a.delay = true ∧ a.timing = .ease ∧
  a.count = .number (p.easing.lit 100) ∧ a.direction = .normal ∧ a.play = .running ∧ a.fill = .none ∧
  a.timeline = .auto

/-- A timeline that can be written: the name of a timeline begins with two dashes. -/
def Timeline.Ok {T} : Timeline T → Prop
  | .dashed s => ∃ l, s = '-' :: '-' :: l
  | _ => True

/-- The animations that are printed faithfully.
* An animation without a name has the initial values.
* The name is not empty; an identifier is not `none` or a CSS-wide keyword.
* A name that is, but for its case, a keyword of an easing function or `infinite`, is in lower case.
* The timeline is not `none`, unless the fill mode is printed: it is not `none`, or the name is one of the
  other fill modes. -/
def Animation.Ok {M N T} (p : AnimParts M N T) (a : Animation M N T) : Prop :=
  a.timeline.Ok ∧
  match a.name.key with
  | Option.none => a.Initial p
  | some s => s ≠ [] ∧
    (a.name = .ident s → lower s ∉ [cs!"none", cs!"initial", cs!"inherit", cs!"unset", cs!"default",
      cs!"revert", cs!"revert-layer"]) ∧
    (lower s ∈ easingKeywords ∨ lower s = cs!"infinite" → lower s = s) ∧
    (a.timeline = .none → a.fill ≠ .none ∨ lower s ∈ [cs!"forwards", cs!"backwards", cs!"both"])

/-- A transition, with the meanings of its parts. -/
def Transition.value {M N U V} (time : M → U) (num : N → V) (h : Nat → V) (t : Transition M N) :
    Str × U × U × Curve V :=
  (t.property, time t.duration, time t.delay, t.timing.curve num h)

end Verif.Shorthand
