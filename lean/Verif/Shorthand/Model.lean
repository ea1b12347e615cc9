import Verif.Shorthand.Tok
/-!
Shorthand properties whose components are separated by spaces: how they are read and printed.
The types of colors, images, lengths, numbers and strings are parameters with their own parsers and
printers.
-/
namespace Verif.Shorthand

/-! ### `caret` (src/properties/ui.rs) -/

/-- `CaretShape` (src/properties/ui.rs:225-237). -/
inductive CaretShape where
  /-- `auto` -/
  | auto
  /-- `bar` -/
  | bar
  /-- `block` -/
  | block
  /-- `underscore` -/
  | underscore
  deriving DecidableEq, Repr

/-- The keywords of `CaretShape` (src/properties/ui.rs:225-237). -/
instance : Kw CaretShape where
  all := [.auto, .bar, .block, .underscore]
  name
    | .auto => cs!"auto"
    | .bar => cs!"bar"
    | .block => cs!"block"
    | .underscore => cs!"underscore"

/-- `ColorOrAuto` (src/properties/ui.rs:189-195); `C` is `CssColor`. -/
inductive ColorOrAuto (C : Type) where
  /-- `auto` -/
  | auto
  /-- a color -/
  | color (c : C)
  deriving DecidableEq, Repr

/-- `#[derive(Parse)]` of `ColorOrAuto` (src/properties/ui.rs:179, derive/src/parse.rs:77-84, 115-119). -/
def ColorOrAuto.parse {C} (color : Codec C) : Parser (ColorOrAuto C) := fun i =>
  match expectIdent cs!"auto" i with
  | some i => some (.auto, i)
  | none =>
    match color.parse i with
    | some (c, i) => some (.color c, i)
    | none => none

/-- `#[derive(ToCss)]` of `ColorOrAuto` (src/properties/ui.rs:179, derive/src/to_css.rs:112-133). -/
def ColorOrAuto.print {C} (color : Codec C) : ColorOrAuto C → List Tok
  | .auto => [.ident cs!"auto"]
  | .color c => color.print c

/-- `Caret` (src/properties/ui.rs:245-253). -/
structure Caret (C : Type) where
  /-- the caret color -/
  color : ColorOrAuto C
  /-- the caret shape -/
  shape : CaretShape
  deriving DecidableEq, Repr

/-- The body of the loop of `shorthand_property!` (src/macros.rs:139-145) for `Caret`. -/
def Caret.step {C} (color : Codec C) (s : Option (ColorOrAuto C) × Option CaretShape) (i : List Tok) :
    (Option (ColorOrAuto C) × Option CaretShape) × List Tok × Bool :=
  match tryOne s.1 (ColorOrAuto.parse color) i with
  | some (v, i) => ((some v, s.2), i, true)
  | none =>
    match tryOne s.2 Kw.parse i with
    | some (v, i) => ((s.1, some v), i, true)
    | none => (s, i, false)

/-- `Caret::parse` (src/macros.rs:121-153). -/
def Caret.parse {C} (color : Codec C) : Parser (Caret C) := fun i =>
  let (s, i) := run (Caret.step color) 3 (none, none) i
  some (⟨s.1.getD .auto, s.2.getD .auto⟩, i)

/-- `Caret::to_css` (src/macros.rs:157-180). -/
def Caret.print {C} [DecidableEq C] (color : Codec C) (c : Caret C) : List Tok :=
  let a := if c.color ≠ .auto then c.color.print color else []
  let needsSpace := decide (c.color ≠ .auto)
  let b := if c.shape ≠ .auto then (if needsSpace then [.ws] else []) ++ Kw.print c.shape else []
  let needsSpace := needsSpace || decide (c.shape ≠ .auto)
  a ++ b ++ if !needsSpace then c.color.print color else []

/-! ### `border`, `outline` (src/properties/border.rs, outline.rs) -/

/-- `LineStyle` (src/properties/border.rs:60-84). -/
inductive LineStyle where
  /-- `none` -/
  | none
  /-- `hidden` -/
  | hidden
  /-- `inset` -/
  | inset
  /-- `groove` -/
  | groove
  /-- `outset` -/
  | outset
  /-- `ridge` -/
  | ridge
  /-- `dotted` -/
  | dotted
  /-- `dashed` -/
  | dashed
  /-- `solid` -/
  | solid
  /-- `double` -/
  | double
  deriving DecidableEq, Repr

/-- The keywords of `LineStyle` (src/properties/border.rs:60-84). -/
instance : Kw LineStyle where
  all := [.none, .hidden, .inset, .groove, .outset, .ridge, .dotted, .dashed, .solid, .double]
  name
    | .none => cs!"none"
    | .hidden => cs!"hidden"
    | .inset => cs!"inset"
    | .groove => cs!"groove"
    | .outset => cs!"outset"
    | .ridge => cs!"ridge"
    | .dotted => cs!"dotted"
    | .dashed => cs!"dashed"
    | .solid => cs!"solid"
    | .double => cs!"double"

/-- `OutlineStyle` (src/properties/outline.rs:27-32). -/
inductive OutlineStyle where
  /-- `auto` -/
  | auto
  /-- a line style -/
  | line (s : LineStyle)
  deriving DecidableEq, Repr

/-- `#[derive(Parse)]` of `OutlineStyle` (src/properties/outline.rs:18). -/
def OutlineStyle.parse : Parser OutlineStyle := fun i =>
  match expectIdent cs!"auto" i with
  | some i => some (.auto, i)
  | none =>
    match Kw.parse i with
    | some (s, i) => some (.line s, i)
    | none => none

/-- `#[derive(ToCss)]` of `OutlineStyle` (src/properties/outline.rs:18). -/
def OutlineStyle.print : OutlineStyle → List Tok
  | .auto => [.ident cs!"auto"]
  | .line s => Kw.print s

/-- The parser and printer of `LineStyle` (src/properties/border.rs:60-84). -/
def lineStyle : Codec LineStyle := ⟨Kw.parse, Kw.print⟩

/-- The parser and printer of `OutlineStyle` (src/properties/outline.rs:18-32). -/
def outlineStyle : Codec OutlineStyle := ⟨OutlineStyle.parse, OutlineStyle.print⟩

/-- `BorderSideWidth` (src/properties/border.rs:35-44); `L` is `Length`. -/
inductive BorderWidth (L : Type) where
  /-- `thin` -/
  | thin
  /-- `medium` -/
  | medium
  /-- `thick` -/
  | thick
  /-- a length -/
  | length (l : L)
  deriving DecidableEq, Repr

/-- `#[derive(Parse)]` of `BorderSideWidth` (src/properties/border.rs:26, derive/src/parse.rs:84-110). -/
def BorderWidth.parse {L} (length : Codec L) : Parser (BorderWidth L) := fun i =>
  let last :=
    match length.parse i with
    | some (l, i) => some (.length l, i)
    | none => none
  match next i with
  | some (.ident s, r) =>
    if lower s = cs!"thin" then some (.thin, r)
    else if lower s = cs!"medium" then some (.medium, r)
    else if lower s = cs!"thick" then some (.thick, r)
    else last
  | _ => last

/-- `#[derive(ToCss)]` of `BorderSideWidth` (src/properties/border.rs:26). -/
def BorderWidth.print {L} (length : Codec L) : BorderWidth L → List Tok
  | .thin => [.ident cs!"thin"]
  | .medium => [.ident cs!"medium"]
  | .thick => [.ident cs!"thick"]
  | .length l => length.print l

/-- `GenericBorder` (src/properties/border.rs:102-109); `S` is the type of the style, `C` is `CssColor`. -/
structure Border (L S C : Type) where
  /-- the width -/
  width : BorderWidth L
  /-- the style -/
  style : S
  /-- the color -/
  color : C
  deriving DecidableEq, Repr

/-- What is known while a border is read: the slots and `any` (src/properties/border.rs:139-142). -/
structure BorderSlots (L S C : Type) where
  /-- the width, if read -/
  width : Option (BorderWidth L)
  /-- the style, if read -/
  style : Option S
  /-- the color, if read -/
  color : Option C
  /-- whether anything was read -/
  any : Bool

/-- The body of the loop of `GenericBorder::parse` (src/properties/border.rs:143-165). Reading a width
does not end with `continue`. -/
def Border.step {L S C} (length : Codec L) (style : Codec S) (color : Codec C) (s : BorderSlots L S C)
    (i : List Tok) : BorderSlots L S C × List Tok × Bool :=
  let (s, i) :=
    match tryOne s.width (BorderWidth.parse length) i with
    | some (v, i) => ({ s with width := some v, any := true }, i)
    | none => (s, i)
  match tryOne s.style style.parse i with
  | some (v, i) => ({ s with style := some v, any := true }, i, true)
  | none =>
    match tryOne s.color color.parse i with
    | some (v, i) => ({ s with color := some v, any := true }, i, true)
    | none => (s, i, false)

/-- `GenericBorder::parse` (src/properties/border.rs:136-177); `style0` is `S::default()`, `currentColor`
is `CssColor::current_color()`. -/
def Border.parse {L S C} (length : Codec L) (style : Codec S) (color : Codec C) (style0 : S)
    (currentColor : C) : Parser (Border L S C) := fun i =>
  let (s, i) := run (Border.step length style color) 3 ⟨none, none, none, false⟩ i
  if s.any then
    some (⟨s.width.getD .medium, s.style.getD style0, s.color.getD currentColor⟩, i)
  else none

/-- `GenericBorder::to_css` (src/properties/border.rs:181-211). -/
def Border.print {L S C} [DecidableEq L] [DecidableEq S] [DecidableEq C] (length : Codec L)
    (style : Codec S) (color : Codec C) (style0 : S) (currentColor : C) (b : Border L S C) : List Tok :=
  if b = ⟨.medium, style0, currentColor⟩ then style.print b.style
  else
    let w := if b.width ≠ .medium then b.width.print length else []
    let needsSpace := decide (b.width ≠ .medium)
    let s := if b.style ≠ style0 then (if needsSpace then [.ws] else []) ++ style.print b.style else []
    let needsSpace := needsSpace || decide (b.style ≠ style0)
    let c := if b.color ≠ currentColor then (if needsSpace then [.ws] else []) ++ color.print b.color else []
    w ++ s ++ c

/-! ### `flex-flow`, `flex` (src/properties/flex.rs) -/

/-- `FlexDirection` (src/properties/flex.rs:24-36). -/
inductive FlexDirection where
  /-- `row` -/
  | row
  /-- `row-reverse` -/
  | rowReverse
  /-- `column` -/
  | column
  /-- `column-reverse` -/
  | columnReverse
  deriving DecidableEq, Repr

/-- The keywords of `FlexDirection` (src/properties/flex.rs:24-36). -/
instance : Kw FlexDirection where
  all := [.row, .rowReverse, .column, .columnReverse]
  name
    | .row => cs!"row"
    | .rowReverse => cs!"row-reverse"
    | .column => cs!"column"
    | .columnReverse => cs!"column-reverse"

/-- `FlexWrap` (src/properties/flex.rs:44-54). -/
inductive FlexWrap where
  /-- `nowrap` -/
  | nowrap
  /-- `wrap` -/
  | wrap
  /-- `wrap-reverse` -/
  | wrapReverse
  deriving DecidableEq, Repr

/-- The keywords of `FlexWrap` (src/properties/flex.rs:44-54). -/
instance : Kw FlexWrap where
  all := [.nowrap, .wrap, .wrapReverse]
  name
    | .nowrap => cs!"nowrap"
    | .wrap => cs!"wrap"
    | .wrapReverse => cs!"wrap-reverse"

/-- `FlexFlow` (src/properties/flex.rs:68-76). -/
structure FlexFlow where
  /-- the direction -/
  direction : FlexDirection
  /-- whether the items wrap -/
  wrap : FlexWrap
  deriving DecidableEq, Repr

/-- The body of the loop of `FlexFlow::parse` (src/properties/flex.rs:82-96). -/
def FlexFlow.step (s : Option FlexDirection × Option FlexWrap) (i : List Tok) :
    (Option FlexDirection × Option FlexWrap) × List Tok × Bool :=
  match tryOne s.1 Kw.parse i with
  | some (v, i) => ((some v, s.2), i, true)
  | none =>
    match tryOne s.2 Kw.parse i with
    | some (v, i) => ((s.1, some v), i, true)
    | none => (s, i, false)

/-- `FlexFlow::parse` (src/properties/flex.rs:78-103). -/
def FlexFlow.parse : Parser FlexFlow := fun i =>
  let (s, i) := run FlexFlow.step 3 (none, none) i
  some (⟨s.1.getD .row, s.2.getD .nowrap⟩, i)

/-- `FlexFlow::to_css` (src/properties/flex.rs:106-125). -/
def FlexFlow.print (f : FlexFlow) : List Tok :=
  let d := if f.direction ≠ .row ∨ f.wrap = .nowrap then Kw.print f.direction else []
  let needsSpace := decide (f.direction ≠ .row ∨ f.wrap = .nowrap)
  d ++ if f.wrap ≠ .nowrap then (if needsSpace then [.ws] else []) ++ Kw.print f.wrap else []

/-- `LengthPercentageOrAuto` (src/values/length.rs:61-66, src/values/percentage.rs:103-110): `auto`, a
length, a percentage or a `calc()`. -/
inductive Basis (L P K : Type) where
  /-- `auto` -/
  | auto
  /-- a length -/
  | dim (l : L)
  /-- a percentage -/
  | pct (p : P)
  /-- a `calc()` -/
  | math (k : K)
  deriving DecidableEq, Repr

/-- `Flex` (src/properties/flex.rs:127-137); `N` is `CSSNumber`. -/
structure Flex (N L P K : Type) where
  /-- the grow factor -/
  grow : N
  /-- the shrink factor -/
  shrink : N
  /-- the basis -/
  basis : Basis L P K
  deriving DecidableEq, Repr

/-- The parts that `Flex` is made of: numbers with `0.0` and `1.0`, bases with their parser and printer
(`LengthPercentageOrAuto`), `is_zero` of lengths and percentages, and the percentage `0%`. -/
structure FlexParts (N L P K : Type) where
  /-- `CSSNumber` -/
  num : Codec N
  /-- `0.0` -/
  zero : N
  /-- `1.0` -/
  one : N
  /-- `LengthPercentageOrAuto` -/
  basis : Codec (Basis L P K)
  /-- `LengthValue::is_zero` -/
  lengthZero : L → Bool
  /-- `Percentage::is_zero` -/
  pctZero : P → Bool
  /-- `Percentage(0.0)` -/
  pct0 : P

/-- What is known while `flex` is read (src/properties/flex.rs:149-151). -/
structure FlexSlots (N L P K : Type) where
  /-- the grow factor -/
  grow : Option N
  /-- the shrink factor -/
  shrink : Option N
  /-- the basis -/
  basis : Option (Basis L P K)

/-- The body of the loop of `Flex::parse` (src/properties/flex.rs:153-171). -/
def Flex.step {N L P K} (p : FlexParts N L P K) (s : FlexSlots N L P K) (i : List Tok) :
    FlexSlots N L P K × List Tok × Bool :=
  match tryOne s.grow p.num.parse i with
  | some (v, i) =>
    match p.num.parse i with
    | some (w, i) => ({ s with grow := some v, shrink := some w }, i, true)
    | none => ({ s with grow := some v, shrink := none }, i, true)
  | none =>
    match tryOne s.basis p.basis.parse i with
    | some (v, i) => ({ s with basis := some v }, i, true)
    | none => (s, i, false)

/-- `Flex::parse` (src/properties/flex.rs:139-181). -/
def Flex.parse {N L P K} (p : FlexParts N L P K) : Parser (Flex N L P K) := fun i =>
  match expectIdent cs!"none" i with
  | some i => some (⟨p.zero, p.zero, .auto⟩, i)
  | none =>
    let (s, i) := run (Flex.step p) 3 ⟨none, none, none⟩ i
    some (⟨s.grow.getD p.one, s.shrink.getD p.one, s.basis.getD (.pct p.pct0)⟩, i)

/-- `ZeroKind` (src/properties/flex.rs:194-199). -/
inductive ZeroKind where
  /-- not zero -/
  | nonZero
  /-- a zero length -/
  | length
  /-- `0%` -/
  | percentage
  deriving DecidableEq, Repr

/-- `basis_kind` (src/properties/flex.rs:203-210). -/
def Flex.basisKind {N L P K} (p : FlexParts N L P K) : Basis L P K → ZeroKind
  | .dim l => if p.lengthZero l then .length else .nonZero
  | .pct q => if p.pctZero q then .percentage else .nonZero
  | _ => .nonZero

/-- `Flex::to_css` (src/properties/flex.rs:183-229). -/
def Flex.print {N L P K} [DecidableEq N] (p : FlexParts N L P K) (f : Flex N L P K) : List Tok :=
  let isAuto := match f.basis with | .auto => true | _ => false
  if f.grow = p.zero ∧ f.shrink = p.zero ∧ isAuto = true then [.ident cs!"none"]
  else
    let kind := Flex.basisKind p f.basis
    (if f.grow ≠ p.one ∨ f.shrink ≠ p.one ∨ kind ≠ .nonZero then
      p.num.print f.grow ++
        if f.shrink ≠ p.one ∨ kind = .length then .ws :: p.num.print f.shrink else []
     else []) ++
    if kind ≠ .percentage then
      (if f.grow ≠ p.one ∨ f.shrink ≠ p.one ∨ kind = .length then [.ws] else []) ++ p.basis.print f.basis
    else []

/-! ### `gap`, `container` (src/properties/align.rs, contain.rs) -/

/-- `GapValue` (src/properties/align.rs:806-811); `T` is `LengthPercentage`. -/
inductive GapValue (T : Type) where
  /-- `normal` -/
  | normal
  /-- a length or percentage -/
  | length (t : T)
  deriving DecidableEq, Repr

/-- `#[derive(Parse)]` of `GapValue` (src/properties/align.rs:797). -/
def GapValue.parse {T} (lp : Codec T) : Parser (GapValue T) := fun i =>
  match expectIdent cs!"normal" i with
  | some i => some (.normal, i)
  | none =>
    match lp.parse i with
    | some (v, i) => some (.length v, i)
    | none => none

/-- `#[derive(ToCss)]` of `GapValue` (src/properties/align.rs:797). -/
def GapValue.print {T} (lp : Codec T) : GapValue T → List Tok
  | .normal => [.ident cs!"normal"]
  | .length v => lp.print v

/-- `Gap` (src/properties/align.rs:816-823). -/
structure Gap (T : Type) where
  /-- the row gap -/
  row : GapValue T
  /-- the column gap -/
  column : GapValue T
  deriving DecidableEq, Repr

/-- `Gap::parse` (src/properties/align.rs:826-830). -/
def Gap.parse {T} (lp : Codec T) : Parser (Gap T) := fun i =>
  match GapValue.parse lp i with
  | none => none
  | some (row, i) =>
    match GapValue.parse lp i with
    | some (column, i) => some (⟨row, column⟩, i)
    | none => some (⟨row, row⟩, i)

/-- `Gap::to_css` (src/properties/align.rs:834-844). -/
def Gap.print {T} [DecidableEq T] (lp : Codec T) (g : Gap T) : List Tok :=
  g.row.print lp ++ if g.column ≠ g.row then .ws :: g.column.print lp else []

/-- `ContainerType` (src/properties/contain.rs:24-36). -/
inductive ContainerType where
  /-- `normal` -/
  | normal
  /-- `inline-size` -/
  | inlineSize
  /-- `size` -/
  | size
  /-- `scroll-state` -/
  | scrollState
  deriving DecidableEq, Repr

/-- The keywords of `ContainerType` (src/properties/contain.rs:24-36). -/
instance : Kw ContainerType where
  all := [.normal, .inlineSize, .size, .scrollState]
  name
    | .normal => cs!"normal"
    | .inlineSize => cs!"inline-size"
    | .size => cs!"size"
    | .scrollState => cs!"scroll-state"

/-- `CustomIdent::parse` (src/values/ident.rs:30-46): any identifier but the CSS-wide keywords. -/
def parseCustomIdent : Parser Str := fun i =>
  match next i with
  | some (.ident s, r) =>
    if lower s ∈ [cs!"initial", cs!"inherit", cs!"unset", cs!"default", cs!"revert", cs!"revert-layer"] then none
    else some (s, r)
  | _ => none

/-- `ContainerName::parse` (src/rules/container.rs:435-448): a custom identifier that is not `none`, `and`,
`not` or `or`. -/
def parseContainerName : Parser Str := fun i =>
  match parseCustomIdent i with
  | some (s, r) =>
    if lower s ∈ [cs!"none", cs!"and", cs!"not", cs!"or"] then none else some (s, r)
  | none => none

/-- `ContainerNameList` (src/properties/contain.rs:60-66). -/
inductive ContainerNames where
  /-- `none` -/
  | none
  /-- a list of names -/
  | names (l : List Str)
  deriving DecidableEq, Repr

/-- The loop of `ContainerNameList::parse` (src/properties/contain.rs:81-84); the tokens bound its turns. -/
def parseNames : Nat → List Tok → List Str × List Tok
  | 0, i => ([], i)
  | n + 1, i =>
    match parseContainerName i with
    | some (s, i) => let (l, i) := parseNames n i; (s :: l, i)
    | none => ([], i)

/-- `ContainerNameList::parse` (src/properties/contain.rs:74-91). -/
def ContainerNames.parse : Parser ContainerNames := fun i =>
  match expectIdent cs!"none" i with
  | some i => some (.none, i)
  | Option.none =>
    match parseNames i.length i with
    | ([], _) => Option.none
    | (l, i) => some (.names l, i)

/-- The loop of `ContainerNameList::to_css` (src/properties/contain.rs:103-111); `first` is its flag. -/
def printNames : Bool → List Str → List Tok
  | _, [] => []
  | first, s :: l => (if first then [] else [.ws]) ++ .ident s :: printNames false l

/-- `ContainerNameList::to_css` (src/properties/contain.rs:95-114), without CSS modules. -/
def ContainerNames.print : ContainerNames → List Tok
  | .none => [.ident cs!"none"]
  | .names l => printNames true l

/-- `Container` (src/properties/contain.rs:122-131). -/
structure Container where
  /-- the names -/
  name : ContainerNames
  /-- the type -/
  type : ContainerType
  deriving DecidableEq, Repr

/-- `Container::parse` (src/properties/contain.rs:133-143). -/
def Container.parse : Parser Container := fun i =>
  match ContainerNames.parse i with
  | none => none
  | some (name, i) =>
    match expectDelim '/' i with
    | some i =>
      match Kw.parse i with
      | some (t, i) => some (⟨name, t⟩, i)
      | none => none
    | none => some (⟨name, .normal⟩, i)

/-- `Container::to_css` (src/properties/contain.rs:145-157). -/
def Container.print (minify : Bool) (c : Container) : List Tok :=
  c.name.print ++ if c.type ≠ .normal then printDelim minify (.delim '/') true ++ Kw.print c.type else []

end Verif.Shorthand
