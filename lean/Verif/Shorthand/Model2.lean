import Verif.Shorthand.Model
/-!
More shorthand properties: `list-style`, `text-decoration`, `text-emphasis`, `place-content`,
`place-self`, `place-items`.
-/
namespace Verif.Shorthand

/-! ### `list-style` (src/properties/list.rs) -/

/-- `ListPosition` (src/properties/list.rs:300-308). -/
inductive ListPosition where
  /-- `inside` -/
  | inside
  /-- `outside` -/
  | outside
  deriving DecidableEq, Repr

/-- The keywords of `ListPosition` (src/properties/list.rs:300-308). -/
instance : Kw ListPosition where
  all := [.inside, .outside]
  name
    | .inside => cs!"inside"
    | .outside => cs!"outside"

/-- The names of `PredefinedCounterStyle` (src/properties/list.rs:118-187), in kebab case. The value is
represented by its name. -/
def predefinedCounterStyles : List Str := [
  cs!"decimal",
  cs!"decimal-leading-zero",
  cs!"arabic-indic",
  cs!"armenian",
  cs!"upper-armenian",
  cs!"lower-armenian",
  cs!"bengali",
  cs!"cambodian",
  cs!"khmer",
  cs!"cjk-decimal",
  cs!"devanagari",
  cs!"georgian",
  cs!"gujarati",
  cs!"gurmukhi",
  cs!"hebrew",
  cs!"kannada",
  cs!"lao",
  cs!"malayalam",
  cs!"mongolian",
  cs!"myanmar",
  cs!"oriya",
  cs!"persian",
  cs!"lower-roman",
  cs!"upper-roman",
  cs!"tamil",
  cs!"telugu",
  cs!"thai",
  cs!"tibetan",
  cs!"lower-alpha",
  cs!"lower-latin",
  cs!"upper-alpha",
  cs!"upper-latin",
  cs!"lower-greek",
  cs!"hiragana",
  cs!"hiragana-iroha",
  cs!"katakana",
  cs!"katakana-iroha",
  cs!"disc",
  cs!"circle",
  cs!"square",
  cs!"disclosure-open",
  cs!"disclosure-closed",
  cs!"cjk-earthly-branch",
  cs!"cjk-heavenly-stem",
  cs!"japanese-informal",
  cs!"japanese-formal",
  cs!"korean-hangul-formal",
  cs!"korean-hanja-informal",
  cs!"korean-hanja-formal",
  cs!"simp-chinese-informal",
  cs!"simp-chinese-formal",
  cs!"trad-chinese-informal",
  cs!"trad-chinese-formal",
  cs!"ethiopic-numeric"
]

/-- `ListStyleType` with `CounterStyle` (src/properties/list.rs:28-36, 63-83); `Y` is what stands in
`symbols(…)`. -/
inductive ListType (Y : Type) where
  /-- `none` -/
  | none
  /-- a marker string -/
  | string (s : Str)
  /-- a predefined counter style -/
  | predefined (s : Str)
  /-- the name of a counter style -/
  | name (s : Str)
  /-- a `symbols()` function -/
  | symbols (y : Y)
  deriving DecidableEq, Repr

/-- `CounterStyle::parse` (src/properties/list.rs:189-212); `symbols` reads the `symbols()` function. -/
def parseCounterStyle {Y} (symbols : Codec Y) : Parser (ListType Y) := fun i =>
  let rest :=
    match symbols.parse i with
    | some (y, i) => some (.symbols y, i)
    | none =>
      match parseCustomIdent i with
      | some (s, i) => some (.name s, i)
      | none => none
  match next i with
  | some (.ident s, r) => if lower s ∈ predefinedCounterStyles then some (.predefined (lower s), r) else rest
  | _ => rest

/-- `#[derive(Parse)]` of `ListStyleType` (src/properties/list.rs:19). -/
def ListType.parse {Y} (symbols : Codec Y) : Parser (ListType Y) := fun i =>
  match expectIdent cs!"none" i with
  | some i => some (.none, i)
  | Option.none =>
    match next i with
    | some (.str s, r) => some (.string s, r)
    | _ => parseCounterStyle symbols i

/-- `#[derive(ToCss)]` of `ListStyleType` and `CounterStyle::to_css` (src/properties/list.rs:19, 214-247),
without CSS modules. -/
def ListType.print {Y} (symbols : Codec Y) : ListType Y → List Tok
  | .none => [.ident cs!"none"]
  | .string s => [.str s]
  | .predefined s => [.ident s]
  | .name s => [.ident s]
  | .symbols y => symbols.print y

/-- `ListStyle` (src/properties/list.rs:332-343). `I` is the type of images that are not `none`; `Option I`
is `Image` (src/values/image.rs:29-42). -/
structure ListStyle (I Y : Type) where
  /-- the position of the marker -/
  position : ListPosition
  /-- the image, `none` for `Image::None` -/
  image : Option I
  /-- the type -/
  type : ListType Y
  deriving DecidableEq, Repr

/-- What is known while `list-style` is read (src/properties/list.rs:347-350). -/
structure ListSlots (I Y : Type) where
  /-- the position -/
  position : Option ListPosition
  /-- the image -/
  image : Option (Option I)
  /-- the type -/
  type : Option (ListType Y)
  /-- how often `none` was read -/
  nones : Nat
  /-- whether the third `none` was reached, which is an error -/
  bad : Bool

/-- `#[derive(Parse)]` of `Image` (src/values/image.rs:22-42): `none` or an image. -/
def parseImage {I} (image : Codec I) : Parser (Option I) := fun i =>
  match expectIdent cs!"none" i with
  | some i => some (none, i)
  | none =>
    match image.parse i with
    | some (v, i) => some (some v, i)
    | none => none

/-- `#[derive(ToCss)]` of `Image` (src/values/image.rs:22-42). -/
def printImage {I} (image : Codec I) : Option I → List Tok
  | none => [.ident cs!"none"]
  | some v => image.print v

/-- The body of the loop of `ListStyle::parse` (src/properties/list.rs:352-384). The error return is the
flag `bad`. -/
def ListStyle.step {I Y} (image : Codec I) (symbols : Codec Y) (s : ListSlots I Y) (i : List Tok) :
    ListSlots I Y × List Tok × Bool :=
  match expectIdent cs!"none" i with
  | some i =>
    if s.nones + 1 > 2 then ({ s with nones := s.nones + 1, bad := true }, i, false)
    else ({ s with nones := s.nones + 1 }, i, true)
  | none =>
    match tryOne s.image (parseImage image) i with
    | some (v, i) => ({ s with image := some v }, i, true)
    | none =>
      match tryOne s.position Kw.parse i with
      | some (v, i) => ({ s with position := some v }, i, true)
      | none =>
        match tryOne s.type (ListType.parse symbols) i with
        | some (v, i) => ({ s with type := some v }, i, true)
        | none => (s, i, false)

/-- `ListStyle::parse` (src/properties/list.rs:345-413). -/
def ListStyle.parse {I Y} (image : Codec I) (symbols : Codec Y) : Parser (ListStyle I Y) := fun i =>
  let (s, i) := run (ListStyle.step image symbols) 6 ⟨none, none, none, 0, false⟩ i
  if s.bad then none
  else
    let position := s.position.getD .outside
    match s.nones, s.image, s.type with
    | 2, none, none => some (⟨position, none, .none⟩, i)
    | 1, none, none => some (⟨position, none, .none⟩, i)
    | 1, some image, none => some (⟨position, image, .none⟩, i)
    | 1, none, some t => some (⟨position, none, t⟩, i)
    | 0, image, t => some (⟨position, image.getD none, t.getD (.predefined cs!"disc")⟩, i)
    | _, _, _ => none

/-- `ListStyle::to_css` (src/properties/list.rs:415-447). -/
def ListStyle.print {I Y} [DecidableEq I] [DecidableEq Y] (image : Codec I) (symbols : Codec Y)
    (l : ListStyle I Y) : List Tok :=
  let p := if l.position ≠ .outside then Kw.print l.position else []
  let needsSpace := decide (l.position ≠ .outside)
  let g := if l.image ≠ none then (if needsSpace then [.ws] else []) ++ printImage image l.image else []
  let needsSpace := needsSpace || decide (l.image ≠ none)
  let t :=
    if l.type ≠ .predefined cs!"disc" then (if needsSpace then [.ws] else []) ++ l.type.print symbols else []
  let needsSpace := needsSpace || decide (l.type ≠ .predefined cs!"disc")
  p ++ g ++ t ++ if !needsSpace then Kw.print l.position else []

/-! ### `text-decoration` (src/properties/text.rs) -/

/-- `TextDecorationLine` (src/properties/text.rs:464-485): a set of flags. -/
structure TextLine where
  /-- `Underline` -/
  underline : Bool
  /-- `Overline` -/
  overline : Bool
  /-- `LineThrough` -/
  lineThrough : Bool
  /-- `Blink` -/
  blink : Bool
  /-- `SpellingError` -/
  spellingError : Bool
  /-- `GrammarError` -/
  grammarError : Bool
  deriving DecidableEq, Repr

/-- `TextDecorationLine::empty()`, the default (src/properties/text.rs:487-491). -/
def TextLine.empty : TextLine := ⟨false, false, false, false, false, false⟩

/-- The keywords of one turn of the loop of `TextDecorationLine::parse` (src/properties/text.rs:500-515)
and `value |= flag`. -/
def TextLine.add (value : TextLine) (k : Str) : Option TextLine :=
  if k = cs!"none" ∧ value = .empty then some value
  else if k = cs!"underline" then some { value with underline := true }
  else if k = cs!"overline" then some { value with overline := true }
  else if k = cs!"line-through" then some { value with lineThrough := true }
  else if k = cs!"blink" then some { value with blink := true }
  else if k = cs!"spelling-error" ∧ value = .empty then some { value with spellingError := true }
  else if k = cs!"grammar-error" ∧ value = .empty then some { value with grammarError := true }
  else none

/-- The loop of `TextDecorationLine::parse` (src/properties/text.rs:498-523): the value, the rest, and
`any`. The tokens bound the turns. -/
def TextLine.loop : Nat → TextLine → List Tok → Bool → TextLine × List Tok × Bool
  | 0, v, i, any => (v, i, any)
  | n + 1, v, i, any =>
    match next i with
    | some (.ident s, r) =>
      match v.add (lower s) with
      | some v => TextLine.loop n v r true
      | none => (v, i, any)
    | _ => (v, i, any)

/-- `TextDecorationLine::parse` (src/properties/text.rs:493-530). -/
def TextLine.parse : Parser TextLine := fun i =>
  match TextLine.loop i.length .empty i false with
  | (v, i, true) => some (v, i)
  | (_, _, false) => none

/-- One `val!` of `TextDecorationLine::to_css` (src/properties/text.rs:550-561): the tokens and the new
`needs_space`. -/
def TextLine.val (flag : Bool) (k : Str) (acc : List Tok × Bool) : List Tok × Bool :=
  if flag then (acc.1 ++ (if acc.2 then [.ws] else []) ++ [.ident k], true) else acc

/-- `TextDecorationLine::to_css` (src/properties/text.rs:533-568). -/
def TextLine.print (l : TextLine) : List Tok :=
  if l = .empty then [.ident cs!"none"]
  else if l.spellingError then [.ident cs!"spelling-error"]
  else if l.grammarError then [.ident cs!"grammar-error"]
  else
    (TextLine.val l.blink cs!"blink" <| TextLine.val l.lineThrough cs!"line-through" <|
      TextLine.val l.overline cs!"overline" <| TextLine.val l.underline cs!"underline" ([], false)).1

/-- `TextStyle` (src/properties/text.rs:678-692). -/
inductive TextStyle where
  /-- `solid` -/
  | solid
  /-- `double` -/
  | double
  /-- `dotted` -/
  | dotted
  /-- `dashed` -/
  | dashed
  /-- `wavy` -/
  | wavy
  deriving DecidableEq, Repr

/-- The keywords of `TextStyle` (src/properties/text.rs:678-692). -/
instance : Kw TextStyle where
  all := [.solid, .double, .dotted, .dashed, .wavy]
  name
    | .solid => cs!"solid"
    | .double => cs!"double"
    | .dotted => cs!"dotted"
    | .dashed => cs!"dashed"
    | .wavy => cs!"wavy"

/-- `TextDecorationThickness` (src/properties/text.rs:710-717); `T` is `LengthPercentage`. -/
inductive Thickness (T : Type) where
  /-- `auto` -/
  | auto
  /-- `from-font` -/
  | fromFont
  /-- a length or percentage -/
  | length (t : T)
  deriving DecidableEq, Repr

/-- `#[derive(Parse)]` of `TextDecorationThickness` (src/properties/text.rs:701). -/
def Thickness.parse {T} (lp : Codec T) : Parser (Thickness T) := fun i =>
  let last :=
    match lp.parse i with
    | some (l, i) => some (.length l, i)
    | none => none
  match next i with
  | some (.ident s, r) =>
    if lower s = cs!"auto" then some (.auto, r)
    else if lower s = cs!"from-font" then some (.fromFont, r)
    else last
  | _ => last

/-- `#[derive(ToCss)]` of `TextDecorationThickness` (src/properties/text.rs:701). -/
def Thickness.print {T} (lp : Codec T) : Thickness T → List Tok
  | .auto => [.ident cs!"auto"]
  | .fromFont => [.ident cs!"from-font"]
  | .length l => lp.print l

/-- `TextDecoration` (src/properties/text.rs:725-737). -/
structure TextDecoration (T C : Type) where
  /-- the lines -/
  line : TextLine
  /-- the thickness -/
  thickness : Thickness T
  /-- the style -/
  style : TextStyle
  /-- the color -/
  color : C
  deriving DecidableEq, Repr

/-- What is known while `text-decoration` is read (src/properties/text.rs:741-744). -/
structure TextSlots (T C : Type) where
  /-- the lines -/
  line : Option TextLine
  /-- the thickness -/
  thickness : Option (Thickness T)
  /-- the style -/
  style : Option TextStyle
  /-- the color -/
  color : Option C

/-- The body of the loop of `TextDecoration::parse` (src/properties/text.rs:746-763). -/
def TextDecoration.step {T C} (lp : Codec T) (color : Codec C) (s : TextSlots T C) (i : List Tok) :
    TextSlots T C × List Tok × Bool :=
  match tryOne s.line TextLine.parse i with
  | some (v, i) => ({ s with line := some v }, i, true)
  | none =>
    match tryOne s.thickness (Thickness.parse lp) i with
    | some (v, i) => ({ s with thickness := some v }, i, true)
    | none =>
      match tryOne s.style Kw.parse i with
      | some (v, i) => ({ s with style := some v }, i, true)
      | none =>
        match tryOne s.color color.parse i with
        | some (v, i) => ({ s with color := some v }, i, true)
        | none => (s, i, false)

/-- `TextDecoration::parse` (src/properties/text.rs:739-772). -/
def TextDecoration.parse {T C} (lp : Codec T) (color : Codec C) (currentColor : C) :
    Parser (TextDecoration T C) := fun i =>
  let (s, i) := run (TextDecoration.step lp color) 5 ⟨none, none, none, none⟩ i
  some (⟨s.line.getD .empty, s.thickness.getD .auto, s.style.getD .solid, s.color.getD currentColor⟩, i)

/-- `TextDecoration::to_css` (src/properties/text.rs:774-808). -/
def TextDecoration.print {T C} [DecidableEq T] [DecidableEq C] (lp : Codec T) (color : Codec C)
    (currentColor : C) (d : TextDecoration T C) : List Tok :=
  d.line.print ++
    if d.line = .empty then []
    else
      (if d.thickness ≠ .auto then .ws :: d.thickness.print lp else []) ++
      (if d.style ≠ .solid then .ws :: Kw.print d.style else []) ++
      (if d.color ≠ currentColor then .ws :: color.print d.color else [])

/-! ### `text-emphasis` (src/properties/text.rs) -/

/-- `EmphasisFill` (src/properties/text.rs:833-842). -/
inductive EmphasisFill where
  /-- `filled` -/
  | filled
  /-- `open` -/
  | «open»
  deriving DecidableEq, Repr

/-- The keywords of `EmphasisFill` (src/properties/text.rs:833-842). -/
instance : Kw EmphasisFill where
  all := [.filled, .«open»]
  name
    | .filled => cs!"filled"
    | .«open» => cs!"open"

/-- `EmphasisShape` (src/properties/text.rs:844-859). -/
inductive EmphasisShape where
  /-- `dot` -/
  | dot
  /-- `circle` -/
  | circle
  /-- `double-circle` -/
  | doubleCircle
  /-- `triangle` -/
  | triangle
  /-- `sesame` -/
  | sesame
  deriving DecidableEq, Repr

/-- The keywords of `EmphasisShape` (src/properties/text.rs:844-859). -/
instance : Kw EmphasisShape where
  all := [.dot, .circle, .doubleCircle, .triangle, .sesame]
  name
    | .dot => cs!"dot"
    | .circle => cs!"circle"
    | .doubleCircle => cs!"double-circle"
    | .triangle => cs!"triangle"
    | .sesame => cs!"sesame"

/-- `TextEmphasisStyle` (src/properties/text.rs:871-888). -/
inductive EmphasisStyle where
  /-- `none` -/
  | none
  /-- fill and shape -/
  | keyword (fill : EmphasisFill) (shape : Option EmphasisShape)
  /-- a string -/
  | string (s : Str)
  deriving DecidableEq, Repr

/-- `input.try_parse(T::parse).ok()` (src/properties/text.rs:905-908). -/
def optParse {α} (p : Parser α) (i : List Tok) : Option α × List Tok :=
  match p i with
  | some (v, i) => (some v, i)
  | none => (none, i)

/-- `TextEmphasisStyle::parse` (src/properties/text.rs:896-919). -/
def EmphasisStyle.parse : Parser EmphasisStyle := fun i =>
  match expectIdent cs!"none" i with
  | some i => some (.none, i)
  | Option.none =>
    match next i with
    | some (.str s, r) => some (.string s, r)
    | _ =>
      let (shape, i) := optParse Kw.parse i
      let (fill, i) := optParse Kw.parse i
      let (shape, i) := if shape.isNone then optParse Kw.parse i else (shape, i)
      if shape.isNone && fill.isNone then Option.none
      else some (.keyword (fill.getD .filled) shape, i)

/-- `TextEmphasisStyle::to_css` (src/properties/text.rs:921-947). -/
def EmphasisStyle.print : EmphasisStyle → List Tok
  | .none => [.ident cs!"none"]
  | .string s => [.str s]
  | .keyword fill shape =>
    let f := if fill ≠ .filled ∨ shape.isNone then Kw.print fill else []
    let needsSpace := decide (fill ≠ .filled ∨ shape.isNone)
    f ++
      match shape with
      | some shape => (if needsSpace then [.ws] else []) ++ Kw.print shape
      | Option.none => []

/-- `TextEmphasis` (src/properties/text.rs:949-958). -/
structure TextEmphasis (C : Type) where
  /-- the style -/
  style : EmphasisStyle
  /-- the color -/
  color : C
  deriving DecidableEq, Repr

/-- The body of the loop of `TextEmphasis::parse` (src/properties/text.rs:965-981). -/
def TextEmphasis.step {C} (color : Codec C) (s : Option EmphasisStyle × Option C) (i : List Tok) :
    (Option EmphasisStyle × Option C) × List Tok × Bool :=
  match tryOne s.1 EmphasisStyle.parse i with
  | some (v, i) => ((some v, s.2), i, true)
  | none =>
    match tryOne s.2 color.parse i with
    | some (v, i) => ((s.1, some v), i, true)
    | none => (s, i, false)

/-- `TextEmphasis::parse` (src/properties/text.rs:960-988). -/
def TextEmphasis.parse {C} (color : Codec C) (currentColor : C) : Parser (TextEmphasis C) := fun i =>
  let (s, i) := run (TextEmphasis.step color) 3 (none, none) i
  some (⟨s.1.getD .none, s.2.getD currentColor⟩, i)

/-- `TextEmphasis::to_css` (src/properties/text.rs:990-1004). -/
def TextEmphasis.print {C} [DecidableEq C] (color : Codec C) (currentColor : C) (e : TextEmphasis C) :
    List Tok :=
  e.style.print ++
    if e.style ≠ .none ∧ e.color ≠ currentColor then .ws :: color.print e.color else []

/-! ### `place-content`, `place-self`, `place-items` (src/properties/align.rs) -/

/-- `BaselinePosition` (src/properties/align.rs:32-37). -/
inductive Baseline where
  /-- the first baseline -/
  | first
  /-- the last baseline -/
  | last
  deriving DecidableEq, Repr

/-- `BaselinePosition::parse` (src/properties/align.rs:39-58). -/
def Baseline.parse : Parser Baseline := fun i =>
  match next i with
  | some (.ident s, r) =>
    if lower s = cs!"baseline" then some (.first, r)
    else if lower s = cs!"first" then (expectIdent cs!"baseline" r).map (fun r => (.first, r))
    else if lower s = cs!"last" then (expectIdent cs!"baseline" r).map (fun r => (.last, r))
    else none
  | _ => none

/-- `BaselinePosition::to_css` (src/properties/align.rs:60-70). -/
def Baseline.print : Baseline → List Tok
  | .first => [.ident cs!"baseline"]
  | .last => [.ident cs!"last", .ws, .ident cs!"baseline"]

/-- `Distribution` (src/properties/align.rs:72-84). -/
inductive Distribution where
  /-- `space-between` -/
  | spaceBetween
  /-- `space-around` -/
  | spaceAround
  /-- `space-evenly` -/
  | spaceEvenly
  /-- `stretch` -/
  | stretch
  deriving DecidableEq, Repr

/-- The keywords of `Distribution` (src/properties/align.rs:72-84). -/
instance : Kw Distribution where
  all := [.spaceBetween, .spaceAround, .spaceEvenly, .stretch]
  name
    | .spaceBetween => cs!"space-between"
    | .spaceAround => cs!"space-around"
    | .spaceEvenly => cs!"space-evenly"
    | .stretch => cs!"stretch"

/-- `Overflow` (src/properties/align.rs:86-96). -/
inductive Overflow where
  /-- `safe` -/
  | safe
  /-- `unsafe` -/
  | «unsafe»
  deriving DecidableEq, Repr

/-- The keywords of `Overflow` (src/properties/align.rs:86-96). -/
instance : Kw Overflow where
  all := [.safe, .«unsafe»]
  name
    | .safe => cs!"safe"
    | .«unsafe» => cs!"unsafe"

/-- `ContentPosition` (src/properties/align.rs:98-112). -/
inductive ContentPosition where
  /-- `center` -/
  | center
  /-- `start` -/
  | start
  /-- `end` -/
  | «end»
  /-- `flex-start` -/
  | flexStart
  /-- `flex-end` -/
  | flexEnd
  deriving DecidableEq, Repr

/-- The keywords of `ContentPosition` (src/properties/align.rs:98-112). -/
instance : Kw ContentPosition where
  all := [.center, .start, .«end», .flexStart, .flexEnd]
  name
    | .center => cs!"center"
    | .start => cs!"start"
    | .«end» => cs!"end"
    | .flexStart => cs!"flex-start"
    | .flexEnd => cs!"flex-end"

/-- `SelfPosition` (src/properties/align.rs:308-326). -/
inductive SelfPosition where
  /-- `center` -/
  | center
  /-- `start` -/
  | start
  /-- `end` -/
  | «end»
  /-- `self-start` -/
  | selfStart
  /-- `self-end` -/
  | selfEnd
  /-- `flex-start` -/
  | flexStart
  /-- `flex-end` -/
  | flexEnd
  deriving DecidableEq, Repr

/-- The keywords of `SelfPosition` (src/properties/align.rs:308-326). -/
instance : Kw SelfPosition where
  all := [.center, .start, .«end», .selfStart, .selfEnd, .flexStart, .flexEnd]
  name
    | .center => cs!"center"
    | .start => cs!"start"
    | .«end» => cs!"end"
    | .selfStart => cs!"self-start"
    | .selfEnd => cs!"self-end"
    | .flexStart => cs!"flex-start"
    | .flexEnd => cs!"flex-end"

/-- `Option<OverflowPosition>::parse` (src/traits.rs:35-39). -/
def parseOverflow (i : List Tok) : Option Overflow × List Tok := optParse Kw.parse i

/-- `if let Some(overflow) = overflow { overflow.to_css(dest)?; dest.write_str(" ")?; }`
(src/properties/align.rs:218-221). -/
def printOverflow : Option Overflow → List Tok
  | some o => Kw.print o ++ [.ws]
  | none => []

/-- The end of `JustifyContent::parse`, `JustifySelf::parse`, `JustifyItems::parse`
(src/properties/align.rs:198-206): `left` or `right`. -/
def parseSide : Parser Bool := fun i =>
  match next i with
  | some (.ident s, r) =>
    if lower s = cs!"left" then some (true, r)
    else if lower s = cs!"right" then some (false, r)
    else none
  | _ => none

/-- `AlignContent` (src/properties/align.rs:124-141). -/
inductive AlignContent where
  /-- `normal` -/
  | normal
  /-- a baseline -/
  | baseline (b : Baseline)
  /-- a distribution -/
  | distribution (d : Distribution)
  /-- a position -/
  | position (overflow : Option Overflow) (value : ContentPosition)
  deriving DecidableEq, Repr

/-- `#[derive(Parse)]` of `AlignContent` (src/properties/align.rs:115, derive/src/parse.rs:75-128). -/
def AlignContent.parse : Parser AlignContent := fun i =>
  match expectIdent cs!"normal" i with
  | some i => some (.normal, i)
  | none =>
    match Baseline.parse i with
    | some (b, i) => some (.baseline b, i)
    | none =>
      match Kw.parse i with
      | some (d, i) => some (.distribution d, i)
      | none =>
        let (o, i) := parseOverflow i
        match Kw.parse i with
        | some (v, i) => some (.position o v, i)
        | none => none

/-- `#[derive(ToCss)]` of `AlignContent` (src/properties/align.rs:115, derive/src/to_css.rs:62-101). -/
def AlignContent.print : AlignContent → List Tok
  | .normal => [.ident cs!"normal"]
  | .baseline b => b.print
  | .distribution d => Kw.print d
  | .position o v => printOverflow o ++ Kw.print v

/-- `JustifyContent` (src/properties/align.rs:153-177). -/
inductive JustifyContent where
  /-- `normal` -/
  | normal
  /-- a distribution -/
  | distribution (d : Distribution)
  /-- a position -/
  | position (overflow : Option Overflow) (value : ContentPosition)
  /-- `left` -/
  | left (overflow : Option Overflow)
  /-- `right` -/
  | right (overflow : Option Overflow)
  deriving DecidableEq, Repr

/-- `JustifyContent::parse` (src/properties/align.rs:179-207). -/
def JustifyContent.parse : Parser JustifyContent := fun i =>
  match expectIdent cs!"normal" i with
  | some i => some (.normal, i)
  | none =>
    match Kw.parse i with
    | some (d, i) => some (.distribution d, i)
    | none =>
      let (o, i) := parseOverflow i
      match Kw.parse i with
      | some (v, i) => some (.position o v, i)
      | none =>
        match parseSide i with
        | some (true, i) => some (.left o, i)
        | some (false, i) => some (.right o, i)
        | none => none

/-- `JustifyContent::to_css` (src/properties/align.rs:209-241). -/
def JustifyContent.print : JustifyContent → List Tok
  | .normal => [.ident cs!"normal"]
  | .distribution d => Kw.print d
  | .position o v => printOverflow o ++ Kw.print v
  | .left o => printOverflow o ++ [.ident cs!"left"]
  | .right o => printOverflow o ++ [.ident cs!"right"]

/-- `PlaceContent` (src/properties/align.rs:243-251). -/
structure PlaceContent where
  /-- `align-content` -/
  align : AlignContent
  /-- `justify-content` -/
  justify : JustifyContent
  deriving DecidableEq, Repr

/-- `PlaceContent::parse` (src/properties/align.rs:253-279). -/
def PlaceContent.parse : Parser PlaceContent := fun i =>
  match AlignContent.parse i with
  | none => none
  | some (align, i) =>
    match JustifyContent.parse i with
    | some (justify, i) => some (⟨align, justify⟩, i)
    | none =>
      let justify :=
        match align with
        | .baseline _ => .position none .start
        | .normal => .normal
        | .distribution d => .distribution d
        | .position o v => .position o v
      some (⟨align, justify⟩, i)

/-- `is_equal` of `PlaceContent::to_css` (src/properties/align.rs:287-296). -/
def PlaceContent.isEqual (p : PlaceContent) : Bool :=
  match p.justify, p.align with
  | .normal, .normal => true
  | .distribution d, .distribution d2 => d = d2
  | .position o c, .position o2 c2 => o = o2 && c = c2
  | _, _ => false

/-- `PlaceContent::to_css` (src/properties/align.rs:281-305). -/
def PlaceContent.print (p : PlaceContent) : List Tok :=
  p.align.print ++ if !p.isEqual then .ws :: p.justify.print else []

/-- `AlignSelf` (src/properties/align.rs:338-356). -/
inductive AlignSelf where
  /-- `auto` -/
  | auto
  /-- `normal` -/
  | normal
  /-- `stretch` -/
  | stretch
  /-- a baseline -/
  | baseline (b : Baseline)
  /-- a position -/
  | position (overflow : Option Overflow) (value : SelfPosition)
  deriving DecidableEq, Repr

/-- The end of the derived parsers of `AlignSelf` and `AlignItems` (src/properties/align.rs:349-355,
551-557). -/
def parsePosition : Parser (Option Overflow × SelfPosition) := fun i =>
  let (o, i) := parseOverflow i
  match Kw.parse i with
  | some (v, i) => some ((o, v), i)
  | none => none

/-- `#[derive(Parse)]` of `AlignSelf` (src/properties/align.rs:329). -/
def AlignSelf.parse : Parser AlignSelf := fun i =>
  let rest :=
    match Baseline.parse i with
    | some (b, i) => some (.baseline b, i)
    | none =>
      match parsePosition i with
      | some ((o, v), i) => some (.position o v, i)
      | none => none
  match next i with
  | some (.ident s, r) =>
    if lower s = cs!"auto" then some (.auto, r)
    else if lower s = cs!"normal" then some (.normal, r)
    else if lower s = cs!"stretch" then some (.stretch, r)
    else rest
  | _ => rest

/-- `#[derive(ToCss)]` of `AlignSelf` (src/properties/align.rs:329). -/
def AlignSelf.print : AlignSelf → List Tok
  | .auto => [.ident cs!"auto"]
  | .normal => [.ident cs!"normal"]
  | .stretch => [.ident cs!"stretch"]
  | .baseline b => b.print
  | .position o v => printOverflow o ++ Kw.print v

/-- `JustifySelf` (src/properties/align.rs:368-396). -/
inductive JustifySelf where
  /-- `auto` -/
  | auto
  /-- `normal` -/
  | normal
  /-- `stretch` -/
  | stretch
  /-- a baseline -/
  | baseline (b : Baseline)
  /-- a position -/
  | position (overflow : Option Overflow) (value : SelfPosition)
  /-- `left` -/
  | left (overflow : Option Overflow)
  /-- `right` -/
  | right (overflow : Option Overflow)
  deriving DecidableEq, Repr

/-- `JustifySelf::parse` (src/properties/align.rs:398-430). -/
def JustifySelf.parse : Parser JustifySelf := fun i =>
  match expectIdent cs!"auto" i with
  | some i => some (.auto, i)
  | none =>
  match expectIdent cs!"normal" i with
  | some i => some (.normal, i)
  | none =>
  match expectIdent cs!"stretch" i with
  | some i => some (.stretch, i)
  | none =>
  match Baseline.parse i with
  | some (b, i) => some (.baseline b, i)
  | none =>
    let (o, i) := parseOverflow i
    match Kw.parse i with
    | some (v, i) => some (.position o v, i)
    | none =>
      match parseSide i with
      | some (true, i) => some (.left o, i)
      | some (false, i) => some (.right o, i)
      | none => none

/-- `JustifySelf::to_css` (src/properties/align.rs:432-466). -/
def JustifySelf.print : JustifySelf → List Tok
  | .auto => [.ident cs!"auto"]
  | .normal => [.ident cs!"normal"]
  | .stretch => [.ident cs!"stretch"]
  | .baseline b => b.print
  | .position o v => printOverflow o ++ Kw.print v
  | .left o => printOverflow o ++ [.ident cs!"left"]
  | .right o => printOverflow o ++ [.ident cs!"right"]

/-- `PlaceSelf` (src/properties/align.rs:468-476). -/
structure PlaceSelf where
  /-- `align-self` -/
  align : AlignSelf
  /-- `justify-self` -/
  justify : JustifySelf
  deriving DecidableEq, Repr

/-- `PlaceSelf::parse` (src/properties/align.rs:478-499). -/
def PlaceSelf.parse : Parser PlaceSelf := fun i =>
  match AlignSelf.parse i with
  | none => none
  | some (align, i) =>
    match JustifySelf.parse i with
    | some (justify, i) => some (⟨align, justify⟩, i)
    | none =>
      let justify :=
        match align with
        | .auto => .auto
        | .normal => .normal
        | .stretch => .stretch
        | .baseline b => .baseline b
        | .position o v => .position o v
      some (⟨align, justify⟩, i)

/-- `is_equal` of `PlaceSelf::to_css` (src/properties/align.rs:507-518). -/
def PlaceSelf.isEqual (p : PlaceSelf) : Bool :=
  match p.justify with
  | .auto => true
  | .normal => p.align = .normal
  | .stretch => p.align = .normal
  | .baseline b => p.align = .baseline b
  | .position o c => p.align = .position o c
  | _ => false

/-- `PlaceSelf::to_css` (src/properties/align.rs:501-527). -/
def PlaceSelf.print (p : PlaceSelf) : List Tok :=
  p.align.print ++ if !p.isEqual then .ws :: p.justify.print else []

/-- `AlignItems` (src/properties/align.rs:539-555). -/
inductive AlignItems where
  /-- `normal` -/
  | normal
  /-- `stretch` -/
  | stretch
  /-- a baseline -/
  | baseline (b : Baseline)
  /-- a position -/
  | position (overflow : Option Overflow) (value : SelfPosition)
  deriving DecidableEq, Repr

/-- `#[derive(Parse)]` of `AlignItems` (src/properties/align.rs:530). -/
def AlignItems.parse : Parser AlignItems := fun i =>
  let rest :=
    match Baseline.parse i with
    | some (b, i) => some (.baseline b, i)
    | none =>
      match parsePosition i with
      | some ((o, v), i) => some (.position o v, i)
      | none => none
  match next i with
  | some (.ident s, r) =>
    if lower s = cs!"normal" then some (.normal, r)
    else if lower s = cs!"stretch" then some (.stretch, r)
    else rest
  | _ => rest

/-- `#[derive(ToCss)]` of `AlignItems` (src/properties/align.rs:530). -/
def AlignItems.print : AlignItems → List Tok
  | .normal => [.ident cs!"normal"]
  | .stretch => [.ident cs!"stretch"]
  | .baseline b => b.print
  | .position o v => printOverflow o ++ Kw.print v

/-- `LegacySide` (src/properties/align.rs:566-573). -/
inductive LegacySide where
  /-- `left` -/
  | left
  /-- `right` -/
  | right
  /-- `center` -/
  | center
  deriving DecidableEq, Repr

/-- The keywords of `LegacySide` (src/properties/align.rs:566-573). -/
instance : Kw LegacySide where
  all := [.left, .right, .center]
  name
    | .left => cs!"left"
    | .right => cs!"right"
    | .center => cs!"center"

/-- `LegacyJustify::parse` (src/properties/align.rs:575-609). -/
def LegacySide.parse : Parser LegacySide := fun i =>
  match next i with
  | some (.ident s, r) =>
    if lower s = cs!"legacy" then Kw.parse r
    else if lower s = cs!"left" then (expectIdent cs!"legacy" r).map (fun r => (.left, r))
    else if lower s = cs!"right" then (expectIdent cs!"legacy" r).map (fun r => (.right, r))
    else if lower s = cs!"center" then (expectIdent cs!"legacy" r).map (fun r => (.center, r))
    else none
  | _ => none

/-- `LegacyJustify::to_css` (src/properties/align.rs:611-623). -/
def LegacySide.print (s : LegacySide) : List Tok := [.ident cs!"legacy", .ws, .ident (Kw.name s)]

/-- `JustifyItems` (src/properties/align.rs:635-666). -/
inductive JustifyItems where
  /-- `normal` -/
  | normal
  /-- `stretch` -/
  | stretch
  /-- a baseline -/
  | baseline (b : Baseline)
  /-- a position -/
  | position (overflow : Option Overflow) (value : SelfPosition)
  /-- `left` -/
  | left (overflow : Option Overflow)
  /-- `right` -/
  | right (overflow : Option Overflow)
  /-- a legacy keyword -/
  | legacy (s : LegacySide)
  deriving DecidableEq, Repr

/-- `JustifyItems::parse` (src/properties/align.rs:668-700). -/
def JustifyItems.parse : Parser JustifyItems := fun i =>
  match expectIdent cs!"normal" i with
  | some i => some (.normal, i)
  | none =>
  match expectIdent cs!"stretch" i with
  | some i => some (.stretch, i)
  | none =>
  match Baseline.parse i with
  | some (b, i) => some (.baseline b, i)
  | none =>
  match LegacySide.parse i with
  | some (s, i) => some (.legacy s, i)
  | none =>
    let (o, i) := parseOverflow i
    match Kw.parse i with
    | some (v, i) => some (.position o v, i)
    | none =>
      match parseSide i with
      | some (true, i) => some (.left o, i)
      | some (false, i) => some (.right o, i)
      | none => none

/-- `JustifyItems::to_css` (src/properties/align.rs:702-736). -/
def JustifyItems.print : JustifyItems → List Tok
  | .normal => [.ident cs!"normal"]
  | .stretch => [.ident cs!"stretch"]
  | .baseline b => b.print
  | .legacy s => s.print
  | .position o v => printOverflow o ++ Kw.print v
  | .left o => printOverflow o ++ [.ident cs!"left"]
  | .right o => printOverflow o ++ [.ident cs!"right"]

/-- `PlaceItems` (src/properties/align.rs:738-746). -/
structure PlaceItems where
  /-- `align-items` -/
  align : AlignItems
  /-- `justify-items` -/
  justify : JustifyItems
  deriving DecidableEq, Repr

/-- `PlaceItems::parse` (src/properties/align.rs:748-768). -/
def PlaceItems.parse : Parser PlaceItems := fun i =>
  match AlignItems.parse i with
  | none => none
  | some (align, i) =>
    match JustifyItems.parse i with
    | some (justify, i) => some (⟨align, justify⟩, i)
    | none =>
      let justify :=
        match align with
        | .normal => .normal
        | .stretch => .stretch
        | .baseline b => .baseline b
        | .position o v => .position o v
      some (⟨align, justify⟩, i)

/-- `is_equal` of `PlaceItems::to_css` (src/properties/align.rs:776-786). -/
def PlaceItems.isEqual (p : PlaceItems) : Bool :=
  match p.justify with
  | .normal => p.align = .normal
  | .stretch => p.align = .normal
  | .baseline b => p.align = .baseline b
  | .position o c => p.align = .position o c
  | _ => false

/-- `PlaceItems::to_css` (src/properties/align.rs:770-795). -/
def PlaceItems.print (p : PlaceItems) : List Tok :=
  p.align.print ++ if !p.isEqual then .ws :: p.justify.print else []

end Verif.Shorthand
