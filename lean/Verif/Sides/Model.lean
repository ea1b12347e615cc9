import Verif.Common.Chars
/-!
Values made of up to four values of one type: `Rect`, `Size2D`, `border-radius`, `inset()`,
`border-image-slice` (src/values/rect.rs, src/values/size.rs, src/properties/border_radius.rs,
src/values/shape.rs, src/properties/border_image.rs).
-/
namespace Verif.Sides

/-- What these types need from the type of one value: `Parse::parse`, `ToCss::to_css`,
`PartialEq::eq` (src/traits.rs:17-31, 77-97). A parser takes the text and gives the value and the text
after it; `none` is an error, after which `try_parse` continues from the old text. -/
structure Codec (T : Type) where
  /-- `T::parse` -/
  parse : Str → Option (T × Str)
  /-- `T::to_css` -/
  print : T → Str
  /-- `T::eq` -/
  eq : T → T → Bool

/-- `Rect<T>` (src/values/rect.rs:20-29): top, right, bottom, left. -/
structure Rect (T : Type) where
  /-- the top component -/
  top : T
  /-- the right component -/
  right : T
  /-- the bottom component -/
  bottom : T
  /-- the left component -/
  left : T
  deriving DecidableEq, Repr

/-- `Rect::parse` (src/values/rect.rs:52-82). -/
def parseRect {T} (c : Codec T) (input : Str) : Option (Rect T × Str) :=
  match c.parse input with
  | none => none
  | some (first, input) =>
    match c.parse input with
    | none => some (⟨first, first, first, first⟩, input)
    | some (second, input) =>
      match c.parse input with
      | none => some (⟨first, second, first, second⟩, input)
      | some (third, input) =>
        match c.parse input with
        | none => some (⟨first, second, third, second⟩, input)
        | some (fourth, input) => some (⟨first, second, third, fourth⟩, input)

/-- `Rect::to_css` (src/values/rect.rs:94-120). -/
def printRect {T} (c : Codec T) (r : Rect T) : Str :=
  let sameVertical := c.eq r.top r.bottom
  let sameHorizontal := c.eq r.right r.left
  c.print r.top ++
    if sameVertical && sameHorizontal && c.eq r.top r.right then []
    else cs!" " ++ c.print r.right ++
      if sameVertical && sameHorizontal then []
      else cs!" " ++ c.print r.bottom ++
        if sameHorizontal then [] else cs!" " ++ c.print r.left

/-- `#[derive(PartialEq)]` of `Rect` (src/values/rect.rs:15). -/
def eqRect {T} (c : Codec T) (a b : Rect T) : Bool :=
  c.eq a.top b.top && c.eq a.right b.right && c.eq a.bottom b.bottom && c.eq a.left b.left

/-- `Size2D<T>` (src/values/size.rs:18). -/
structure Size2D (T : Type) where
  /-- the first component -/
  fst : T
  /-- the second component -/
  snd : T
  deriving DecidableEq, Repr

/-- `Size2D::parse` (src/values/size.rs:24-28). -/
def parseSize {T} (c : Codec T) (input : Str) : Option (Size2D T × Str) :=
  match c.parse input with
  | none => none
  | some (first, input) =>
    match c.parse input with
    | none => some (⟨first, first⟩, input)
    | some (second, input) => some (⟨first, second⟩, input)

/-- `Size2D::to_css` (src/values/size.rs:35-45). -/
def printSize {T} (c : Codec T) (s : Size2D T) : Str :=
  c.print s.fst ++ if !c.eq s.snd s.fst then cs!" " ++ c.print s.snd else []

/-- `Printer::delim` (src/printer.rs:194-200) with `Printer::whitespace` (src/printer.rs:184-190). -/
def delim (minify : Bool) (d : Char) (wsBefore : Bool) : Str :=
  (if wsBefore && !minify then cs!" " else []) ++ [d] ++ (if minify then [] else cs!" ")

/-- The text after white space, as cssparser's `next` skips it. (Only the space is white space in this
model: it is the only one the printer writes inside a value.) -/
def skipWs : Str → Str
  | ' ' :: s => skipWs s
  | s => s

/-- cssparser's `expect_delim('/')`: the text after it. -/
def expectSlash (input : Str) : Option Str :=
  match skipWs input with
  | '/' :: s => some s
  | _ => none

/-- Characters that continue an identifier (ASCII part of CSS Syntax § 4.2; escapes and non-ASCII
characters not modelled, as the identifiers expected here are ASCII). -/
def isNameChar (c : Char) : Bool := c.isAlphanum || c == '-' || c == '_'

/-- cssparser's `expect_ident_matching(name)` for a name written in lower case (the ASCII case of the
input is not folded here: the printer writes these names in lower case). -/
def expectIdent (name : Str) (input : Str) : Option Str :=
  let s := skipWs input
  let ident := s.takeWhile isNameChar
  if ident = name then some (s.dropWhile isNameChar) else none

/-- `BorderRadius` (src/properties/border_radius.rs:20-32): the two radii of each corner. -/
structure BorderRadius (T : Type) where
  /-- top left -/
  topLeft : Size2D T
  /-- top right -/
  topRight : Size2D T
  /-- bottom right -/
  bottomRight : Size2D T
  /-- bottom left -/
  bottomLeft : Size2D T
  deriving DecidableEq, Repr

/-- `BorderRadius::parse` (src/properties/border_radius.rs:47-62). -/
def parseRadius {T} (c : Codec T) (input : Str) : Option (BorderRadius T × Str) :=
  match parseRect c input with
  | none => none
  | some (widths, input) =>
    let mk (heights : Rect T) : BorderRadius T :=
      ⟨⟨widths.top, heights.top⟩, ⟨widths.right, heights.right⟩, ⟨widths.bottom, heights.bottom⟩,
        ⟨widths.left, heights.left⟩⟩
    match expectSlash input with
    | some input =>
      match parseRect c input with
      | none => none
      | some (heights, input) => some (mk heights, input)
    | none => some (mk widths, input)

/-- `BorderRadius::to_css` (src/properties/border_radius.rs:65-91). -/
def printRadius {T} (c : Codec T) (minify : Bool) (b : BorderRadius T) : Str :=
  let widths : Rect T := ⟨b.topLeft.fst, b.topRight.fst, b.bottomRight.fst, b.bottomLeft.fst⟩
  let heights : Rect T := ⟨b.topLeft.snd, b.topRight.snd, b.bottomRight.snd, b.bottomLeft.snd⟩
  printRect c widths ++ if !eqRect c widths heights then delim minify '/' true ++ printRect c heights else []

/-- `InsetRect` (src/values/shape.rs:41-46). -/
structure InsetRect (T : Type) where
  /-- the rectangle -/
  rect : Rect T
  /-- the corner radius of the rectangle -/
  radius : BorderRadius T
  deriving DecidableEq, Repr

/-- `#[derive(PartialEq)]` of `BorderRadius` and `Size2D` (src/macros.rs:345, src/values/size.rs:13). -/
def eqRadius {T} (c : Codec T) (a b : BorderRadius T) : Bool :=
  (c.eq a.topLeft.fst b.topLeft.fst && c.eq a.topLeft.snd b.topLeft.snd) &&
  (c.eq a.topRight.fst b.topRight.fst && c.eq a.topRight.snd b.topRight.snd) &&
  (c.eq a.bottomRight.fst b.bottomRight.fst && c.eq a.bottomRight.snd b.bottomRight.snd) &&
  (c.eq a.bottomLeft.fst b.bottomLeft.fst && c.eq a.bottomLeft.snd b.bottomLeft.snd)

/-- `BorderRadius::default` (src/properties/border_radius.rs:34-44); `zero` is `LengthPercentage::zero()`. -/
def defaultRadius {T} (zero : T) : BorderRadius T :=
  ⟨⟨zero, zero⟩, ⟨zero, zero⟩, ⟨zero, zero⟩, ⟨zero, zero⟩⟩

/-- `InsetRect::parse` (src/values/shape.rs:161-169). -/
def parseInset {T} (c : Codec T) (zero : T) (input : Str) : Option (InsetRect T × Str) :=
  match parseRect c input with
  | none => none
  | some (rect, input) =>
    match expectIdent cs!"round" input with
    | some input =>
      match parseRadius c input with
      | none => none
      | some (radius, input) => some (⟨rect, radius⟩, input)
    | none => some (⟨rect, defaultRadius zero⟩, input)

/-- `InsetRect::to_css` (src/values/shape.rs:266-278). -/
def printInset {T} (c : Codec T) (zero : T) (minify : Bool) (i : InsetRect T) : Str :=
  printRect c i.rect ++
    if !eqRadius c i.radius (defaultRadius zero) then cs!" round " ++ printRadius c minify i.radius else []

/-- `BorderImageSlice` (src/properties/border_image.rs:144-149). -/
structure Slice (T : Type) where
  /-- the offsets from the edges of the image -/
  offsets : Rect T
  /-- whether the middle of the border image should be preserved -/
  fill : Bool
  deriving DecidableEq, Repr

/-- `BorderImageSlice::parse` (src/properties/border_image.rs:161-168). -/
def parseSlice {T} (c : Codec T) (input : Str) : Option (Slice T × Str) :=
  match expectIdent cs!"fill" input with
  | some input =>
    match parseRect c input with
    | none => none
    | some (offsets, input) => some (⟨offsets, true⟩, input)
  | none =>
    match parseRect c input with
    | none => none
    | some (offsets, input) =>
      match expectIdent cs!"fill" input with
      | some input => some (⟨offsets, true⟩, input)
      | none => some (⟨offsets, false⟩, input)

/-- `BorderImageSlice::to_css` (src/properties/border_image.rs:172-181). -/
def printSlice {T} (c : Codec T) (s : Slice T) : Str :=
  printRect c s.offsets ++ if s.fill then cs!" fill" else []

end Verif.Sides
