import Verif.Background.Model
/-!
# One layer of `background` (`/repo/src/properties/background.rs:351-541`)

The input is a list of tokens. A colour, an image, a position and a length are one token each (positions: C81, colours: C42, gradients: C82–C88); keywords of repetition, attachment, boxes and sizes are modelled as they are.
-/
namespace Verif.Background

/-- `BackgroundRepeatKeyword` (src/properties/background.rs:101-117). -/
inductive Rep
  | repeat | space | round | noRepeat
deriving DecidableEq

/-- `BackgroundAttachment` (src/properties/background.rs:188-198). -/
inductive Att
  | scroll | fixed | local
deriving DecidableEq

/-- `BackgroundOrigin` (src/properties/background.rs:206-216). -/
inductive Box
  | border | padding | content
deriving DecidableEq

/-- `BackgroundClip` (src/properties/background.rs:225-239): a box, `border` or `text`. -/
inductive Clip
  | box (b : Box) | border | text
deriving DecidableEq

/-- `LengthPercentageOrAuto`. -/
inductive Len (V : Type)
  | auto | len (v : V)
deriving DecidableEq

/-- `BackgroundSize` (src/properties/background.rs:32-43). -/
inductive BSize (V : Type)
  | explicit (w h : Len V) | cover | contain
deriving DecidableEq

/-- The tokens of a layer. -/
inductive Tok (V : Type)
  | color (v : V) | image (v : V) | pos (v : V) | len (v : V)
  | slash | auto | cover | contain | repeatX | repeatY
  | rep (k : Rep) | att (a : Att) | box (b : Box) | border | text | other
deriving DecidableEq

/-- `Background` (src/properties/background.rs:331-348). -/
structure Full (V : Type) where
  image : V
  color : V
  position : V
  rep : Rep × Rep
  size : BSize V
  attachment : Att
  origin : Box
  clip : Clip
deriving DecidableEq

/-- The default colour, image and position, and `Position::is_zero` (src/values/position.rs:46-48). -/
structure Defaults (V : Type) where
  color : V
  image : V
  position : V
  zero : V → Bool

section
variable {V : Type}

/-- `try_parse(LengthPercentageOrAuto::parse)`. -/
def parseLen : List (Tok V) → Option (Len V × List (Tok V))
  | .auto :: r => some (.auto, r)
  | .len v :: r => some (.len v, r)
  | _ => none

/-- `BackgroundSize::parse` (src/properties/background.rs:55-74). -/
def parseSize (ts : List (Tok V)) : Option (BSize V × List (Tok V)) :=
  match parseLen ts with
  | some (w, r) => match parseLen r with
    | some (h, r') => some (.explicit w h, r')
    | none => some (.explicit w .auto, r)
  | none => match ts with
    | .cover :: r => some (.cover, r)
    | .contain :: r => some (.contain, r)
    | _ => none

/-- The size after a position (src/properties/background.rs:374-380). -/
def parseSlash : List (Tok V) → Option (BSize V) × List (Tok V)
  | .slash :: r => match parseSize r with
    | some (s, r') => (some s, r')
    | none => (none, .slash :: r)
  | ts => (none, ts)

/-- `BackgroundRepeat::parse` (src/properties/background.rs:149-166). -/
def parseRepeat : List (Tok V) → Option ((Rep × Rep) × List (Tok V))
  | .repeatX :: r => some ((.repeat, .noRepeat), r)
  | .repeatY :: r => some ((.noRepeat, .repeat), r)
  | .rep x :: .rep y :: r => some ((x, y), r)
  | .rep x :: r => some ((x, x), r)
  | _ => none

/-- What has been read of a layer (src/properties/background.rs:353-360). -/
structure Read (V : Type) where
  color : Option V := none
  position : Option V := none
  size : Option (BSize V) := none
  image : Option V := none
  rep : Option (Rep × Rep) := none
  attachment : Option Att := none
  origin : Option Box := none
  clip : Option Clip := none

/-- `BackgroundClip::parse`. -/
def parseClip : List (Tok V) → Option (Clip × List (Tok V))
  | .box b :: r => some (.box b, r)
  | .border :: r => some (.border, r)
  | .text :: r => some (.text, r)
  | _ => none

/-- The colour, position and image (src/properties/background.rs:363-391). -/
def stepA (s : Read V) : List (Tok V) → Option (Read V × List (Tok V))
  | .color v :: r => if s.color.isNone then some ({ s with color := some v }, r) else none
  | .pos v :: r => if s.position.isNone then some ({ s with position := some v, size := (parseSlash r).1 }, (parseSlash r).2) else none
  | .image v :: r => if s.image.isNone then some ({ s with image := some v }, r) else none
  | _ => none

/-- `repeat` (src/properties/background.rs:393-398). -/
def stepRepeat (s : Read V) (ts : List (Tok V)) : Option (Read V × List (Tok V)) :=
  match s.rep, parseRepeat ts with
  | none, some (v, r) => some ({ s with rep := some v }, r)
  | _, _ => none

/-- The attachment (src/properties/background.rs:400-405). -/
def stepAtt (s : Read V) : List (Tok V) → Option (Read V × List (Tok V))
  | .att a :: r => if s.attachment.isNone then some ({ s with attachment := some a }, r) else none
  | _ => none

/-- The origin (src/properties/background.rs:407-412). -/
def stepOrigin (s : Read V) : List (Tok V) → Option (Read V × List (Tok V))
  | .box b :: r => if s.origin.isNone then some ({ s with origin := some b }, r) else none
  | _ => none

/-- The clip (src/properties/background.rs:414-419). -/
def stepClip (s : Read V) (ts : List (Tok V)) : Option (Read V × List (Tok V)) :=
  match s.clip, parseClip ts with
  | none, some (v, r) => some ({ s with clip := some v }, r)
  | _, _ => none

/-- One turn of the loop (src/properties/background.rs:362-422). -/
def step (s : Read V) (ts : List (Tok V)) : Option (Read V × List (Tok V)) :=
  stepA s ts <|> stepRepeat s ts <|> stepAtt s ts <|> stepOrigin s ts <|> stepClip s ts

/-- The loop (src/properties/background.rs:362-422); every turn takes a token, so the number of tokens bounds the turns. -/
def loop : Nat → Read V → List (Tok V) → Read V × List (Tok V)
  | 0, s, ts => (s, ts)
  | n + 1, s, ts => match step s ts with
    | some (s', r) => loop n s' r
    | none => (s, ts)

/-- The layer of what has been read (src/properties/background.rs:424-439). -/
def finish (d : Defaults V) (s : Read V) : Full V :=
  { image := s.image.getD d.image, color := s.color.getD d.color, position := s.position.getD d.position,
    rep := s.rep.getD (.repeat, .repeat), size := s.size.getD (.explicit .auto .auto), attachment := s.attachment.getD .scroll,
    origin := s.origin.getD .padding,
    clip := (match s.clip with
      | some c => some c
      | none => s.origin.map .box).getD (.box .border) }

/-- `Background::parse` with everything up to the next comma; what is left is an error (src/properties/background.rs:352-440). -/
def parseLayer (d : Defaults V) (ts : List (Tok V)) : Option (Full V) :=
  match loop ts.length {} ts with
  | (s, []) => some (finish d s)
  | (_, _ :: _) => none

/-- The value of `background`: the layers between commas (`SmallVec<[Background; 1]>`, src/properties/mod.rs `"background"`). -/
def parseLayers (d : Defaults V) : List (List (Tok V)) → Option (List (Full V))
  | [] => some []
  | ts :: tss => match parseLayer d ts, parseLayers d tss with
    | some l, some ls => some (l :: ls)
    | _, _ => none

/-- `LengthPercentageOrAuto::to_css`. -/
def printLen : Len V → List (Tok V)
  | .auto => [.auto]
  | .len v => [.len v]

variable [DecidableEq V]

/-- `BackgroundSize::to_css` (src/properties/background.rs:76-95). -/
def printSize : BSize V → List (Tok V)
  | .cover => [.cover]
  | .contain => [.contain]
  | .explicit w h => printLen w ++ (if h ≠ .auto then printLen h else [])

omit [DecidableEq V] in
/-- `BackgroundRepeat::to_css` (src/properties/background.rs:169-187). -/
def printRepeat : Rep × Rep → List (Tok V)
  | (.repeat, .noRepeat) => [.repeatX]
  | (.noRepeat, .repeat) => [.repeatY]
  | (x, y) => .rep x :: (if y ≠ x then [.rep y] else [])

omit [DecidableEq V] in
/-- `BackgroundClip::to_css`. -/
def printClip : Clip → List (Tok V)
  | .box b => [.box b]
  | .border => [.border]
  | .text => [.text]

/-- `BackgroundClip::is_background_box` (src/properties/background.rs:268-275). -/
def Clip.isBox : Clip → Bool
  | .box _ => true
  | _ => false

/-- `output_padding_box` (src/properties/background.rs:496-497). -/
def outputPaddingBox (l : Full V) : Bool := l.origin ≠ .padding ∨ (l.clip ≠ .box .border ∧ l.clip.isBox)

/-- `Background::to_css` (src/properties/background.rs:444-530); the spaces between tokens are left out. -/
def printLayer (d : Defaults V) (minify : Bool) (l : Full V) : List (Tok V) :=
  let out :=
    (if l.color ≠ d.color then [.color l.color] else []) ++
    (if l.image ≠ d.image then [.image l.image] else []) ++
    (if d.zero l.position = false ∨ l.size ≠ .explicit .auto .auto then
      .pos l.position :: (if l.size ≠ .explicit .auto .auto then .slash :: printSize l.size else []) else []) ++
    (if l.rep ≠ (.repeat, .repeat) then printRepeat l.rep else []) ++
    (if l.attachment ≠ .scroll then [.att l.attachment] else []) ++
    (if outputPaddingBox l then [.box l.origin] else []) ++
    (if (outputPaddingBox l ∧ l.clip ≠ .box l.origin) ∨ l.clip ≠ .box .border then printClip l.clip else [])
  if out.isEmpty then (if minify then [.pos l.position] else [.image d.image]) else out

end
end Verif.Background
