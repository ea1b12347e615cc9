import Verif.Background.Layer
/-!
# What a layer of `background` means (CSS Backgrounds 3, §3.10)

`<bg-layer> = <bg-image> || <bg-position> [ / <bg-size> ]? || <repeat-style> || <attachment> || <box> || <box>`, in any order, with a colour in the final layer, and with the keywords `border` and `text` for the clip of level 4. This file uses the types of tokens and values of the model only.
-/
namespace Verif.Background
namespace Spec

/-- A component of a layer. -/
inductive Comp (V : Type)
  | color (v : V)
  | image (v : V)
  | position (v : V) (size : Option (BSize V))
  | rep (x y : Rep)
  | attachment (a : Att)
  | box (b : Box)
  | clip (c : Clip)

variable {V : Type}

/-- How a length or `auto` is written. -/
inductive WritesLen : Len V → Tok V → Prop
  | auto : WritesLen .auto .auto
  | len (v : V) : WritesLen (.len v) (.len v)

/-- How a size is written; the second value may be left out if it is `auto`. -/
inductive WritesSize : BSize V → List (Tok V) → Prop
  | cover : WritesSize .cover [.cover]
  | contain : WritesSize .contain [.contain]
  | one (w : Len V) (t : Tok V) : WritesLen w t → WritesSize (.explicit w .auto) [t]
  | two (w h : Len V) (t u : Tok V) : WritesLen w t → WritesLen h u → WritesSize (.explicit w h) [t, u]

/-- How a component is written. -/
inductive Writes : Comp V → List (Tok V) → Prop
  | color (v : V) : Writes (.color v) [.color v]
  | image (v : V) : Writes (.image v) [.image v]
  | position (v : V) : Writes (.position v none) [.pos v]
  | sized (v : V) (s : BSize V) (ts : List (Tok V)) : WritesSize s ts → Writes (.position v (some s)) (.pos v :: .slash :: ts)
  | repeatX : Writes (.rep .repeat .noRepeat) [.repeatX]
  | repeatY : Writes (.rep .noRepeat .repeat) [.repeatY]
  | rep1 (x : Rep) : Writes (.rep x x) [.rep x]
  | rep2 (x y : Rep) : Writes (.rep x y) [.rep x, .rep y]
  | attachment (a : Att) : Writes (.attachment a) [.att a]
  | box (b : Box) : Writes (.box b) [.box b]
  | border : Writes (.clip .border) [.border]
  | text : Writes (.clip .text) [.text]

/-- How components are written one after the other. -/
inductive Written : List (Comp V) → List (Tok V) → Prop
  | nil : Written [] []
  | cons (c : Comp V) (cs : List (Comp V)) (t ts : List (Tok V)) : Writes c t → Written cs ts → Written (c :: cs) (t ++ ts)

/-- The colours. -/
def colors (cs : List (Comp V)) : List V := cs.filterMap fun | .color v => some v | _ => none
/-- The images. -/
def images (cs : List (Comp V)) : List V := cs.filterMap fun | .image v => some v | _ => none
/-- The positions and sizes. -/
def positions (cs : List (Comp V)) : List (V × Option (BSize V)) := cs.filterMap fun | .position v s => some (v, s) | _ => none
/-- The repetitions. -/
def reps (cs : List (Comp V)) : List (Rep × Rep) := cs.filterMap fun | .rep x y => some (x, y) | _ => none
/-- The attachments. -/
def attachments (cs : List (Comp V)) : List Att := cs.filterMap fun | .attachment a => some a | _ => none
/-- The boxes. -/
def boxes (cs : List (Comp V)) : List Box := cs.filterMap fun | .box b => some b | _ => none
/-- The other keywords of the clip. -/
def keywords (cs : List (Comp V)) : List Clip := cs.filterMap fun | .clip c => some c | _ => none

/-- The components may stand together in a layer: each kind once, but two boxes, or a box and a keyword of the clip. -/
structure ValidLayer (cs : List (Comp V)) : Prop where
  color : (colors cs).length ≤ 1
  image : (images cs).length ≤ 1
  position : (positions cs).length ≤ 1
  rep : (reps cs).length ≤ 1
  attachment : (attachments cs).length ≤ 1
  keyword : (keywords cs).length ≤ 1
  boxes : (boxes cs).length + (keywords cs).length ≤ 2

/-- The values of a layer: what is not there has the initial value; the first box is the origin, the second one the clip; one box is both, unless there is a keyword for the clip. -/
structure Means (initColor initImage initPosition : V) (cs : List (Comp V)) (l : Full V) : Prop where
  color : l.color = (colors cs).head?.getD initColor
  image : l.image = (images cs).head?.getD initImage
  position : l.position = ((positions cs).head?.map (·.1)).getD initPosition
  size : l.size = ((positions cs).head?.bind (·.2)).getD (.explicit .auto .auto)
  rep : l.rep = (reps cs).head?.getD (.repeat, .repeat)
  attachment : l.attachment = (attachments cs).head?.getD .scroll
  origin : l.origin = (boxes cs).head?.getD .padding
  clip : l.clip = match keywords cs, boxes cs with
    | k :: _, _ => k
    | [], [] => .box .border
    | [], [b] => .box b
    | [], _ :: b :: _ => .box b

/-- Two layers look the same: the same values, where all positions "zero" are the same. -/
structure Same (zero : V → Bool) (a b : Full V) : Prop where
  color : a.color = b.color
  image : a.image = b.image
  position : a.position = b.position ∨ (zero a.position = true ∧ zero b.position = true)
  rep : a.rep = b.rep
  size : a.size = b.size
  attachment : a.attachment = b.attachment
  origin : a.origin = b.origin
  clip : a.clip = b.clip

end Spec
end Verif.Background
