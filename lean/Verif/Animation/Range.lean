import Verif.Transition.Easing
import Verif.Transition.Spec
/-!
# `animation-range` (`/repo/src/properties/animation.rs`)

A length or percentage is an opaque value of a type `L` in which `0%` and `100%` are known.
-/
namespace Verif.Animation.Rng
open Verif.Transition

/-- A component of a range. -/
inductive Tok (L : Type)
  | ident (s : Str)
  | len (l : L)
deriving DecidableEq

/-- `TimelineRangeName` (src/properties/animation.rs:392-408). -/
inductive RName
  | cover | contain | entry | exit | entryCrossing | exitCrossing
deriving DecidableEq

/-- `AnimationAttachmentRange` (src/properties/animation.rs:416-430). -/
inductive Att (L : Type)
  | normal
  | len (l : L)
  | range (name : RName) (offset : L)
deriving DecidableEq

/-- The derived `Parse` of `TimelineRangeName`. -/
def parseRName (s : Str) : Option RName :=
  if kw s cs!"cover" then some .cover
  else if kw s cs!"contain" then some .contain
  else if kw s cs!"entry" then some .entry
  else if kw s cs!"exit" then some .exit
  else if kw s cs!"entry-crossing" then some .entryCrossing
  else if kw s cs!"exit-crossing" then some .exitCrossing
  else none

/-- The derived `ToCss` of `TimelineRangeName`. -/
def RName.text : RName → Str
  | .cover => cs!"cover" | .contain => cs!"contain" | .entry => cs!"entry" | .exit => cs!"exit"
  | .entryCrossing => cs!"entry-crossing" | .exitCrossing => cs!"exit-crossing"

variable {L : Type}

/-- `AnimationAttachmentRange::parse` (src/properties/animation.rs:433-448): the value, and the components that are left. -/
def Att.parse (dflt : L) : List (Tok L) → Option (Att L × List (Tok L))
  | .ident s :: r =>
    if kw s cs!"normal" then some (.normal, r)
    else match parseRName s with
      | some n => match r with
        | .len l :: r' => some (.range n l, r')
        | r => some (.range n dflt, r)
      | none => none
  | .len l :: r => some (.len l, r)
  | [] => none

/-- `AnimationAttachmentRange::to_css` (src/properties/animation.rs:450-466). -/
def Att.print [DecidableEq L] (dflt : L) : Att L → List (Tok L)
  | .normal => [.ident cs!"normal"]
  | .len l => [.len l]
  | .range n o => .ident n.text :: (if o ≠ dflt then [.len o] else [])

/-- The percentages that the code knows. -/
class Pct (L : Type) where
  zero : L
  full : L

variable [Pct L]

/-- `AnimationRangeStart::parse` (src/properties/animation.rs:483-488), as the value of a property. -/
def parseStart (l : List (Tok L)) : Option (Att L) := match Att.parse Pct.zero l with
  | some (a, []) => some a
  | _ => none
/-- `AnimationRangeEnd::parse` (src/properties/animation.rs:507-512), as the value of a property. -/
def parseEnd (l : List (Tok L)) : Option (Att L) := match Att.parse Pct.full l with
  | some (a, []) => some a
  | _ => none

/-- The end if it is left out (src/properties/animation.rs:543-556). -/
def defaultEnd : Att L → Att L
  | .range n _ => .range n Pct.full
  | _ => .normal

/-- `AnimationRange::parse` (src/properties/animation.rs:537-559). The end is read by the parser of the start. -/
def parseRange (l : List (Tok L)) : Option (Att L × Att L) :=
  match Att.parse Pct.zero l with
  | none => none
  | some (s, r) => match Att.parse Pct.zero r with
    | some (e, []) => some (s, e)
    | some (_, _ :: _) => none
    | none => match r with
      | [] => some (s, defaultEnd s)
      | _ :: _ => none

/-- Whether the end is left out (src/properties/animation.rs:568-577). -/
def omitEnd [DecidableEq L] : Att L → Att L → Bool
  | .range n _, .range n' o => n = n' && o = Pct.full
  | _, e => e = .normal

/-- `AnimationRange::to_css` (src/properties/animation.rs:561-585). -/
def printRange [DecidableEq L] (s e : Att L) : List (Tok L) :=
  s.print Pct.zero ++ (if omitEnd s e then [] else e.print Pct.full)

end Verif.Animation.Rng

/-! # What CSS says (scroll-animations-1, section 4.3) -/
namespace Verif.Animation.Rng.Spec
open Verif.Transition.Spec (word)
open Verif.Animation.Rng

/-- The names of the ranges. -/
def names : List (Str × RName) :=
  [(cs!"cover", .cover), (cs!"contain", .contain), (cs!"entry", .entry), (cs!"exit", .exit), (cs!"entry-crossing", .entryCrossing), (cs!"exit-crossing", .exitCrossing)]

/-- `[ normal | <length-percentage> | <timeline-range-name> <length-percentage>? ]`. -/
inductive One {L : Type} (dflt : L) : List (Tok L) → Att L → Prop
  | normal {s} : word s cs!"normal" → One dflt [.ident s] .normal
  | len (l) : One dflt [.len l] (.len l)
  | name {s k n} : (k, n) ∈ names → word s k → One dflt [.ident s] (.range n dflt)
  | offset {s k n} (l) : (k, n) ∈ names → word s k → One dflt [.ident s, .len l] (.range n l)

/-- An offset follows: it belongs to the name before it. -/
def Follows {L : Type} (l r : List (Tok L)) : Prop := ∃ s k n x r', (k, n) ∈ names ∧ word s k ∧ l = [.ident s] ∧ r = .len x :: r'

/-- `animation-range: <start> <end>?`: without offset, the start is at 0% and the end at 100%. If the end is left out and the start has a name, the end has the same name. -/
inductive Range {L : Type} [Pct L] : List (Tok L) → Att L → Att L → Prop
  | both {l r s e} : One Pct.zero l s → One Pct.full r e → ¬Follows l r → Range (l ++ r) s e
  | named {l n o} : One Pct.zero l (.range n o) → Range l (.range n o) (.range n Pct.full)
  | normal {l} : One Pct.zero l .normal → Range l .normal .normal
  | len {l x} : One Pct.zero l (.len x) → Range l (.len x) .normal

end Verif.Animation.Rng.Spec
