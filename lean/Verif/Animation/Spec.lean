import Verif.Animation.Value
import Verif.Transition.Spec
/-! # What CSS says about the value of `animation` (independent of the code): css-animations-1, section 3.10, and scroll-animations-1 -/
namespace Verif.Animation.Spec
open Verif.Transition (Num Text)
open Verif.Transition.Spec (Curve Denotes word)
open Verif.Animation

/-- The keywords of `animation-direction`. -/
def directions : List (Str × Direction) :=
  [(cs!"normal", .normal), (cs!"reverse", .reverse), (cs!"alternate", .alternate), (cs!"alternate-reverse", .alternateReverse)]
/-- The keywords of `animation-fill-mode`. -/
def fills : List (Str × Fill) := [(cs!"none", .no), (cs!"forwards", .forwards), (cs!"backwards", .backwards), (cs!"both", .both)]
/-- The keywords of `animation-play-state`. -/
def plays : List (Str × PlayState) := [(cs!"running", .running), (cs!"paused", .paused)]
/-- The keywords for the scroll container. -/
def scrollers : List (Str × Scroller) := [(cs!"root", .root), (cs!"nearest", .nearest), (cs!"self", .self)]
/-- The keywords for the axis. -/
def axes : List (Str × Axis) := [(cs!"block", .block), (cs!"inline", .inline), (cs!"x", .x), (cs!"y", .y)]
/-- The words that cannot be a name: the CSS-wide keywords, and `default`. -/
def reserved : List Str := [cs!"initial", cs!"inherit", cs!"unset", cs!"revert", cs!"revert-layer", cs!"default"]

variable {T L : Type}

/-! ### `scroll()` and `view()` -/

/-- An argument is a scroll container. -/
inductive IsScroller : TlArg L → Scroller → Prop
  | mk {s k v} : (k, v) ∈ scrollers → word s k → IsScroller (.ident s) v
/-- An argument is an axis. -/
inductive IsAxis : TlArg L → Axis → Prop
  | mk {s k v} : (k, v) ∈ axes → word s k → IsAxis (.ident s) v
/-- An argument is an inset. -/
inductive IsInset : TlArg L → Inset L → Prop
  | auto {s} : word s cs!"auto" → IsInset (.ident s) .auto
  | len (l : L) : IsInset (.len l) (.len l)

/-- `scroll( [ <scroller> || <axis> ]? )`. -/
inductive Scroll : List (TlArg L) → Scroller → Axis → Prop
  | nil : Scroll [] .nearest .block
  | scroller {a s} : IsScroller a s → Scroll [a] s .block
  | axis {a e} : IsAxis a e → Scroll [a] .nearest e
  | both {a b s e} : IsScroller a s → IsAxis b e → Scroll [a, b] s e
  | swapped {a b s e} : IsScroller a s → IsAxis b e → Scroll [b, a] s e

/-- `<inset>{1,2}`. -/
inductive Insets : List (TlArg L) → Inset L → Inset L → Prop
  | one {a i} : IsInset a i → Insets [a] i i
  | two {a b i j} : IsInset a i → IsInset b j → Insets [a, b] i j

/-- `view( [ <axis> || <inset>{1,2} ]? )`. -/
inductive View : List (TlArg L) → Axis → Inset L → Inset L → Prop
  | nil : View [] .block .auto .auto
  | axis {a e} : IsAxis a e → View [a] e .auto .auto
  | insets {l i j} : Insets l i j → View l .block i j
  | both {a e l i j} : IsAxis a e → Insets l i j → View (a :: l) e i j
  | swapped {a e l i j} : IsAxis a e → Insets l i j → View (l ++ [a]) e i j

/-! ### One animation -/

/-- The value of one component. A name is a text, whether it is written as identifier or string; an iteration count is a number, or `none` for `infinite`. -/
inductive Val (T L : Type)
  | duration (t : T)
  | timing (c : Curve)
  | delay (t : T)
  | iteration (n : Option Num)
  | direction (d : Direction)
  | fill (f : Fill)
  | play (p : PlayState)
  | name (s : Option Str)
  | timeline (t : Timeline L)

/-- The longhand that a value belongs to. -/
def Val.kind : Val T L → Slot
  | .duration _ => .duration | .timing _ => .timing | .delay _ => .delay | .iteration _ => .iteration | .direction _ => .direction
  | .fill _ => .fill | .play _ => .play | .name _ => .name | .timeline _ => .timeline

/-- A component can be read as this value. -/
inductive Fits : Comp T L → Val T L → Prop
  | duration (t : T) : Fits (.time t) (.duration t)
  | delay (t : T) : Fits (.time t) (.delay t)
  | timing {e : Text} {c : Curve} : Denotes e c → Fits (.text e) (.timing c)
  | count (n : Num) : Fits (.num n) (.iteration (some n))
  | infinite {s} : word s cs!"infinite" → Fits (.text (.ident s)) (.iteration none)
  | direction {s k v} : (k, v) ∈ directions → word s k → Fits (.text (.ident s)) (.direction v)
  | fill {s k v} : (k, v) ∈ fills → word s k → Fits (.text (.ident s)) (.fill v)
  | play {s k v} : (k, v) ∈ plays → word s k → Fits (.text (.ident s)) (.play v)
  | noName {s} : word s cs!"none" → Fits (.text (.ident s)) (.name none)
  | ident {s} : ¬word s cs!"none" → (∀ k ∈ reserved, ¬word s k) → Fits (.text (.ident s)) (.name (some s))
  | string (s) : Fits (.str s) (.name (some s))
  | auto {s} : word s cs!"auto" → Fits (.text (.ident s)) (.timeline .auto)
  | noTimeline {s} : word s cs!"none" → Fits (.text (.ident s)) (.timeline .no)
  | dashed (s) : Fits (.text (.ident ('-' :: '-' :: s))) (.timeline (.dashed ('-' :: '-' :: s)))
  | scroll {f args s a} : word f cs!"scroll" → Scroll args s a → Fits (.fn f args) (.timeline (.scroll s a))
  | view {f args a i j} : word f cs!"view" → View args a i j → Fits (.fn f args) (.timeline (.view a i j))

/-- If a component can be read as values of two longhands, the first of them gets it, unless it has a value already: the first time is the duration, and keywords of the other longhands are no names. -/
inductive Before : Slot → Slot → Prop
  | times : Before .duration .delay
  | timing : Before .timing .name
  | iteration : Before .iteration .name
  | direction : Before .direction .name
  | fill : Before .fill .name
  | play : Before .play .name
  | fillTimeline : Before .fill .timeline
  | timeline : Before .name .timeline

/-- Reading the components from left to right, when some longhands have values already. -/
inductive Reads : (Slot → Prop) → List (Comp T L) → List (Val T L) → Prop
  | nil (F) : Reads F [] []
  | cons {F c v cs vs} : Fits c v → ¬F v.kind → (∀ w, Fits c w → Before w.kind v.kind → F w.kind) →
      Reads (fun k => F k ∨ k = v.kind) cs vs → Reads F (c :: cs) (v :: vs)

/-- The value of a longhand: the one that is given, or the initial value. -/
def Gives {A : Type} (vs : List (Val T L)) (f : A → Val T L) (initial x : A) : Prop :=
  f x ∈ vs ∨ (∀ y, f y ∉ vs) ∧ x = initial

/-- The values of the nine longhands. -/
structure Meaning (T L : Type) where
  name : Option Str
  duration : T
  timing : Curve
  iteration : Option Num
  direction : Direction
  play : PlayState
  delay : T
  fill : Fill
  timeline : Timeline L

/-- The meaning of `<single-animation>`. -/
structure Means [Zero T] (cs : List (Comp T L)) (m : Meaning T L) : Prop where
  reads : ∃ vs, Reads (fun _ => False) cs vs ∧ Gives vs .name none m.name ∧ Gives vs .duration 0 m.duration ∧
    Gives vs .timing (.bezier ⟨25, 2⟩ ⟨1, 1⟩ ⟨25, 2⟩ ⟨1, 0⟩) m.timing ∧ Gives vs .iteration (some ⟨1, 0⟩) m.iteration ∧
    Gives vs .direction .normal m.direction ∧ Gives vs .play .running m.play ∧ Gives vs .delay 0 m.delay ∧
    Gives vs .fill .no m.fill ∧ Gives vs .timeline .auto m.timeline

end Verif.Animation.Spec
