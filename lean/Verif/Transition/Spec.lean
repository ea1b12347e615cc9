import Verif.Transition.Model
/-! # What CSS says about easing functions and transitions (independent of the code) -/
namespace Verif.Transition.Spec
open Verif.Targets Verif.Transition

/-! ### Easing functions: css-easing-1 -/

/-- The four ways to place the jumps of a step function. -/
inductive Jump
  | first | last | neither | both

/-- A timing curve: a cubic Bézier curve with its two inner control points, or steps. -/
inductive Curve
  | bezier (x1 y1 x2 y2 : Num)
  | steps (n : Int) (j : Jump)

/-- The curves of the keywords (css-easing-1, section 2). -/
def keywords : List (Str × Curve) :=
  [(cs!"linear", .bezier ⟨0, 0⟩ ⟨0, 0⟩ ⟨1, 0⟩ ⟨1, 0⟩),
   (cs!"ease", .bezier ⟨25, 2⟩ ⟨1, 1⟩ ⟨25, 2⟩ ⟨1, 0⟩),
   (cs!"ease-in", .bezier ⟨42, 2⟩ ⟨0, 0⟩ ⟨1, 0⟩ ⟨1, 0⟩),
   (cs!"ease-out", .bezier ⟨0, 0⟩ ⟨0, 0⟩ ⟨58, 2⟩ ⟨1, 0⟩),
   (cs!"ease-in-out", .bezier ⟨42, 2⟩ ⟨0, 0⟩ ⟨58, 2⟩ ⟨1, 0⟩),
   (cs!"step-start", .steps 1 .first),
   (cs!"step-end", .steps 1 .last)]

/-- The keywords for the place of the jumps. -/
def jumps : List (Str × Jump) :=
  [(cs!"jump-start", .first), (cs!"start", .first), (cs!"jump-end", .last), (cs!"end", .last), (cs!"jump-none", .neither), (cs!"jump-both", .both)]

/-- An identifier is the keyword, in any case. -/
def word (s lit : Str) : Prop := s.map Char.toLower = lit

/-- An argument is a number. -/
inductive IsNum : Arg → Num → Prop
  | num (n : Num) : IsNum (.num n) n
  | int (n : Int) : IsNum (.int n) ⟨n, 0⟩

/-- The text is an easing function with this curve. -/
inductive Denotes : Text → Curve → Prop
  | keyword {s k : Str} {c : Curve} : (k, c) ∈ keywords → word s k → Denotes (.ident s) c
  | bezier {f : Str} {a b c d : Arg} {x1 y1 x2 y2 : Num} : word f cs!"cubic-bezier" → IsNum a x1 → IsNum b y1 → IsNum c x2 → IsNum d y2 →
      Denotes (.func f [a, b, c, d]) (.bezier x1 y1 x2 y2)
  | steps {f : Str} {n : Int} : word f cs!"steps" → Denotes (.func f [.int n]) (.steps n .last)
  | stepsAt {f s k : Str} {n : Int} {j : Jump} : word f cs!"steps" → (k, j) ∈ jumps → word s k → Denotes (.func f [.int n, .ident s]) (.steps n j)

/-! ### Transitions: css-transitions-1 -/

/-- The times among the components of a single transition, in order. -/
def times {T : Type} (cs : List (Comp T)) : List T := cs.filterMap fun | .time t => some t | .text _ => none
/-- The other components, in order. -/
def texts {T : Type} (cs : List (Comp T)) : List Text := cs.filterMap fun | .time _ => none | .text e => some e

/-- The duration and the delay. -/
inductive Times {T : Type} [Zero T] : List T → T → T → Prop
  | none : Times [] 0 0
  | one (d : T) : Times [d] d 0
  | two (d dl : T) : Times [d, dl] d dl

/-- The property and the curve. An identifier that can be an easing function is one, if there is none before it. -/
inductive Texts : List Text → Str → Curve → Prop
  | none : Texts [] cs!"all" (.bezier ⟨25, 2⟩ ⟨1, 1⟩ ⟨25, 2⟩ ⟨1, 0⟩)
  | easing {t : Text} {c : Curve} : Denotes t c → Texts [t] cs!"all" c
  | name {n : Str} : (∀ c, ¬Denotes (.ident n) c) → Texts [.ident n] n (.bezier ⟨25, 2⟩ ⟨1, 1⟩ ⟨25, 2⟩ ⟨1, 0⟩)
  | easingName {t : Text} {c : Curve} {n : Str} : Denotes t c → Texts [t, .ident n] n c
  | nameEasing {t : Text} {c : Curve} {n : Str} : (∀ c, ¬Denotes (.ident n) c) → Denotes t c → Texts [.ident n, t] n c

/-- The meaning of `<single-transition>`: property, duration, delay and curve. -/
def Means {T : Type} [Zero T] (cs : List (Comp T)) (n : Str) (d dl : T) (c : Curve) : Prop := Times (times cs) d dl ∧ Texts (texts cs) n c

/-- A written property name. -/
abbrev Name := Prefix × Str

/-- What a browser makes of a declaration: the list, or a text that it resolves later. -/
inductive Value (A : Type)
  | list (l : List A)
  | raw (shorthand : Bool) (text : Str)

/-- The computed values of the four longhands. -/
structure Computed (T : Type) where
  property : Value Name
  duration : Value T
  delay : Value T
  timing : Value Easing

/-- A browser, and an element with a writing direction: which vendor prefixes of the transition properties it knows, and whether a name in `transition-property` stands for (a shorthand of) a physical property. -/
structure Agent where
  knows : Prefix → Bool
  refers : Name → Str → Bool

/-- The declaration is not dropped: it is written with a prefix that the browser knows. -/
def Agent.takes (b : Agent) (p : PrefixSet) : Bool :=
  (p.none && b.knows .none) || (p.webkit && b.knows .webkit) || (p.moz && b.knows .moz) || (p.ms && b.knows .ms) || (p.o && b.knows .o)

section
variable {T : Type} [Zero T]

/-- The single transitions of an item of the shorthand as it is written. If the property is written with more than one name, only the last of them is followed by the times. -/
def written (t : Tr T) : List (Name × T × T × Easing) :=
  t.property.print.dropLast.map (fun n => (n, (0 : T), (0 : T), .ease)) ++ t.property.print.getLast?.toList.map (fun n => (n, t.duration, t.delay, t.timing))

/-- The effect of a declaration on the computed values. -/
def apply (b : Agent) (c : Computed T) : Decl T → Computed T
  | .property v p => if b.takes p then { c with property := .list (v.flatMap Pid.print) } else c
  | .duration v p => if b.takes p then { c with duration := .list v } else c
  | .delay v p => if b.takes p then { c with delay := .list v } else c
  | .timing v p => if b.takes p then { c with timing := .list v } else c
  | .transition v p =>
    if b.takes p then
      let w := v.flatMap written
      ⟨.list (w.map (·.1)), .list (w.map (·.2.1)), .list (w.map (·.2.2.1)), .list (w.map (·.2.2.2))⟩
    else c
  | .unparsed lh t p =>
    if b.takes p then
      match lh with
      | none => ⟨.raw true t, .raw true t, .raw true t, .raw true t⟩
      | some .property => { c with property := .raw false t }
      | some .duration => { c with duration := .raw false t }
      | some .delay => { c with delay := .raw false t }
      | some .timing => { c with timing := .raw false t }
    else c

/-- The computed values after a list of declarations, when other rules give `c`. -/
def computed (b : Agent) (c : Computed T) (ds : List (Decl T)) : Computed T := ds.foldl (apply b) c

/-- The index of the last element with a property. -/
def lastIdx {A : Type} (p : A → Bool) : List A → Option Nat
  | [] => none
  | a :: l => match lastIdx p l with
    | some i => some (i + 1)
    | none => if p a then some 0 else none

/-- The element at an index of a list that is repeated as often as needed. -/
def Value.at {A : Type} (v : Value A) (i : Nat) : Option A :=
  match v with
  | .list l => l[i % l.length]?
  | .raw _ _ => none

/-- The transition of a physical property: the last name that stands for it determines the times and the easing function (css-transitions-1, sections 2.1 to 2.4). -/
def effect (b : Agent) (c : Computed T) (x : Str) : Option (Option T × Option T × Option Easing) :=
  match c.property with
  | .raw _ _ => none
  | .list names => (lastIdx (b.refers · x) names).map fun i => (c.duration.at i, c.delay.at i, c.timing.at i)

end

/-! ### Logical properties: css-logical-1, in a horizontal writing mode -/

/-- The writing direction. -/
inductive Dir
  | ltr | rtl
deriving DecidableEq

/-- The physical side. -/
def Dir.start : Dir → Str
  | .ltr => cs!"left"
  | .rtl => cs!"right"
/-- The physical side. -/
def Dir.stop : Dir → Str
  | .ltr => cs!"right"
  | .rtl => cs!"left"

/-- The groups of box properties, with the part of the name after the side. -/
def boxes : List (Str × Str) := [(cs!"margin", []), (cs!"padding", []), (cs!"border", []), (cs!"border", cs!"-width"), (cs!"border", cs!"-color"), (cs!"border", cs!"-style")]

/-- The physical properties that a logical property stands for. -/
inductive Physical (d : Dir) : Str → List Str → Prop
  | blockSize (m : Str) : m ∈ [[], cs!"min-", cs!"max-"] → Physical d (m ++ cs!"block-size") [m ++ cs!"height"]
  | inlineSize (m : Str) : m ∈ [[], cs!"min-", cs!"max-"] → Physical d (m ++ cs!"inline-size") [m ++ cs!"width"]
  | insetBlockStart : Physical d cs!"inset-block-start" [cs!"top"]
  | insetBlockEnd : Physical d cs!"inset-block-end" [cs!"bottom"]
  | insetInlineStart : Physical d cs!"inset-inline-start" [d.start]
  | insetInlineEnd : Physical d cs!"inset-inline-end" [d.stop]
  | insetBlock : Physical d cs!"inset-block" [cs!"top", cs!"bottom"]
  | insetInline : Physical d cs!"inset-inline" [cs!"left", cs!"right"]
  | inset : Physical d cs!"inset" [cs!"top", cs!"bottom", cs!"left", cs!"right"]
  | blockStart (g s : Str) : (g, s) ∈ boxes → Physical d (g ++ cs!"-block-start" ++ s) [g ++ cs!"-top" ++ s]
  | blockEnd (g s : Str) : (g, s) ∈ boxes → Physical d (g ++ cs!"-block-end" ++ s) [g ++ cs!"-bottom" ++ s]
  | inlineStart (g s : Str) : (g, s) ∈ boxes → Physical d (g ++ cs!"-inline-start" ++ s) [g ++ '-' :: d.start ++ s]
  | inlineEnd (g s : Str) : (g, s) ∈ boxes → Physical d (g ++ cs!"-inline-end" ++ s) [g ++ '-' :: d.stop ++ s]
  | block (g s : Str) : (g, s) ∈ boxes → Physical d (g ++ cs!"-block" ++ s) [g ++ cs!"-top" ++ s, g ++ cs!"-bottom" ++ s]
  | inline (g s : Str) : (g, s) ∈ boxes → Physical d (g ++ cs!"-inline" ++ s) [g ++ cs!"-left" ++ s, g ++ cs!"-right" ++ s]
  | startStart : Physical d cs!"border-start-start-radius" [cs!"border-top-" ++ d.start ++ cs!"-radius"]
  | startEnd : Physical d cs!"border-start-end-radius" [cs!"border-top-" ++ d.stop ++ cs!"-radius"]
  | endStart : Physical d cs!"border-end-start-radius" [cs!"border-bottom-" ++ d.start ++ cs!"-radius"]
  | endEnd : Physical d cs!"border-end-end-radius" [cs!"border-bottom-" ++ d.stop ++ cs!"-radius"]

/-- The logical properties of the inline axis that stand for one physical property. -/
def inlineNames : List Str :=
  [cs!"inline-size", cs!"min-inline-size", cs!"max-inline-size", cs!"inset-inline-start", cs!"inset-inline-end", cs!"margin-inline-start", cs!"margin-inline-end", cs!"padding-inline-start", cs!"padding-inline-end", cs!"border-inline-start", cs!"border-inline-start-width", cs!"border-inline-start-color", cs!"border-inline-start-style", cs!"border-inline-end", cs!"border-inline-end-width", cs!"border-inline-end-color", cs!"border-inline-end-style", cs!"border-start-start-radius", cs!"border-start-end-radius", cs!"border-end-start-radius", cs!"border-end-end-radius"]

/-- The logical properties that stand for several physical ones. -/
def multiNames : List Str :=
  [cs!"inset", cs!"inset-block", cs!"inset-inline", cs!"margin-block", cs!"margin-inline", cs!"padding-block", cs!"padding-inline",
   cs!"border-block", cs!"border-block-color", cs!"border-block-width", cs!"border-block-style",
   cs!"border-inline", cs!"border-inline-color", cs!"border-inline-width", cs!"border-inline-style"]

/-- The mask properties that have another name with the prefix `-webkit-`. -/
def maskNames : List Str :=
  [cs!"mask-border-source", cs!"mask-border-slice", cs!"mask-border-width", cs!"mask-border-outset", cs!"mask-border-repeat", cs!"mask-border", cs!"mask-composite", cs!"mask-mode"]

end Verif.Transition.Spec
