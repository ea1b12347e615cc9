import Verif.Radius.Model
/-! # Specification: the radii of the four corners -/
namespace Verif.Radius.Spec
open Verif.Targets

/-- The writing direction. -/
inductive Dir
  | ltr | rtl
deriving DecidableEq

/-- A browser: the vendor prefixes and values that it knows, and whether it has the logical properties. -/
structure Agent (V : Type) where
  prefixes : Prefix → Bool
  knows : V → Bool
  logical : Bool

/-- The computed value of a corner: of other rules, a radius, or a text with `var()`, of the shorthand or of a longhand. -/
inductive Radius (V : Type)
  | other (n : Nat)
  | val (v : V)
  | raw (shorthand : Bool) (text : Str)

/-- The corner of a box that a logical corner is, in a horizontal writing mode (css-logical-1): block start is the top; inline start the left or the right side. -/
def physicalCorner : Dir → LCorner → Corner
  | .ltr, .ss => .tl
  | .ltr, .se => .tr
  | .ltr, .ee => .br
  | .ltr, .es => .bl
  | .rtl, .ss => .tr
  | .rtl, .se => .tl
  | .rtl, .ee => .bl
  | .rtl, .es => .br

variable {V : Type}

/-- The browser knows one of the names that are written. -/
def Agent.takes (b : Agent V) (p : PrefixSet) : Bool := [Prefix.none, .webkit, .moz, .ms, .o].any fun q => p.has q && b.prefixes q

/-- The value, if the browser accepts it. -/
def Agent.value (b : Agent V) : Val V → Option (Radius V)
  | .val v => if b.knows v then some (.val v) else none
  | .raw t => some (.raw false t)

/-- Setting a corner. -/
def set (m : Corner → Radius V) (c : Corner) (x : Option (Radius V)) : Corner → Radius V := fun k =>
  match x with
  | some r => if k = c then r else m k
  | none => m k

/-- Four radii. -/
def allFour (tl tr br bl : Radius V) : Corner → Radius V
  | .tl => tl
  | .tr => tr
  | .br => br
  | .bl => bl

/-- The effect of a declaration. A shorthand is valid only if the browser accepts all four values. -/
def apply (b : Agent V) (dir : Dir) (m : Corner → Radius V) : Decl V → Corner → Radius V
  | .corner c v p => if b.takes p then set m c (b.value v) else m
  | .radius x y z w p =>
    if b.takes p && b.knows x && b.knows y && b.knows z && b.knows w then
      allFour (.val x) (.val y) (.val z) (.val w)
    else m
  | .rawRadius t p => if b.takes p then fun _ => .raw true t else m
  | .logical c v => if b.logical then set m (physicalCorner dir c) (b.value v) else m

/-- The computed radii of the corners after some declarations. -/
def computed (b : Agent V) (dir : Dir) (m : Corner → Radius V) (ds : List (Decl V)) : Corner → Radius V := ds.foldl (apply b dir) m

/-- What is written for elements of a direction: the block, and the rules for the direction after it. -/
def written (o : Out V) : Dir → List (Decl V)
  | .ltr => o.dest ++ o.ltr
  | .rtl => o.dest ++ o.rtl

end Verif.Radius.Spec
