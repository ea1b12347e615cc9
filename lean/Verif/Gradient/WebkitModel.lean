import Verif.Gradient.Model
/-!
# Model of `-webkit-gradient()` (`/repo/src/values/gradient.rs:1077-1524`)
-/
namespace Verif.Gradient
open Transform (LP Len Ang Arg toPx)
open Position (HSide VSide Pos Kw Comp)

/-- The syntax of the arguments between commas: `linear` or `radial`, a point, a number, or a colour stop. -/
inductive WSeg
  | linear | radial
  | point (x y : Position.Tok)
  | number (v : ℝ)
  | from (c : Nat) | to (c : Nat)
  | stop (p : Arg) (c : Nat)

/-- `WebKitGradientPointComponent`, `gradient.rs:1328-1335`, with the two cases of `NumberOrPercentage`. -/
inductive WComp (S : Type)
  | center
  | num (v : ℝ)
  | pct (p : ℝ)
  | side (s : S)

/-- `WebKitGradientPoint`, `gradient.rs:1289-1294`. -/
structure WPoint where
  x : WComp HSide
  y : WComp VSide

/-- `WebKitColorStop`, `gradient.rs:1229-1234`. -/
structure WStop where
  color : Nat
  position : ℝ

/-- `WebKitGradient`, `gradient.rs:1087-1110`. -/
inductive Webkit
  | linear (from_ to_ : WPoint) (stops : List WStop)
  | radial (from_ : WPoint) (r0 : ℝ) (to_ : WPoint) (r1 : ℝ) (stops : List WStop)

/-- `HorizontalPositionKeyword::parse`. -/
def hWord : Position.Tok → Option HSide
  | .kw .left => some .left
  | .kw .right => some .right
  | _ => none

/-- `VerticalPositionKeyword::parse`. -/
def vWord : Position.Tok → Option VSide
  | .kw .top => some .top
  | .kw .bottom => some .bottom
  | _ => none

/-- `WebKitGradientPointComponent::parse`, `gradient.rs:1337-1350`. -/
def WComp.parse {S : Type} (key : Position.Tok → Option S) : Position.Tok → Option (WComp S)
  | .kw .center => some .center
  | .arg (.num v) => some (.num v)
  | .arg (.pct p) => some (.pct p)
  | t => (key t).map .side

/-- `WebKitGradientPoint::parse`, `gradient.rs:1296-1302`. -/
def WPoint.parse : WSeg → Option WPoint
  | .point x y => do some ⟨← WComp.parse hWord x, ← WComp.parse vWord y⟩
  | _ => none

/-- `WebKitColorStop::parse`, `gradient.rs:1236-1255`. -/
def WStop.parse : WSeg → Option WStop
  | .from c => some ⟨c, 0⟩
  | .to c => some ⟨c, 1⟩
  | .stop (.num v) c => some ⟨c, v⟩
  | .stop (.pct p) c => some ⟨c, p⟩
  | _ => none

/-- `parse_comma_separated(WebKitColorStop::parse)`: at least one. -/
def parseWStops : List WSeg → Option (List WStop)
  | [] => none
  | s :: ss => (s :: ss).mapM WStop.parse

/-- `WebKitGradient::parse`, `gradient.rs:1112-1152`. -/
def Webkit.parse : List WSeg → Option Webkit
  | .linear :: a :: b :: ss => do some (.linear (← WPoint.parse a) (← WPoint.parse b) (← parseWStops ss))
  | .radial :: a :: .number r0 :: b :: .number r1 :: ss => do some (.radial (← WPoint.parse a) r0 (← WPoint.parse b) r1 (← parseWStops ss))
  | _ => none

open Classical in
/-- `WebKitGradientPointComponent::to_css`, `gradient.rs:1352-1384`. -/
noncomputable def WComp.print {S : Type} (m : Bool) (toLP : S → LP) (key : S → Position.Tok) : WComp S → Position.Tok
  | .center => if m then .arg (.pct (1 / 2)) else .kw .center
  | .num v => .arg (.num v)
  | .pct p => if p = 0 then .arg (.num 0) else .arg (.pct p)
  | .side s => if m then .arg (toLP s).print else key s

/-- `WebKitGradientPoint::to_css`, `gradient.rs:1304-1313`. -/
noncomputable def WPoint.print (m : Bool) (p : WPoint) : WSeg := .point (p.x.print m HSide.toLP HSide.tok) (p.y.print m VSide.toLP VSide.tok)

open Classical in
/-- `WebKitColorStop::to_css`, `gradient.rs:1257-1276`. -/
noncomputable def WStop.print (s : WStop) : WSeg :=
  if s.position = 0 then .from s.color else if s.position = 1 then .to s.color else .stop (.num s.position) s.color

/-- `WebKitGradient::to_css`, `gradient.rs:1154-1196`. -/
noncomputable def Webkit.print (m : Bool) : Webkit → List WSeg
  | .linear a b ss => .linear :: a.print m :: b.print m :: ss.map WStop.print
  | .radial a r0 b r1 ss => .radial :: a.print m :: .number r0 :: b.print m :: .number r1 :: ss.map WStop.print

/-- `WebKitGradientPointComponent::from_position`, `gradient.rs:1386-1415`. -/
noncomputable def WComp.fromPosition {S : Type} : Comp S → Option (WComp S)
  | .center => some .center
  | .length (.pct p) => some (.pct p)
  | .length (.dim v u) => (toPx v u).map .num
  | .length (.expr _) => none
  | .side s none => some (.side s)
  | .side _ (some _) => none

/-- The loop of `convert_stops_to_webkit`, `gradient.rs:1494-1527`; `n` is the number of items. -/
def convertStops (n : Nat) : Nat → List (Item LP) → Option (List WStop)
  | _, [] => some []
  | i, .stop c (some (.pct p)) :: is => (convertStops n (i + 1) is).map (⟨c, p⟩ :: ·)
  | i, .stop c none :: is =>
    if i = 0 then (convertStops n (i + 1) is).map (⟨c, 0⟩ :: ·)
    else if i = n - 1 then (convertStops n (i + 1) is).map (⟨c, 1⟩ :: ·)
    else none
  | _, _ => none

/-- `convert_stops_to_webkit`, `gradient.rs:1494-1527`. -/
def toWStops (is : List (Item LP)) : Option (List WStop) := convertStops is.length 0 is

/-- A point with two percentages. -/
def pctPoint (p : ℝ × ℝ) : WPoint := ⟨.pct p.1, .pct p.2⟩

open Classical in
/-- The points of a direction, `gradient.rs:1424-1456`. -/
noncomputable def Dir.points : Dir → Option ((ℝ × ℝ) × (ℝ × ℝ))
  | .horizontal .left => some ((1, 0), (0, 0))
  | .horizontal .right => some ((0, 0), (1, 0))
  | .vertical .top => some ((0, 1), (0, 0))
  | .vertical .bottom => some ((0, 0), (0, 1))
  | .corner .left .top => some ((1, 1), (0, 0))
  | .corner .left .bottom => some ((1, 0), (0, 1))
  | .corner .right .top => some ((0, 1), (1, 0))
  | .corner .right .bottom => some ((0, 0), (1, 1))
  | .angle a =>
    if toDegrees a = 0 then some ((0, 1), (0, 0))
    else if toDegrees a = 90 then some ((0, 0), (1, 0))
    else if toDegrees a = 180 then some ((0, 0), (0, 1))
    else if toDegrees a = 270 then some ((1, 0), (0, 0))
    else none

/-- `WebKitGradient::from_standard` for `Gradient::Linear`, `gradient.rs:1421-1464`. -/
noncomputable def Linear.toWebkit (g : Linear) : Option Webkit := do
  let p ← g.direction.points
  some (.linear (pctPoint p.1) (pctPoint p.2) (← toWStops g.items))

/-- `Length::to_px`, `values/length.rs:635-640`. -/
noncomputable def lenPx : Len → Option ℝ
  | .val v u => toPx v u
  | .expr _ => none

/-- `WebKitGradient::from_standard` for `Gradient::Radial`, `gradient.rs:1465-1489`. -/
noncomputable def Radial.toWebkit (g : Radial) : Option Webkit :=
  match g.shape with
  | .radius r => do
    let r ← lenPx r
    let x ← WComp.fromPosition g.position.x
    let y ← WComp.fromPosition g.position.y
    some (.radial ⟨x, y⟩ 0 ⟨x, y⟩ r (← toWStops g.items))
  | _ => none

end Verif.Gradient
