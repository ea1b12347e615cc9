import Verif.Gradient.WebkitModel
import Verif.Gradient.Spec
/-!
# What `-webkit-gradient()` means (Compatibility Standard and the WebKit blog, 2008), written without the functions of the model
-/
namespace Verif.Gradient
open Transform (Env lengthPct)

/-- A colour at a place between 0 and 1. -/
structure Mark where
  color : Nat
  at_ : ℝ

/-- What a `-webkit-gradient()` says: two points, or two circles, and colours. -/
inductive Geometry
  | linear (x0 y0 x1 y1 : ℝ) (marks : List Mark)
  | radial (x0 y0 r0 x1 y1 r1 : ℝ) (marks : List Mark)

/-- A horizontal coordinate: numbers are pixels. -/
noncomputable def xCoord (env : Env) : Position.Tok → Option ℝ
  | .kw .left => some 0
  | .kw .center => some (env.width / 2)
  | .kw .right => some env.width
  | .arg (.num v) => some v
  | .arg (.pct p) => some (p * env.width)
  | _ => none

/-- A vertical coordinate. -/
noncomputable def yCoord (env : Env) : Position.Tok → Option ℝ
  | .kw .top => some 0
  | .kw .center => some (env.height / 2)
  | .kw .bottom => some env.height
  | .arg (.num v) => some v
  | .arg (.pct p) => some (p * env.height)
  | _ => none

/-- A colour stop. -/
noncomputable def mark : WSeg → Option Mark
  | .from c => some ⟨c, 0⟩
  | .to c => some ⟨c, 1⟩
  | .stop (.num v) c => some ⟨c, v⟩
  | .stop (.pct p) c => some ⟨c, p⟩
  | _ => none

/-- A valid `-webkit-gradient()`, with at least one stop. -/
inductive IsWebkit (env : Env) : List WSeg → Geometry → Prop
  | linear {a b c d : Position.Tok} {x0 y0 x1 y1 : ℝ} {ss : List WSeg} {ms : List Mark} :
    xCoord env a = some x0 → yCoord env b = some y0 → xCoord env c = some x1 → yCoord env d = some y1 → ss ≠ [] → ss.mapM mark = some ms →
    IsWebkit env (.linear :: .point a b :: .point c d :: ss) (.linear x0 y0 x1 y1 ms)
  | radial {a b c d : Position.Tok} {x0 y0 r0 x1 y1 r1 : ℝ} {ss : List WSeg} {ms : List Mark} :
    xCoord env a = some x0 → yCoord env b = some y0 → xCoord env c = some x1 → yCoord env d = some y1 → ss ≠ [] → ss.mapM mark = some ms →
    IsWebkit env (.radial :: .point a b :: .number r0 :: .point c d :: .number r1 :: ss) (.radial x0 y0 r0 x1 y1 r1 ms)

open Classical in
/-- The stops are used in the order of their places. -/
noncomputable def sortMarks (ms : List Mark) : List Mark := ms.mergeSort fun a b => decide (a.at_ ≤ b.at_)

/-- A stop without a hint. -/
def Mark.point (m : Mark) : Point := ⟨none, m.color, m.at_⟩

/-- The colour at the point `(x, y)`: how far it is along the line through the two points, or between two circles around one
point. (Places below 0 and above 1 are taken as they are.) -/
inductive GeometryColour (M : Mixer) : Geometry → ℝ → ℝ → M.Paint → Prop
  | linear {x0 y0 x1 y1 x y : ℝ} {ms : List Mark} {p : M.Paint} :
    (x1 - x0) ^ 2 + (y1 - y0) ^ 2 ≠ 0 →
    Paints M ((sortMarks ms).map Mark.point) (((x - x0) * (x1 - x0) + (y - y0) * (y1 - y0)) / ((x1 - x0) ^ 2 + (y1 - y0) ^ 2)) p →
    GeometryColour M (.linear x0 y0 x1 y1 ms) x y p
  | radial {x0 y0 r0 r1 x y : ℝ} {ms : List Mark} {p : M.Paint} :
    r0 < r1 →
    Paints M ((sortMarks ms).map Mark.point) ((Real.sqrt ((x - x0) ^ 2 + (y - y0) ^ 2) - r0) / (r1 - r0)) p →
    GeometryColour M (.radial x0 y0 r0 x0 y0 r1 ms) x y p

/-- The colour of a `-webkit-gradient()`. -/
def WebkitColour (M : Mixer) (env : Env) (segs : List WSeg) (x y : ℝ) (p : M.Paint) : Prop := ∃ G, IsWebkit env segs G ∧ GeometryColour M G x y p

/-- The colour of a circular radial gradient with the radius `r`. -/
def CircleColour (M : Mixer) (env : Env) (rep : Bool) (segs : List Seg) (x y : ℝ) (p : M.Paint) : Prop :=
  ∃ r x0 y0 stops ss, IsRadial env segs (.circle r) x0 y0 stops ∧ IsStops (lengthPct env r) stops ss ∧
    Colour M rep r ss (Real.sqrt ((x - x0) ^ 2 + (y - y0) ^ 2)) p

end Verif.Gradient
