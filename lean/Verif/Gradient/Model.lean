import Verif.Position.Model
/-!
# Model of gradients (`/repo/src/values/gradient.rs`)

The arguments of a gradient are a list of segments between commas. Colours are opaque: that a colour is printed as the same colour is another
property (C42). A calculation is written `mcalc` where the code reads a length or percentage, and `lcalc` where it reads a length.
Calculations of angles are not modelled.
-/
namespace Verif.Gradient
open Transform (LP Len Ang Arg parseLP parseLen parseAng parseAng0)
open Position (HSide VSide Pos Kw)

/-- `ShapeExtent`, `gradient.rs:777-791`. -/
inductive Extent
  | closestSide | farthestSide | closestCorner | farthestCorner
deriving DecidableEq

/-- A token in the arguments of a gradient. -/
inductive Tok
  | pos (t : Position.Tok)
  | to | at | from | circle | ellipse
  | extent (e : Extent)
  | color (c : Nat)

/-- A segment between commas. -/
abbrev Seg := List Tok

/-- `AnglePercentage` = `DimensionPercentage<Angle>`, `values/angle.rs:282` and `values/percentage.rs:187-195`. -/
inductive AP
  | dim (a : Ang)
  | pct (p : ℝ)
  | expr (id : Nat)

/-- `AnglePercentage::parse`, `values/percentage.rs:213-229`. -/
def parseAP : Arg → Option AP
  | .mcalc i => some (.expr i)
  | .pct p => some (.pct p)
  | a => (parseAng a).map .dim

/-- `AnglePercentage::to_css`, `values/percentage.rs:474-486`. -/
noncomputable def AP.print : AP → Arg
  | .dim a => a.print
  | .pct p => .pct p
  | .expr i => .mcalc i

/-- The operations on positions that gradients are generic over: `Parse`, `ToCss`, and the comparison with `50%`. -/
structure Ops (D : Type) where
  parse : Arg → Option D
  print : D → Arg
  half : D → Prop

/-- The instance for lengths (linear and radial gradients). -/
noncomputable def lpOps : Ops LP := ⟨parseLP, LP.print, fun l => l = .pct (1 / 2)⟩

/-- The instance for angles (conic gradients). -/
noncomputable def apOps : Ops AP := ⟨parseAP, AP.print, fun l => l = .pct (1 / 2)⟩

/-- `GradientItem` and `ColorStop`, `gradient.rs:874-879` and `915-930`. -/
inductive Item (D : Type)
  | stop (color : Nat) (position : Option D)
  | hint (d : D)

section
variable {D : Type} (ops : Ops D)

/-- A position in a segment. -/
def dimTok : Tok → Option D
  | .pos (.arg a) => ops.parse a
  | _ => none

/-- The closure of `parse_items` for one segment, `gradient.rs:987-1012`; `parse_until_before` fails if the segment is not exhausted.
Returns the items and the new value of `seen_stop`. -/
def parseSeg (seen : Bool) (seg : Seg) : Option (List (Item D) × Bool) :=
  match seg with
  | .color c :: rest =>
    match rest with
    | [] => some ([.stop c none], true)
    | [t] => (dimTok ops t).map fun d => ([.stop c (some d)], true)
    | [t, u] => do some ([.stop c (some (← dimTok ops t)), .stop c (some (← dimTok ops u))], true)
    | _ => none
  | [t] => if seen then (dimTok ops t).map fun d => ([.hint d], false) else none
  | _ => none

/-- The loop of `parse_items`, `gradient.rs:986-1020`, after the first segment. -/
def parseSegs : Bool → List Seg → Option (List (Item D))
  | _, [] => some []
  | seen, s :: ss => do
    let r ← parseSeg ops seen s
    some (r.1 ++ (← parseSegs r.2 ss))

/-- `parse_items`, `gradient.rs:980-1023`: an empty input is an error. -/
def parseItems : List Seg → Option (List (Item D))
  | [] => none
  | s :: ss => parseSegs ops false (s :: ss)

/-- A position as a token. -/
def dTok (d : D) : Tok := .pos (.arg (ops.print d))

/-- `GradientItem::to_css` and `ColorStop::to_css`, `gradient.rs:890-902` and `932-942`. -/
def Item.toks : Item D → Seg
  | .stop c none => [.color c]
  | .stop c (some d) => [.color c, dTok ops d]
  | .hint d => [dTok ops d]

/-- The test at `gradient.rs:1045-1057`: two stops with positions and the same colour. -/
def merge : Option (Item D) → Item D → Option D
  | some (.stop c (some _)), .stop c' (some d) => if c = c' then some d else none
  | _, _ => none

open Classical in
/-- The test at `gradient.rs:1038-1041` for hints that are skipped. -/
noncomputable def useless : Item D → Bool
  | .hint d => decide (ops.half d)
  | _ => false

/-- The loop of `serialize_items`, `gradient.rs:1036-1074`: what is appended to the segment before, and the further segments.
`dp` says that no target needs `DoublePositionGradients` to be compiled. -/
noncomputable def serialize (dp : Bool) : Option (Item D) → List (Item D) → Seg × List Seg
  | _, [] => ([], [])
  | last, i :: is =>
    if useless ops i then serialize dp last is else
    match if dp then merge last i else none with
    | some d => (dTok ops d :: (serialize dp none is).1, (serialize dp none is).2)
    | none => ([], (i.toks ops ++ (serialize dp (some i) is).1) :: (serialize dp (some i) is).2)

/-- `serialize_items`, `gradient.rs:1025-1075`. -/
noncomputable def printItems (dp : Bool) (is : List (Item D)) : List Seg := (serialize ops dp none is).2

end

/-! ## Linear gradients -/

/-- `LineDirection`, `gradient.rs:449-466`. -/
inductive Dir
  | angle (a : Ang)
  | horizontal (h : HSide)
  | vertical (v : VSide)
  | corner (h : HSide) (v : VSide)

/-- `HorizontalPositionKeyword::parse`. -/
def hTok : Tok → Option HSide
  | .pos (.kw .left) => some .left
  | .pos (.kw .right) => some .right
  | _ => none

/-- `VerticalPositionKeyword::parse`. -/
def vTok : Tok → Option VSide
  | .pos (.kw .top) => some .top
  | .pos (.kw .bottom) => some .bottom
  | _ => none

/-- The keywords of `LineDirection::parse`, `gradient.rs:483-502`, with what is left of the segment. -/
def dirKeywords : Seg → Option (Dir × Seg)
  | [] => none
  | t :: ts =>
    match hTok t with
    | some x =>
      match ts with
      | u :: us => (match vTok u with
        | some y => some (.corner x y, us)
        | none => some (.horizontal x, ts))
      | [] => some (.horizontal x, [])
    | none =>
      match vTok t with
      | none => none
      | some y =>
        match ts with
        | u :: us => (match hTok u with
          | some x => some (.corner x y, us)
          | none => some (.vertical y, ts))
        | [] => some (.vertical y, [])

/-- The first token as an angle, `Angle::parse_with_unitless_zero`. -/
noncomputable def angTok : Tok → Option Ang
  | .pos (.arg a) => parseAng0 a
  | _ => none

/-- `LineDirection::parse`, `gradient.rs:469-503`. -/
noncomputable def parseDir (prefixed : Bool) : Seg → Option (Dir × Seg)
  | [] => none
  | t :: ts =>
    match angTok t with
    | some a => some (.angle a, ts)
    | none =>
      if prefixed then dirKeywords (t :: ts) else
      match t with
      | .to => dirKeywords ts
      | _ => none

/-- `LinearGradient`, `gradient.rs:246-253`. The vendor prefix is `prefixed` if it is not none. -/
structure Linear where
  prefixed : Bool
  direction : Dir
  items : List (Item LP)

/-- `LinearGradient::parse`, `gradient.rs:256-275`. -/
noncomputable def parseLinear (prefixed : Bool) : List Seg → Option Linear
  | [] => none
  | s :: ss =>
    match parseDir prefixed s with
    | some (d, rest) => if rest.isEmpty then (parseItems lpOps ss).map fun is => ⟨prefixed, d, is⟩ else none
    | none => (parseItems lpOps (s :: ss)).map fun is => ⟨prefixed, .vertical .bottom, is⟩

/-- `Angle::to_degrees`, `values/angle.rs:158-166`. -/
noncomputable def toDegrees : Ang → ℝ
  | .deg v => v
  | .rad v => v * (180 / Real.pi)
  | .grad v => v * 180 / 200
  | .turn v => v * 360

/-- A keyword as a token. -/
def hKey (h : HSide) : Tok := .pos h.tok
/-- A keyword as a token. -/
def vKey (v : VSide) : Tok := .pos v.tok

/-- `LineDirection::to_css`, `gradient.rs:505-541`. -/
noncomputable def Dir.print (minify prefixed : Bool) : Dir → Seg
  | .angle a => [.pos (.arg a.print)]
  | .horizontal h =>
    if minify then
      [.pos (.arg (.ang (.deg (match h with | .left => 270 | .right => 90))))]
    else (if prefixed then [] else [.to]) ++ [hKey h]
  | .vertical v =>
    if minify then
      [.pos (.arg (.ang (.deg (match v with | .top => 0 | .bottom => 180))))]
    else (if prefixed then [] else [.to]) ++ [vKey v]
  | .corner h v => (if prefixed then [] else [.to]) ++ [vKey v, hKey h]

/-- `angle` in `LinearGradient::to_css`, `gradient.rs:281-286`. -/
noncomputable def Dir.degrees : Dir → ℝ
  | .vertical .bottom => 180
  | .vertical .top => 0
  | .angle a => toDegrees a
  | _ => -1

/-- The test at `gradient.rs:296-305`. -/
def percentages : Item LP → Bool
  | .hint (.pct _) => true
  | .stop _ none => true
  | .stop _ (some (.pct _)) => true
  | _ => false

/-- The flip of an item at `gradient.rs:312-326`. -/
noncomputable def flipItem : Item LP → Item LP
  | .hint (.pct p) => .hint (.pct (1 - p))
  | .stop c (some (.pct p)) => .stop c (some (.pct (1 - p)))
  | i => i

/-- The directions that are not printed at `gradient.rs:331-333`. -/
def isBottom : Dir → Prop
  | .vertical .bottom => True
  | .angle (.deg v) => v = 180
  | _ => False

open Classical in
/-- `LinearGradient::to_css`, `gradient.rs:277-341`. -/
noncomputable def Linear.print (minify dp : Bool) (g : Linear) : List Seg :=
  if g.direction.degrees = 180 then printItems lpOps dp g.items
  else if g.direction.degrees = 0 ∧ minify = true ∧ g.items.all percentages = true then
    printItems lpOps dp (g.items.reverse.map flipItem)
  else if isBottom g.direction then printItems lpOps dp g.items
  else g.direction.print minify g.prefixed :: printItems lpOps dp g.items

/-- `convert_to_legacy_degree`, `gradient.rs:596-601`. `Int.fract` is the remainder of a number that is not negative. -/
noncomputable def legacyDegree (d : ℝ) : ℝ :=
  let n := Int.fract (|450 - d| / 360) * 360
  round (n * 1000) / 1000

/-- The other side. -/
def hOpp : HSide → HSide
  | .left => .right
  | .right => .left
/-- The other side. -/
def vOpp : VSide → VSide
  | .top => .bottom
  | .bottom => .top

/-- `convert_to_legacy_direction`, `gradient.rs:550-594`. -/
noncomputable def legacyDir : Dir → Dir
  | .horizontal h => .horizontal (hOpp h)
  | .vertical v => .vertical (vOpp v)
  | .corner h v => .corner (hOpp h) (vOpp v)
  | .angle (.deg n) => .angle (.deg (legacyDegree n))
  | .angle (.rad n) => .angle (.deg (legacyDegree (n / (2 * Real.pi) * 360)))
  | .angle (.grad n) => .angle (.deg (legacyDegree (n / 400 * 360)))
  | .angle (.turn n) => .angle (.deg (legacyDegree (n * 360)))

/-- `Gradient::get_prefixed` for linear gradients, `gradient.rs:85-104`, with a prefix that is not none. -/
noncomputable def Linear.getPrefixed (g : Linear) : Linear :=
  ⟨true, if g.prefixed then g.direction else legacyDir g.direction, g.items⟩

/-! ## Radial and conic gradients -/

/-- `EndingShape`, `Circle` and `Ellipse`, `gradient.rs:614-620`, `640-645` and `711-722`. -/
inductive Shape
  | size (x y : LP)
  | ellipse (e : Extent)
  | radius (r : Len)
  | circle (e : Extent)

/-- `ShapeExtent::parse`. -/
def extTok : Tok → Option Extent
  | .extent e => some e
  | _ => none

/-- `LengthPercentage::parse` on a token. -/
def lpTok : Tok → Option LP
  | .pos (.arg a) => parseLP a
  | _ => none

/-- `Length::parse` on a token. -/
def lenTok : Tok → Option Len
  | .pos (.arg a) => parseLen a
  | _ => none

/-- `Ellipse::parse`, `gradient.rs:725-762`. -/
def parseEllipse : Seg → Option (Shape × Seg)
  | .extent _ :: .circle :: _ => none
  | .extent e :: .ellipse :: ts => some (.ellipse e, ts)
  | .extent e :: ts => some (.ellipse e, ts)
  | .ellipse :: ts =>
    match ts with
    | .extent e :: us => some (.ellipse e, us)
    | t :: us =>
      (match lpTok t with
      | some x => (match us with
        | u :: vs => (lpTok u).map fun y => (.size x y, vs)
        | [] => none)
      | none => some (.ellipse .farthestCorner, ts))
    | [] => some (.ellipse .farthestCorner, [])
  | t :: ts =>
    match lpTok t with
    | some x => (match ts with
      | u :: .ellipse :: vs => (lpTok u).map fun y => (.size x y, vs)
      | u :: vs => (lpTok u).map fun y => (.size x y, vs)
      | [] => none)
    | none => none
  | [] => none

/-- `Circle::parse`, `gradient.rs:648-679`. -/
def parseCircle : Seg → Option (Shape × Seg)
  | .extent e :: .circle :: ts => some (.circle e, ts)
  | .extent _ :: _ => none
  | .circle :: ts =>
    match ts with
    | .extent e :: us => some (.circle e, us)
    | t :: us =>
      (match lenTok t with
      | some r => some (.radius r, us)
      | none => some (.circle .farthestCorner, ts))
    | [] => some (.circle .farthestCorner, [])
  | t :: ts =>
    match lenTok t with
    | some r => (match ts with
      | .circle :: us => some (.radius r, us)
      | _ => some (.radius r, ts))
    | none => none
  | [] => none

/-- `EndingShape::parse` (derived), `gradient.rs:614-620`: the ellipse is tried first. -/
def parseShape (s : Seg) : Option (Shape × Seg) :=
  match parseEllipse s with
  | some r => some r
  | none => parseCircle s

/-- How a segment looks to `Position::parse`. -/
def posTok : Tok → Position.Tok
  | .pos t => t
  | _ => .other 0

/-- `at <position>`, `gradient.rs:372-377` and `823-826`; the rest of the segment. -/
def parseAt : Seg → Option (Pos × Seg)
  | .at :: ts => (Position.parse (ts.map posTok)).map fun r => (r.1, ts.drop (ts.length - r.2.length))
  | _ => none

/-- `RadialGradient`, `gradient.rs:353-362`. -/
structure Radial where
  shape : Shape
  position : Pos
  items : List (Item LP)

/-- `RadialGradient::parse`, `gradient.rs:365-393`. -/
noncomputable def parseRadial : List Seg → Option Radial
  | [] => none
  | s :: ss =>
    let shape := parseShape s
    let s1 := shape.elim s Prod.snd
    let at_ := parseAt s1
    let s2 := at_.elim s1 Prod.snd
    if shape.isSome || at_.isSome then
      if s2.isEmpty then
        (parseItems lpOps ss).map fun is => ⟨shape.elim (.ellipse .farthestCorner) Prod.fst, at_.elim .centered Prod.fst, is⟩
      else none
    else (parseItems lpOps (s :: ss)).map fun is => ⟨.ellipse .farthestCorner, .centered, is⟩

/-- A length or percentage as a token. -/
noncomputable def lpKey (l : LP) : Tok := .pos (.arg l.print)

/-- `EndingShape::to_css`, with `Circle::to_css` (`gradient.rs:682-698`) and `Ellipse::to_css` (`764-775`). -/
noncomputable def Shape.print : Shape → Seg
  | .size x y => [lpKey x, lpKey y]
  | .ellipse e => [.extent e]
  | .radius r => [.pos (.arg r.print)]
  | .circle e => if e = .farthestCorner then [.circle] else [.circle, .extent e]

open Classical in
/-- `RadialGradient::to_css`, `gradient.rs:396-418`. -/
noncomputable def Radial.print (minify dp : Bool) (g : Radial) : List Seg :=
  let shape := if g.shape = .ellipse .farthestCorner then [] else g.shape.print
  let at_ := if g.position.isCenter then [] else .at :: (Position.print minify g.position).map .pos
  (if shape ++ at_ = [] then [] else [shape ++ at_]) ++ printItems lpOps dp g.items

/-- `ConicGradient`, `gradient.rs:800-807`. -/
structure Conic where
  angle : Ang
  position : Pos
  items : List (Item AP)

/-- `from <angle>`, `gradient.rs:811-816`; the rest of the segment. -/
noncomputable def parseFrom : Seg → Option (Ang × Seg)
  | .from :: t :: ts => (angTok t).map fun a => (a, ts)
  | _ => none

/-- `ConicGradient::parse`, `gradient.rs:810-839`. -/
noncomputable def parseConic : List Seg → Option Conic
  | [] => none
  | s :: ss =>
    let angle := parseFrom s
    let s1 := angle.elim s Prod.snd
    let at_ := parseAt s1
    let s2 := at_.elim s1 Prod.snd
    if angle.isSome || at_.isSome then
      if s2.isEmpty then
        (parseItems apOps ss).map fun is => ⟨angle.elim (.deg 0) Prod.fst, at_.elim .centered Prod.fst, is⟩
      else none
    else (parseItems apOps (s :: ss)).map fun is => ⟨.deg 0, .centered, is⟩

open Classical in
/-- `ConicGradient::to_css`, `gradient.rs:842-866`. -/
noncomputable def Conic.print (minify dp : Bool) (g : Conic) : List Seg :=
  let angle := if g.angle.isZero then [] else [.from, .pos (.arg g.angle.print)]
  let at_ := if g.position.isCenter then [] else .at :: (Position.print minify g.position).map .pos
  (if angle ++ at_ = [] then [] else [angle ++ at_]) ++ printItems apOps dp g.items

end Verif.Gradient
