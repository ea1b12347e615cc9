/-!
# Basic shapes (`/repo/src/values/shape.rs`) and filters (`/repo/src/properties/effects.rs`)

Lengths, angles, colours and positions are opaque. A function is its name and the component values between its brackets.
-/
namespace Verif.Effects

/-- The keywords in shapes; `other` is any other component value. -/
inductive Kw
  | round | at | closestSide | farthestSide | nonzero | evenodd | slash | comma | other
deriving DecidableEq

/-- A component value: a keyword, a length or percentage, or a part of a position that is none of these. -/
inductive Tok (L : Type)
  | kw (k : Kw)
  | len (l : L)
  | pos (n : Nat)
deriving DecidableEq

/-- Four sides or corners (`Rect`, src/values/rect.rs:17). -/
structure Four (L : Type) where
  a : L
  b : L
  c : L
  d : L
deriving DecidableEq

variable {L P : Type}

/-- `Rect::parse` (src/values/rect.rs:54-84). -/
def parseFour : List (Tok L) → Option (Four L × List (Tok L))
  | .len a :: .len b :: .len c :: .len d :: r => some (⟨a, b, c, d⟩, r)
  | .len a :: .len b :: .len c :: r => some (⟨a, b, c, b⟩, r)
  | .len a :: .len b :: r => some (⟨a, b, a, b⟩, r)
  | .len a :: r => some (⟨a, a, a, a⟩, r)
  | _ => none

/-- `Rect::to_css` (src/values/rect.rs:96-123). -/
def printFour [DecidableEq L] (q : Four L) : List (Tok L) :=
  if q.a = q.c ∧ q.b = q.d ∧ q.a = q.b then [.len q.a]
  else if q.a = q.c ∧ q.b = q.d then [.len q.a, .len q.b]
  else if q.b = q.d then [.len q.a, .len q.b, .len q.c]
  else [.len q.a, .len q.b, .len q.c, .len q.d]

/-- `BorderRadius`: the horizontal and the vertical radii of the corners (src/properties/border_radius.rs:20-33). -/
structure Radii (L : Type) where
  widths : Four L
  heights : Four L
deriving DecidableEq

/-- `BorderRadius::parse` (src/properties/border_radius.rs:46-62). -/
def parseRadii (ts : List (Tok L)) : Option (Radii L × List (Tok L)) :=
  match parseFour ts with
  | none => none
  | some (w, .kw .slash :: r) => match parseFour r with
    | some (h, r') => some (⟨w, h⟩, r')
    | none => none
  | some (w, r) => some (⟨w, w⟩, r)

/-- `BorderRadius::to_css` (src/properties/border_radius.rs:65-90). -/
def printRadii [DecidableEq L] (x : Radii L) : List (Tok L) :=
  printFour x.widths ++ if x.widths ≠ x.heights then .kw .slash :: printFour x.heights else []

/-- `ShapeRadius` (src/values/shape.rs:70-77). -/
inductive SRadius (L : Type)
  | len (l : L)
  | closestSide
  | farthestSide
deriving DecidableEq

/-- The derived parser of `ShapeRadius` (src/values/shape.rs:62). -/
def parseSRadius : List (Tok L) → Option (SRadius L × List (Tok L))
  | .len l :: r => some (.len l, r)
  | .kw .closestSide :: r => some (.closestSide, r)
  | .kw .farthestSide :: r => some (.farthestSide, r)
  | _ => none

/-- The derived printer of `ShapeRadius` (src/values/shape.rs:62). -/
def SRadius.tok : SRadius L → Tok L
  | .len l => .len l
  | .closestSide => .kw .closestSide
  | .farthestSide => .kw .farthestSide

/-- The names of the functions. -/
inductive Name
  | inset | circle | ellipse | polygon
deriving DecidableEq

/-- `BasicShape` (src/values/shape.rs:26-131). -/
inductive Shape (L P : Type)
  | inset (rect : Four L) (radius : Radii L)
  | circle (r : SRadius L) (p : P)
  | ellipse (x y : SRadius L) (p : P)
  | polygon (evenodd : Bool) (points : List (L × L))

/-- What shapes need: zero, and how positions are read and printed. -/
structure Env (L P : Type) where
  zero : L
  parsePos : List (Tok L) → Option (P × List (Tok L))
  printPos : P → List (Tok L)
  center : P
  isCenter : P → Bool

/-- `BorderRadius::default` (src/properties/border_radius.rs:35-45). -/
def Env.noRadii (env : Env L P) : Radii L := ⟨⟨env.zero, env.zero, env.zero, env.zero⟩, ⟨env.zero, env.zero, env.zero, env.zero⟩⟩

/-- `at <position>` or the centre (src/values/shape.rs:181-185, 205-209). -/
def parseAt (env : Env L P) : List (Tok L) → Option (P × List (Tok L))
  | .kw .at :: r => env.parsePos r
  | r => some (env.center, r)

/-- `Point::parse` between commas (src/values/shape.rs:227, 235-241), to the end of the function. -/
def parsePoints : List (Tok L) → Option (List (L × L))
  | [.len x, .len y] => some [(x, y)]
  | .len x :: .len y :: .kw .comma :: r => match parsePoints r with
    | some ps => some ((x, y) :: ps)
    | none => none
  | _ => none

/-- What a parser says if nothing is left, as `parse_nested_block` requires. -/
def exhausted {A : Type} : Option (A × List (Tok L)) → Option A
  | some (x, []) => some x
  | _ => none

/-- `InsetRect::parse` (src/values/shape.rs:164-174). -/
def parseInset (env : Env L P) (ts : List (Tok L)) : Option (Shape L P) :=
  match parseFour ts with
  | none => none
  | some (q, .kw .round :: r) => (exhausted (parseRadii r)).map (.inset q)
  | some (q, r) => exhausted (some (Shape.inset q env.noRadii, r))

/-- `Circle::parse` (src/values/shape.rs:177-189). -/
def parseCircle (env : Env L P) (ts : List (Tok L)) : Option (Shape L P) :=
  let x := (parseSRadius ts).getD (.closestSide, ts)
  (exhausted (parseAt env x.2)).map (.circle x.1)

/-- Two radii, or none (src/values/shape.rs:199-203). -/
def parseTwo (ts : List (Tok L)) : SRadius L × SRadius L × List (Tok L) :=
  match parseSRadius ts with
  | some (x, r) => match parseSRadius r with
    | some (y, r') => (x, y, r')
    | none => (.closestSide, .closestSide, ts)
  | none => (.closestSide, .closestSide, ts)

/-- `Ellipse::parse` (src/values/shape.rs:197-217). -/
def parseEllipse (env : Env L P) (ts : List (Tok L)) : Option (Shape L P) :=
  let x := parseTwo ts
  (exhausted (parseAt env x.2.2)).map (.ellipse x.1 x.2.1)

/-- `Polygon::parse` (src/values/shape.rs:219-233). -/
def parsePolygon : List (Tok L) → Option (Shape L P)
  | .kw .nonzero :: .kw .comma :: r => (parsePoints r).map (.polygon false)
  | .kw .evenodd :: .kw .comma :: r => (parsePoints r).map (.polygon true)
  | .kw .nonzero :: _ => none
  | .kw .evenodd :: _ => none
  | r => (parsePoints r).map (.polygon false)

/-- `BasicShape::parse` (src/values/shape.rs:149-161). -/
def parse (env : Env L P) : Name → List (Tok L) → Option (Shape L P)
  | .inset, ts => parseInset env ts
  | .circle, ts => parseCircle env ts
  | .ellipse, ts => parseEllipse env ts
  | .polygon, ts => parsePolygon ts

/-- `at <position>` (src/values/shape.rs:301-307, 327-333). -/
def printAt (env : Env L P) (p : P) : List (Tok L) := if env.isCenter p then [] else .kw .at :: env.printPos p

/-- The points with commas (src/values/shape.rs:350-358). -/
def printPoints : List (L × L) → List (Tok L)
  | [] => []
  | [(x, y)] => [.len x, .len y]
  | (x, y) :: ps => .len x :: .len y :: .kw .comma :: printPoints ps

/-- `to_css` of the shapes (src/values/shape.rs:244-361). -/
def print [DecidableEq L] (env : Env L P) : Shape L P → Name × List (Tok L)
  | .inset q x => (.inset, printFour q ++ if x ≠ env.noRadii then .kw .round :: printRadii x else [])
  | .circle r p => (.circle, (if r ≠ .closestSide then [r.tok] else []) ++ printAt env p)
  | .ellipse x y p => (.ellipse, (if x ≠ .closestSide ∨ y ≠ .closestSide then [x.tok, y.tok] else []) ++ printAt env p)
  | .polygon e ps => (.polygon, (if e then [.kw .evenodd, .kw .comma] else []) ++ printPoints ps)

end Verif.Effects
