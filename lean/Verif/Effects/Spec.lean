import Verif.Effects.Model
/-!
# The grammar of basic shapes

css-shapes-1: which component values write which shape. This file uses the types of the model, and how positions are read.
-/
namespace Verif.Effects
variable {L P : Type}

/-- `<length-percentage>{1,4}` for four sides: missing ones are those of the opposite sides. -/
inductive Sides : Four L → List (Tok L) → Prop
  | one (a : L) : Sides ⟨a, a, a, a⟩ [.len a]
  | two (a b : L) : Sides ⟨a, b, a, b⟩ [.len a, .len b]
  | three (a b c : L) : Sides ⟨a, b, c, b⟩ [.len a, .len b, .len c]
  | four (a b c d : L) : Sides ⟨a, b, c, d⟩ [.len a, .len b, .len c, .len d]

/-- The value of `border-radius`: horizontal radii, which are also the vertical ones unless these follow after a slash. -/
inductive Corners : Radii L → List (Tok L) → Prop
  | same {q : Four L} {ts : List (Tok L)} (h : Sides q ts) : Corners ⟨q, q⟩ ts
  | both {q q' : Four L} {ts us : List (Tok L)} (h : Sides q ts) (h' : Sides q' us) : Corners ⟨q, q'⟩ (ts ++ .kw .slash :: us)

/-- `<shape-radius>`. -/
inductive Radius : SRadius L → List (Tok L) → Prop
  | len (l : L) : Radius (.len l) [.len l]
  | closest : Radius .closestSide [.kw .closestSide]
  | farthest : Radius .farthestSide [.kw .farthestSide]

/-- `[at <position>]?`: the centre if it is missing. -/
inductive At (env : Env L P) : P → List (Tok L) → Prop
  | center : At env env.center []
  | pos {p : P} {ts : List (Tok L)} (h : env.parsePos ts = some (p, [])) : At env p (.kw .at :: ts)

/-- The functions. -/
inductive Writes (env : Env L P) : Shape L P → Name → List (Tok L) → Prop
  | inset {q : Four L} {ts : List (Tok L)} (h : Sides q ts) : Writes env (.inset q env.noRadii) .inset ts
  | insetRound {q : Four L} {x : Radii L} {ts us : List (Tok L)} (h : Sides q ts) (h' : Corners x us) :
      Writes env (.inset q x) .inset (ts ++ .kw .round :: us)
  | circle {p : P} {us : List (Tok L)} (h : At env p us) : Writes env (.circle .closestSide p) .circle us
  | circleRadius {r : SRadius L} {p : P} {ts us : List (Tok L)} (h : Radius r ts) (h' : At env p us) : Writes env (.circle r p) .circle (ts ++ us)
  | ellipse {p : P} {us : List (Tok L)} (h : At env p us) : Writes env (.ellipse .closestSide .closestSide p) .ellipse us
  | ellipseRadii {x y : SRadius L} {p : P} {ts ts' us : List (Tok L)} (h : Radius x ts) (h2 : Radius y ts') (h' : At env p us) :
      Writes env (.ellipse x y p) .ellipse (ts ++ ts' ++ us)
  | polygon {ps : List (L × L)} (h : ps ≠ []) :
      Writes env (.polygon false ps) .polygon (List.intercalate [.kw .comma] (ps.map fun p => [.len p.1, .len p.2]))
  | polygonRule {ps : List (L × L)} (e : Bool) (h : ps ≠ []) : Writes env (.polygon e ps) .polygon
      (.kw (if e then .evenodd else .nonzero) :: .kw .comma :: List.intercalate [.kw .comma] (ps.map fun p => [.len p.1, .len p.2]))

/-- The same shape, except for how the position is written: `same` says which positions are the same point. -/
inductive Same (same : P → P → Prop) : Shape L P → Shape L P → Prop
  | inset (q : Four L) (x : Radii L) : Same same (.inset q x) (.inset q x)
  | circle (r : SRadius L) {p p' : P} (h : same p p') : Same same (.circle r p) (.circle r p')
  | ellipse (x y : SRadius L) {p p' : P} (h : same p p') : Same same (.ellipse x y p) (.ellipse x y p')
  | polygon (e : Bool) (ps : List (L × L)) : Same same (.polygon e ps) (.polygon e ps)

/-- Positions: a printed position reads back as the same point, and what is taken for the centre is the centre. -/
structure Env.Ok (env : Env L P) (same : P → P → Prop) : Prop where
  roundtrip : ∀ p, ∃ p', env.parsePos (env.printPos p) = some (p', []) ∧ same p p'
  center : ∀ p, env.isCenter p = true → same p env.center

end Verif.Effects
