import Verif.Transform.Model
/-!
# Model of `<position>` (`/repo/src/values/position.rs`)

Lengths and percentages are those of `Verif.Transform.Model`; numbers are real numbers.
-/
namespace Verif.Position
open Transform (LP Arg parseLP)

/-- The keywords of a position, `position.rs:386-391` (`HorizontalPositionKeyword`), `406-411` (`VerticalPositionKeyword`) and `center`. -/
inductive Kw
  | left | right | top | bottom | center
deriving DecidableEq

/-- A component value: a keyword of a position, or another value. Any other identifier is not modelled: it ends a position like `Tok.other`. -/
inductive Tok
  | kw (k : Kw)
  | arg (a : Arg)
  | other (n : Nat)

/-- `HorizontalPositionKeyword`, `position.rs:386-393`. -/
inductive HSide
  | left | right
deriving DecidableEq

/-- `VerticalPositionKeyword`, `position.rs:406-413`. -/
inductive VSide
  | top | bottom
deriving DecidableEq

/-- `PositionComponent`, `position.rs:318-331`. -/
inductive Comp (S : Type)
  | center
  | length (l : LP)
  | side (s : S) (offset : Option LP)

/-- `Position`, `position.rs:24-29`. -/
structure Pos where
  x : Comp HSide
  y : Comp VSide

open Classical in
/-- `PositionComponent::is_center`, `position.rs:334-340`. -/
noncomputable def Comp.isCenter {S : Type} : Comp S → Bool
  | .center => true
  | .length (.pct p) => decide (p = 1 / 2)
  | _ => false

/-- `Position::center`, `position.rs:33-38`. -/
def Pos.centered : Pos := ⟨.center, .center⟩

/-- `Position::is_center`, `position.rs:41-43`. -/
noncomputable def Pos.isCenter (p : Pos) : Bool := p.x.isCenter && p.y.isCenter

/-- What a parser returns: a value and the rest of the input, or an error. -/
abbrev P (α : Type) := List Tok → Option (α × List Tok)

/-- `input.try_parse(LengthPercentage::parse)`. -/
def lp : P LP
  | .arg a :: ts => (parseLP a).map fun l => (l, ts)
  | _ => none

/-- `i.expect_ident_matching("center")`. -/
def centerKw : P Unit
  | .kw .center :: ts => some ((), ts)
  | _ => none

/-- `HorizontalPositionKeyword::parse` (`enum_property!`). -/
def hKw : P HSide
  | .kw .left :: ts => some (.left, ts)
  | .kw .right :: ts => some (.right, ts)
  | _ => none

/-- `VerticalPositionKeyword::parse` (`enum_property!`). -/
def vKw : P VSide
  | .kw .top :: ts => some (.top, ts)
  | .kw .bottom :: ts => some (.bottom, ts)
  | _ => none

/-- `input.try_parse(p).ok()`: the input is left alone if the parser fails. -/
def optional {α : Type} (p : P α) (ts : List Tok) : Option α × List Tok :=
  match p ts with
  | some (a, ts) => (some a, ts)
  | none => (none, ts)

/-- `PositionComponent::parse`, `position.rs:347-360`. -/
def component {S : Type} (key : P S) : P (Comp S) := fun ts =>
  match centerKw ts with
  | some (_, ts) => some (.center, ts)
  | none =>
  match lp ts with
  | some (l, ts) => some (.length l, ts)
  | none =>
  match key ts with
  | some (s, ts) => some (.side s (optional lp ts).1, (optional lp ts).2)
  | none => none

/-- The closure at `position.rs:141-153`: an offset, then a horizontal keyword with an optional offset, or `center`. -/
def offsetThenX (ts : List Tok) : Option ((Option LP × Comp HSide) × List Tok) :=
  let (yl, ts) := optional lp ts
  match hKw ts with
  | some (s, ts) => some ((yl, .side s (optional lp ts).1), (optional lp ts).2)
  | none =>
  match centerKw ts with
  | some (_, ts) => some ((yl, .center), ts)
  | none => none

/-- `Position::parse`, `position.rs:60-170`. -/
def parse : P Pos := fun ts =>
  match component hKw ts with
  | some (.center, ts) =>
    match component vKw ts with
    | some (y, ts) => some (⟨.center, y⟩, ts)
    | none =>
      let (x, ts) := optional (component hKw) ts
      some (⟨x.getD .center, .center⟩, ts)
  | some (.length l, ts) =>
    match vKw ts with
    | some (s, ts) => some (⟨.length l, .side s none⟩, ts)
    | none =>
    match lp ts with
    | some (m, ts) => some (⟨.length l, .length m⟩, ts)
    | none => some (⟨.length l, .center⟩, (optional centerKw ts).2)
  | some (.side s o, ts) =>
    match centerKw ts with
    | some (_, ts) => some (⟨.side s o, .center⟩, ts)
    | none =>
    match vKw ts with
    | some (v, ts) => some (⟨.side s o, .side v (optional lp ts).1⟩, (optional lp ts).2)
    | none => some (⟨.side s none, o.elim .center .length⟩, ts)
  | none =>
    match vKw ts with
    | none => none
    | some (v, ts) =>
      match offsetThenX ts with
      | some ((yl, x), ts) => some (⟨x, .side v yl⟩, ts)
      | none => some (⟨.center, .side v none⟩, ts)

/-- `HorizontalPositionKeyword::to_css`. -/
def HSide.tok : HSide → Tok
  | .left => .kw .left
  | .right => .kw .right

/-- `VerticalPositionKeyword::to_css`. -/
def VSide.tok : VSide → Tok
  | .top => .kw .top
  | .bottom => .kw .bottom

/-- `impl Into<LengthPercentage> for HorizontalPositionKeyword`, `position.rs:395-402`. -/
noncomputable def HSide.toLP : HSide → LP
  | .left => .zero
  | .right => .pct 1

/-- `impl Into<LengthPercentage> for VerticalPositionKeyword`, `position.rs:415-422`. -/
noncomputable def VSide.toLP : VSide → LP
  | .top => .zero
  | .bottom => .pct 1

/-- A length or percentage as a token. -/
noncomputable def lpTok (l : LP) : Tok := .arg l.print

/-- `PositionComponent::to_css`, `position.rs:363-385`. -/
noncomputable def Comp.print {S : Type} (m : Bool) (key : S → Tok) : Comp S → List Tok
  | .center => [if m then .arg (.pct (1 / 2)) else .kw .center]
  | .length l => [lpTok l]
  | .side s none => [key s]
  | .side s (some l) => [key s, lpTok l]

/-- A length as it is printed by the last arm of `Position::to_css`, `position.rs:239-279`: a zero becomes `0px`. -/
noncomputable def zeroed (l : LP) : LP := if l.isZero then .zero else l

/-- `x_len`, `position.rs:238-257`. -/
noncomputable def xLen : Comp HSide → Option LP
  | .side .left none => some .zero
  | .side .left (some l) => some (zeroed l)
  | .length l => some (zeroed l)
  | .center => some (.pct (1 / 2))
  | _ => none

/-- `y_len`, `position.rs:259-278`. -/
noncomputable def yLen : Comp VSide → Option LP
  | .side .top none => some .zero
  | .side .top (some l) => some (zeroed l)
  | .length l => some (zeroed l)
  | .center => some (.pct (1 / 2))
  | _ => none

/-- The last arm of `Position::to_css`, `position.rs:235-288`. -/
noncomputable def printRest (m : Bool) (p : Pos) : List Tok :=
  match xLen p.x, yLen p.y with
  | some x, some y => [lpTok x, lpTok y]
  | _, _ => p.x.print m HSide.tok ++ p.y.print m VSide.tok

/-- The arms of `Position::to_css` from `position.rs:217` on. -/
noncomputable def printTail (m : Bool) (p : Pos) : List Tok :=
  match p.x, p.y with
  | .side s none, .side v none => [lpTok s.toLP, lpTok v.toLP]
  | x, .side v none => if x.isCenter then [v.tok] else printRest m p
  | .center, .side .bottom (some l) => [.kw .center, .kw .bottom, lpTok l]
  | _, _ => printRest m p

/-- The arms of `Position::to_css` that need a centered `y` at `position.rs:194-216`. -/
noncomputable def printCentered (m : Bool) (p : Pos) : List Tok :=
  if p.x.isCenter then p.x.print m HSide.tok else
  match p.x with
  | .length l => [lpTok l]
  | .side .left (some l) => [lpTok l]
  | .side s none => [lpTok s.toLP]
  | _ => printTail m p

/-- `Position::to_css`, `position.rs:173-291`; the arms of the `match` are tried in the order of the code. -/
noncomputable def print (m : Bool) (p : Pos) : List Tok :=
  match p.x, p.y with
  | .side .right (some l), .length k => [.kw .right, lpTok l, .kw .top, lpTok k]
  | .length l, .side .bottom (some k) => [.kw .left, lpTok l, .kw .bottom, lpTok k]
  | .side .right (some l), y => if y.isCenter then [.kw .right, lpTok l, .kw .center] else printTail m p
  | _, y => if y.isCenter then printCentered m p else printTail m p

end Verif.Position
