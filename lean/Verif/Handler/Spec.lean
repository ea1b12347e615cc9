import Verif.Handler.Model
import Mathlib.Logic.Equiv.Defs
/-! What a declaration block means: for every longhand the last declaration that sets it wins, important declarations win over
normal ones. Logical sides are physical sides, depending on the writing mode. Values are compared through a meaning function
`m`, so that a value may be rewritten into an equivalent one. -/
namespace Verif.Handler

/-- A writing mode: which physical side each logical side is. (CSS has ten; the theorems hold for all 24 bijections.) -/
abbrev WritingMode := LSide ≃ Side

/-- The longhands of the model. -/
inductive Long
  | box (f : Fam) (s : Side)
  | overflowX
  | overflowY
  | short (f : ShFam) (i : Fin f.n)
  | custom (name : Str)
  | direction
  | bidi
  | unknown (name : Str)
  | other (name : Str)

/-- The value a longhand gets: a parsed one, one from an unparsed declaration of the longhand itself, one that is a part of an
unparsed shorthand, or the keyword of `all`. -/
inductive Val (M : Type)
  | val (v : M)
  | var (v : M)
  | partOf (sh : BoxId) (v : M)
  | partOfShort (v : M)
  | all (v : M)
deriving DecidableEq, Repr

variable {V M : Type}

/-- The last declaration that sets something. -/
def last {D R : Type} (sets : D → Option R) (ds : List D) : Option R := ds.reverse.findSome? sets

/-- What a declaration of a box family sets a physical side to. -/
def boxSets (m : V → M) (wm : WritingMode) (s : Side) : BoxDecl V → Option (Val M)
  | .phys t v => if t = s then some (.val (m v)) else none
  | .log l v => if wm l = s then some (.val (m v)) else none
  | .rect t r b l =>
    match s with
    | .top => some (.val (m t))
    | .right => some (.val (m r))
    | .bottom => some (.val (m b))
    | .left => some (.val (m l))
  | .block a b =>
    if wm .blockStart = s then some (.val (m a)) else if wm .blockEnd = s then some (.val (m b)) else none
  | .inline a b =>
    if wm .inlineStart = s then some (.val (m a)) else if wm .inlineEnd = s then some (.val (m b)) else none
  | .unparsed (.phys t) v => if t = s then some (.var (m v)) else none
  | .unparsed (.log l) v => if wm l = s then some (.var (m v)) else none
  | .unparsed .rect v => some (.partOf .rect (m v))
  | .unparsed .block v => if wm .blockStart = s ∨ wm .blockEnd = s then some (.partOf .block (m v)) else none
  | .unparsed .inline v => if wm .inlineStart = s ∨ wm .inlineEnd = s then some (.partOf .inline (m v)) else none

/-- `overflow-x`. -/
def ovSetsX (m : V → M) : OvDecl V → Option (Val M)
  | .x v => some (.val (m v))
  | .both v _ => some (.val (m v))
  | .unparsedX v => some (.var (m v))
  | .unparsedBoth v => some (.partOfShort (m v))
  | _ => none

/-- `overflow-y`. -/
def ovSetsY (m : V → M) : OvDecl V → Option (Val M)
  | .y v => some (.val (m v))
  | .both _ v => some (.val (m v))
  | .unparsedY v => some (.var (m v))
  | .unparsedBoth v => some (.partOfShort (m v))
  | _ => none

/-- The `i`th longhand of a shorthand. -/
def shSets {n : Nat} (m : V → M) (i : Fin n) : ShDecl V n → Option (Val M)
  | .long j v => if j = i then some (.val (m v)) else none
  | .short vs => some (.val (m (vs i)))
  | .unparsed none v => some (.partOfShort (m v))
  | .unparsed (some j) v => if j = i then some (.var (m v)) else none

/-- What a declaration sets a longhand to. `all` sets everything but custom properties, `direction` and `unicode-bidi`. -/
def sets (m : V → M) (wm : WritingMode) : Long → Decl V → Option (Val M)
  | .box f s, .box g d => if f = g then boxSets m wm s d else none
  | .overflowX, .overflow d => ovSetsX m d
  | .overflowY, .overflow d => ovSetsY m d
  | .short f i, .short g d => if h : g = f then shSets m i (h ▸ d) else none
  | .custom n, .custom n' v => if n' = n then some (.val (m v)) else none
  | .direction, .direction v => some (.val (m v))
  | .direction, .unparsedDirection v => some (.var (m v))
  | .bidi, .unicodeBidi v => some (.val (m v))
  | .bidi, .unparsedBidi v => some (.var (m v))
  | .unknown n, .unknown n' v => if n' = n then some (.val (m v)) else none
  | .other n, .other n' v => if n' = n then some (.val (m v)) else none
  | .custom _, _ => none
  | .direction, _ => none
  | .bidi, _ => none
  | _, .all v => some (.all (m v))
  | _, .unparsedAll v => some (.partOfShort (m v))
  | _, _ => none

/-- The winning value of a longhand in a block, and whether it is important. -/
def winner (m : V → M) (wm : WritingMode) (l : Long) (b : Block V) : Option (Val M × Bool) :=
  match last (sets m wm l) b.imps with
  | some v => some (v, true)
  | none => (last (sets m wm l) b.decls).map (·, false)

end Verif.Handler
