import Verif.Mask.Model
/-! What a block of mask declarations means to a browser. -/

namespace Verif.Mask

/-- The value of a longhand: a list, or one computed from an unparsed value. -/
inductive Val where
  | list (v : List Nat)
  | raw (t : Nat)
  deriving DecidableEq, Repr

/-- A value for each of the longhands 0 to 7, and for `mask-border` at 8. -/
abbrev Vals := Nat → Val

/-- A value is set. -/
def Vals.put (s : Vals) (j : Nat) (v : Val) : Vals := fun k => if k = j then v else s k

/-- A browser that knows the prefixes `k` comes to a declaration (css-cascade, css-masking): one it does not know or whose value is
empty is ignored, `mask` sets all of the longhands, and `mask-border` to its initial value. A browser that knows `-webkit-mask` takes
it as an alias of `mask`. -/
def apply (k : VP) (s : Vals) : Decl → Vals
  | .long j v p => if (p.inter k).isEmpty || v.isEmpty then s else s.put j (.list v)
  | .comp v => if k.std && !v.isEmpty then s.put 6 (.list v) else s
  | .mode v => if k.std && !v.isEmpty then s.put 7 (.list v) else s
  | .wkComp v => if k.wk && !v.isEmpty then s.put 6 (.list v) else s
  | .wkMode v => if k.wk && !v.isEmpty then s.put 7 (.list v) else s
  | .mask ls p =>
    if (p.inter k).isEmpty || ls.isEmpty then s
    else fun j => if j < 8 then .list (ls.map (· j)) else if j = 8 then .list [] else s j
  | .border v => if k.std then s.put 8 (.list [v]) else s
  | .rawLong j t p => if (p.inter k).isEmpty then s else s.put j (.raw t)
  | .rawMask t p => if (p.inter k).isEmpty then s else fun j => if j ≤ 8 then .raw t else s j

/-- The values after a block. -/
def result (k : VP) (s : Vals) (ds : List Decl) : Vals := ds.foldl (apply k) s

/-- What the parser gives: lists with at least one value, at least one prefix. -/
def parsed : Decl → Bool
  | .long j v p => decide (j < 6) && !v.isEmpty && !p.isEmpty
  | .comp v | .mode v => !v.isEmpty
  | .mask ls p => !ls.isEmpty && !p.isEmpty
  | .wkComp _ | .wkMode _ => false
  | .border _ => true
  | .rawLong j _ p => decide (j < 8) && !p.isEmpty
  | .rawMask _ p => !p.isEmpty

end Verif.Mask
