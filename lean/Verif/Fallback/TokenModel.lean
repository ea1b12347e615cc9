import Verif.Fallback.Model
/-!
# Model of color fallbacks in custom properties and other values that are token lists (`/repo/src/properties/custom.rs`, `/repo/src/rules/keyframes.rs`)
-/
namespace Verif.Fallback
open Verif.Targets

/-- `TokenOrValue`, `properties/custom.rs:159-204`, as far as fallbacks tell them apart. `var()` and `env()` without a fallback, lengths, urls, plain tokens and so on are `other`; `UnresolvedColor::RGB` and `HSL` have only one token list, here `light`. -/
inductive Tok (V : Type)
  | color (c : Color V)
  | func (name : Str) (args : List (Tok V))
  | var (name : Str) (fallback : List (Tok V))
  | env (name : Str) (fallback : List (Tok V))
  | unresolved (light dark : List (Tok V))
  | other (text : Str)

mutual
/-- One token of `TokenList::get_necessary_fallbacks`, `properties/custom.rs:1013-1031`. -/
def Tok.kinds {V : Type} (t : Targets) : Tok V → Kinds
  | .color c => possible t c
  | .func _ args => tokKinds t args
  | .var _ fb => tokKinds t fb
  | .env _ fb => tokKinds t fb
  | .unresolved _ _ => .empty
  | .other _ => .empty
/-- `TokenList::get_necessary_fallbacks`, `properties/custom.rs:1010-1035`. -/
def tokKinds {V : Type} (t : Targets) : List (Tok V) → Kinds
  | [] => .empty
  | x :: xs => (x.kinds t).union (tokKinds t xs)
end

mutual
/-- One token of `TokenList::get_fallback`, `properties/custom.rs:1041-1047`, `1227-1232`, `1404-1410`, `1439-1444`; none is a panic. -/
def Tok.version {V : Type} (conv : Kind → Space → V → V) (k : Kind) : Tok V → Option (Tok V)
  | .color c => (fallback conv .keepRgba k c).map .color
  | .func n args => (tokVersion conv k args).map (.func n)
  | .var n fb => (tokVersion conv k fb).map (.var n)
  | .env n fb => (tokVersion conv k fb).map (.env n)
  | .unresolved l d => some (.unresolved l d)
  | .other s => some (.other s)
/-- `TokenList::get_fallback`, `properties/custom.rs:1037-1050`. -/
def tokVersion {V : Type} (conv : Kind → Space → V → V) (k : Kind) : List (Tok V) → Option (List (Tok V))
  | [] => some []
  | x :: xs => (x.version conv k).bind fun y => (tokVersion conv k xs).bind fun ys => some (y :: ys)
end

/-- `ColorFallbackKind::lowest`, `color.rs:283-286`. -/
def Kinds.lowest (a : Kinds) : Kinds :=
  if a.rgb then ⟨true, false, false, false⟩
  else if a.p3 then ⟨false, true, false, false⟩
  else if a.lab then ⟨false, false, true, false⟩
  else if a.oklab then ⟨false, false, false, true⟩
  else .empty

/-- `get_fallback(lowest_fallback)` if `lowest_fallback` is not empty; for the kind OKLAB it is unreachable, that is, it panics (`color.rs:449`). -/
def lowestVersion {V : Type} (conv : Kind → Space → V → V) (low : Kinds) (ts : List (Tok V)) : Option (List (Tok V)) :=
  if low.rgb then tokVersion conv .rgb ts
  else if low.p3 then tokVersion conv .p3 ts
  else if low.lab then tokVersion conv .lab ts
  else if low.oklab then none
  else some ts

/-- `TokenList::get_fallbacks`, `properties/custom.rs:1052-1088`, and with `extra` `KeyframesRule::get_fallbacks`, `rules/keyframes.rs:132-173`, and `FontPaletteValuesRule::get_fallbacks`, `rules/font_palette_values.rs:294-333`:
the values for `@supports` rules with the kind of the condition, and what the value is changed to. None is a panic. -/
def tokFallbacks {V : Type} (conv : Kind → Space → V → V) (extra : Bool) (t : Targets) (ts : List (Tok V)) : Option (List (Kind × List (Tok V)) × List (Tok V)) :=
  let f := tokKinds t ts
  let low := f.lowest
  let rest := f.diff low
  (if rest.p3 then (tokVersion conv .p3 ts).map (fun x => [(Kind.p3, x)]) else some []).bind fun p3 =>
  (if rest.lab || (extra && (low ≠ .empty ∧ low ≠ ⟨false, false, true, false⟩)) then (tokVersion conv .lab ts).map (fun x => [(Kind.lab, x)]) else some []).bind fun lab =>
  (lowestVersion conv low ts).bind fun base =>
  some (p3 ++ lab, base)

end Verif.Fallback
