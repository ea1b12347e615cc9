import Verif.Display.Model
/-! # Specification: the values of `display` (css-display-3), and the cascade of `display` and `overflow` -/
namespace Verif.Display.Spec
open Verif.Targets

/-- `<display-outside>`. -/
def outsides : List (Str × Outside) := [(cs!"block", .block), (cs!"inline", .inline), (cs!"run-in", .runIn)]

/-- `<display-inside>` without prefixes. -/
def insides : List (Str × Inside) := [(cs!"flow", .flow), (cs!"flow-root", .flowRoot), (cs!"table", .table), (cs!"flex", .flex .none), (cs!"grid", .grid), (cs!"ruby", .ruby)]

/-- Values of one word: `<display-internal>`, `<display-box>`, `<display-legacy>`, and the prefixed names of old browsers. -/
def words : List (Str × Display) := [
  (cs!"none", .keyword .noBox), (cs!"contents", .keyword .contents),
  (cs!"table-row-group", .keyword .tableRowGroup), (cs!"table-header-group", .keyword .tableHeaderGroup), (cs!"table-footer-group", .keyword .tableFooterGroup),
  (cs!"table-row", .keyword .tableRow), (cs!"table-cell", .keyword .tableCell), (cs!"table-column-group", .keyword .tableColumnGroup), (cs!"table-column", .keyword .tableColumn),
  (cs!"table-caption", .keyword .tableCaption), (cs!"ruby-base", .keyword .rubyBase), (cs!"ruby-text", .keyword .rubyText),
  (cs!"ruby-base-container", .keyword .rubyBaseContainer), (cs!"ruby-text-container", .keyword .rubyTextContainer),
  (cs!"inline-block", .pair ⟨.inline, .flowRoot, false⟩), (cs!"inline-table", .pair ⟨.inline, .table, false⟩),
  (cs!"inline-flex", .pair ⟨.inline, .flex .none, false⟩), (cs!"inline-grid", .pair ⟨.inline, .grid, false⟩),
  (cs!"-webkit-flex", .pair ⟨.block, .flex .webkit, false⟩), (cs!"-webkit-inline-flex", .pair ⟨.inline, .flex .webkit, false⟩),
  (cs!"-ms-flexbox", .pair ⟨.block, .flex .ms, false⟩), (cs!"-ms-inline-flexbox", .pair ⟨.inline, .flex .ms, false⟩),
  (cs!"-webkit-box", .pair ⟨.block, .box .webkit, false⟩), (cs!"-webkit-inline-box", .pair ⟨.inline, .box .webkit, false⟩),
  (cs!"-moz-box", .pair ⟨.block, .box .moz, false⟩), (cs!"-moz-inline-box", .pair ⟨.inline, .box .moz, false⟩)]

/-- What a value means; names are ASCII case-insensitive, and the words of a value can be in any order. Without `<display-inside>`, it is `flow`; without `<display-outside>`, it is `block`, except for `ruby`. -/
inductive Denotes : List Str → Display → Prop
  | word {t n d} : t.map Char.toLower = n → (n, d) ∈ words → Denotes [t] d
  | outside {t n o} : t.map Char.toLower = n → (n, o) ∈ outsides → Denotes [t] (.pair ⟨o, .flow, false⟩)
  | inside {t n i} : t.map Char.toLower = n → (n, i) ∈ insides → Denotes [t] (.pair ⟨if i = .ruby then .inline else .block, i, false⟩)
  | both {ts n o m i} : (ts.map (·.map Char.toLower)).Perm [n, m] → (n, o) ∈ outsides → (m, i) ∈ insides → Denotes ts (.pair ⟨o, i, false⟩)
  | item {ts} : (ts.map (·.map Char.toLower)).Perm [cs!"list-item"] → Denotes ts (.pair ⟨.block, .flow, true⟩)
  | itemOutside {ts n o} : (ts.map (·.map Char.toLower)).Perm [cs!"list-item", n] → (n, o) ∈ outsides → Denotes ts (.pair ⟨o, .flow, true⟩)
  | itemInside {ts m i} : (ts.map (·.map Char.toLower)).Perm [cs!"list-item", m] → (m, i) ∈ insides → i = .flow ∨ i = .flowRoot → Denotes ts (.pair ⟨.block, i, true⟩)
  | itemBoth {ts n o m i} : (ts.map (·.map Char.toLower)).Perm [cs!"list-item", n, m] → (n, o) ∈ outsides → (m, i) ∈ insides → i = .flow ∨ i = .flowRoot → Denotes ts (.pair ⟨o, i, true⟩)

/-- The last declaration of a browser that knows some values; `var()` is always valid. -/
def winner (knows : Display → Bool) (old : Option Decl) (ds : List Decl) : Option Decl :=
  ds.foldl (fun w d => match d with
    | .display v => if knows v then some d else w
    | .unparsed _ => some d) old

/-- The flex values with prefixes, of old browsers too, have the same purpose. -/
def isFlex : Inside → Prop
  | .flex _ => True
  | .box _ => True
  | _ => False

/-- Two values for the same purpose. -/
def Variant (a b : Display) : Prop := a = b ∨ ∃ p q : Pair, a = .pair p ∧ b = .pair q ∧ p.outside = q.outside ∧ p.listItem = q.listItem ∧ isFlex p.inside ∧ isFlex q.inside

/-- Unprefixed `flex`. -/
def IsPlainFlex (d : Display) : Prop := ∃ o l, d = .pair ⟨o, .flex .none, l⟩

/-- The values that the browser may not know: the first one, and other forms of the value before it (if there are targets, not after unprefixed `flex`). -/
def Known (knows : Display → Bool) (targets : Bool) : Option Display → List Decl → Prop
  | _, [] => True
  | _, .unparsed _ :: ds => Known knows targets none ds
  | prev, .display d :: ds =>
    (∀ p, prev = some p → knows d = true ∨ (Variant p d ∧ (targets = true → ¬ IsPlainFlex p))) ∧ Known knows targets (some d) ds

/-- The value of an axis: of other rules, a keyword, or a text with `var()` of the shorthand or of a longhand. -/
inductive OVal
  | other (n : Nat)
  | kw (k : OKw)
  | raw (shorthand : Bool) (text : Str)
deriving DecidableEq

/-- A browser: the keywords that it knows, and whether the shorthand may have two. -/
structure Agent where
  knows : OKw → Bool
  two : Bool

/-- The computed values of both axes. -/
def ocomputed (b : Agent) (m : OVal × OVal) (ds : List ODecl) : OVal × OVal :=
  ds.foldl (fun m d => match d with
    | .x v => if b.knows v then (.kw v, m.2) else m
    | .y v => if b.knows v then (m.1, .kw v) else m
    | .both x y => if b.knows x && b.knows y && (b.two || x = y) then (.kw x, .kw y) else m
    | .rawX t => (.raw false t, m.2)
    | .rawY t => (m.1, .raw false t)
    | .rawBoth t => (.raw true t, .raw true t)) m

end Verif.Display.Spec
