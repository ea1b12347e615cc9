import Verif.Grid.Model
import Mathlib.Data.List.Forall2
/-!
The grammar of the grid properties, from css-grid-2, as relations between component values and what they mean.
Nothing here uses the parsing or printing functions of the model; only the data types (tokens and values) are
shared. Lenient in one point that the code never looks at: line names may be the identifiers `auto` and `span`.
-/
namespace Verif.Grid.Spec
open Verif.Grid

/-- A keyword, ASCII case-insensitively. -/
def word (s lit : Str) : Prop := s.map Char.toLower = lit

/-- A `<custom-ident>`: anything but a CSS-wide keyword or `default`. -/
def Custom (s : Str) : Prop :=
  ∀ k ∈ [cs!"initial", cs!"inherit", cs!"unset", cs!"default", cs!"revert", cs!"revert-layer"], ¬ word s k

/-- `<track-breadth>` (the flag: flexible lengths are allowed) and `<inflexible-breadth>`. -/
inductive BreadthG : Bool → Tok → Breadth → Prop
  | len {f l} : BreadthG f (.len l) (.length l)
  | flex {q} : 0 ≤ q → BreadthG true (.fr q) (.flex q)
  | auto {f s} : word s cs!"auto" → BreadthG f (.ident s) .auto
  | minContent {f s} : word s cs!"min-content" → BreadthG f (.ident s) .minContent
  | maxContent {f s} : word s cs!"max-content" → BreadthG f (.ident s) .maxContent

/-- `<track-size>`: `<track-breadth> | minmax(<inflexible-breadth>, <track-breadth>) | fit-content(<length-percentage>)`. -/
inductive SizeG : Tok → Size → Prop
  | breadth {t b} : BreadthG true t b → SizeG t (.breadth b)
  | minmax {n a b x y} : word n cs!"minmax" → BreadthG false a x → BreadthG true b y → SizeG (.func n [a, .comma, b]) (.minmax x y)
  | fit {n l} : word n cs!"fit-content" → SizeG (.func n [.len l]) (.fitContent l)

/-- `<line-names>?`: `[ '[' <custom-ident>* ']' ]?`. -/
inductive NamesG : List Tok → List Str → Prop
  | none : NamesG [] []
  | some {ns} : (∀ n ∈ ns, Custom n) → NamesG [.brack (ns.map .ident)] ns

/-- `[ <line-names>? <item> ]* <line-names>?`: the names of the lines between, before and after the items. -/
inductive TracksG {α : Type} (It : Tok → α → Prop) : List Tok → List (List Str) → List α → Prop
  | last {ts ns} : NamesG ts ns → TracksG It ts [ns] []
  | more {t1 ns t x t2 nss xs} : NamesG t1 ns → It t x → TracksG It t2 nss xs → TracksG It (t1 ++ t :: t2) (ns :: nss) (x :: xs)

/-- `<repetition count>`: `<integer [1,∞]> | auto-fill | auto-fit`. -/
inductive CountG : Tok → Count → Prop
  | number {n} : 1 ≤ n → CountG (.int n) (.number n)
  | autoFill {s} : word s cs!"auto-fill" → CountG (.ident s) .autoFill
  | autoFit {s} : word s cs!"auto-fit" → CountG (.ident s) .autoFit

/-- An item of a track list: a `<track-size>` or `repeat(<count>, [ <line-names>? <track-size> ]+ <line-names>?)`. -/
inductive ItemG : Tok → Item → Prop
  | size {t z} : SizeG t z → ItemG t (.size z)
  | rep {n c k ts ns zs} : word n cs!"repeat" → CountG c k → TracksG SizeG ts ns zs → zs ≠ [] →
      ItemG (.func n (c :: .comma :: ts)) (.rep ⟨k, ns, zs⟩)

/-- `<track-list>`. -/
def TrackListG (ts : List Tok) (l : TrackList) : Prop := TracksG ItemG ts l.names l.items ∧ l.items ≠ []

/-- `grid-template-rows` and `grid-template-columns`: `none | <track-list>`. -/
inductive SizingG : List Tok → Sizing → Prop
  | none {s} : word s cs!"none" → SizingG [.ident s] .none
  | list {ts l} : TrackListG ts l → SizingG ts (.list l)

/-- `grid-auto-rows` and `grid-auto-columns`: `<track-size>+`, where the initial value `auto` is the empty list. -/
inductive SizeListG : List Tok → List Size → Prop
  | auto {t} : SizeG t (.breadth .auto) → SizeListG [t] []
  | list {ts zs} : List.Forall₂ SizeG ts zs → zs ≠ [] → zs ≠ [.breadth .auto] → SizeListG ts zs

/-- CSS whitespace. -/
def White (c : Char) : Prop := c = ' ' ∨ c = '\t' ∨ c = '\n' ∨ c = '\x0c' ∨ c = '\r'

/-- An ident code point. -/
def NameChar (c : Char) : Prop :=
  ('A' ≤ c ∧ c ≤ 'Z') ∨ ('a' ≤ c ∧ c ≤ 'z') ∨ 128 ≤ c.toNat ∨ c = '_' ∨ ('0' ≤ c ∧ c ≤ '9') ∨ c = '-'

/-- The tokens of a row of `grid-template-areas`, with longest match: a sequence of ident code points is a
named cell, a sequence of dots is a null cell, whitespace separates. -/
inductive CellsG : Str → List (Option Str) → Prop
  | nil : CellsG [] []
  | white {c s cs} : White c → CellsG s cs → CellsG (c :: s) cs
  | name {w s cs} : w ≠ [] → (∀ c ∈ w, NameChar c) → (∀ c, s.head? = some c → ¬ NameChar c) → CellsG s cs → CellsG (w ++ s) (some w :: cs)
  | dots {n s cs} : 0 < n → s.head? ≠ some '.' → CellsG s cs → CellsG (List.replicate n '.' ++ s) (none :: cs)

/-- `<string>+` where all the strings have the same number of cells, at least one. -/
inductive RowsG (columns : Nat) : List Tok → List (List (Option Str)) → Prop
  | nil : RowsG columns [] []
  | cons {s cs ts css} : CellsG s cs → cs.length = columns → RowsG columns ts css → RowsG columns (.str s :: ts) (cs :: css)

/-- `grid-template-areas`: `none | <string>+`. -/
inductive AreasG : List Tok → Areas → Prop
  | none {s} : word s cs!"none" → AreasG [.ident s] .none
  | areas {columns ts css} : RowsG columns ts css → css ≠ [] → 0 < columns → AreasG ts (.areas columns css.flatten)

/-- `<track-size>?` after a row of `grid-template`: `auto` if left out. -/
inductive RowSizeG : List Tok → Size → Prop
  | auto : RowSizeG [] (.breadth .auto)
  | size {t z} : SizeG t z → RowSizeG [t] z

/-- `[ <line-names>? <string> <track-size>? <line-names>? ]*` after the line names `pend`: the names of the lines, the
sizes of the rows and the cells. The names after a row and those before the next row are names of the same line. -/
inductive AreaRowsG (columns : Nat) : List Str → List Tok → List (List Str) → List Size → List (List (Option Str)) → Prop
  | nil {pend} : AreaRowsG columns pend [] [pend] [] []
  | cons {pend t1 before s cs t2 z t3 after ts nss zs css} :
      NamesG t1 before → CellsG s cs → cs.length = columns → RowSizeG t2 z → NamesG t3 after →
      AreaRowsG columns after ts nss zs css →
      AreaRowsG columns pend (t1 ++ .str s :: (t2 ++ (t3 ++ ts))) ((pend ++ before) :: nss) (z :: zs) (cs :: css)

/-- `[ / <explicit-track-list> ]?`. -/
inductive ColumnsG : List Tok → Sizing → Prop
  | none : ColumnsG [] .none
  | list {ts l} : TrackListG ts l → (∀ i ∈ l.items, ∃ z, i = .size z) → ColumnsG (.slash :: ts) (.list l)

/-- `grid-template`: `none | <rows> / <columns> | [ <line-names>? <string> <track-size>? <line-names>? ]+ [ / <explicit-track-list> ]?`. -/
inductive TemplateG : List Tok → Template → Prop
  | none {s} : word s cs!"none" → TemplateG [.ident s] ⟨.none, .none, .none⟩
  | tracks {t1 rows t2 cols} : SizingG t1 rows → SizingG t2 cols → TemplateG (t1 ++ .slash :: t2) ⟨rows, cols, .none⟩
  | areas {columns t1 nss zs css t2 cols} : AreaRowsG columns [] t1 nss zs css → zs ≠ [] → 0 < columns → ColumnsG t2 cols →
      TemplateG (t1 ++ t2) ⟨.list ⟨nss, zs.map .size⟩, cols, .areas columns css.flatten⟩

/-- `grid-auto-flow`: `[ row | column ] || dense`. -/
inductive FlowG : List Tok → Flow → Prop
  | row {s} : word s cs!"row" → FlowG [.ident s] ⟨false, false⟩
  | column {s} : word s cs!"column" → FlowG [.ident s] ⟨true, false⟩
  | dense {d} : word d cs!"dense" → FlowG [.ident d] ⟨false, true⟩
  | rowDense {s d} : word s cs!"row" → word d cs!"dense" → FlowG [.ident s, .ident d] ⟨false, true⟩
  | columnDense {s d} : word s cs!"column" → word d cs!"dense" → FlowG [.ident s, .ident d] ⟨true, true⟩
  | denseRow {s d} : word s cs!"row" → word d cs!"dense" → FlowG [.ident d, .ident s] ⟨false, true⟩
  | denseColumn {s d} : word s cs!"column" → word d cs!"dense" → FlowG [.ident d, .ident s] ⟨true, true⟩

/-- `[ auto-flow && dense? ]` (the flag: dense). -/
inductive AutoFlowG : List Tok → Bool → Prop
  | flow {s} : word s cs!"auto-flow" → AutoFlowG [.ident s] false
  | flowDense {s d} : word s cs!"auto-flow" → word d cs!"dense" → AutoFlowG [.ident s, .ident d] true
  | denseFlow {s d} : word s cs!"auto-flow" → word d cs!"dense" → AutoFlowG [.ident d, .ident s] true

/-- `<track-size>*` in the `grid` shorthand: left out means `auto`. -/
inductive OptSizesG : List Tok → List Size → Prop
  | none : OptSizesG [] []
  | some {ts zs} : SizeListG ts zs → OptSizesG ts zs

/-- `grid`: `<grid-template> | <rows> / [ auto-flow && dense? ] <auto-columns>? | [ auto-flow && dense? ] <auto-rows>? / <columns>`;
all the longhands that are not mentioned are set to their initial values. -/
inductive GridG : List Tok → GridV → Prop
  | template {ts t} : TemplateG ts t → GridG ts ⟨t.rows, t.columns, t.areas, [], [], ⟨false, false⟩⟩
  | columns {t1 rows t2 d t3 zs} : SizingG t1 rows → AutoFlowG t2 d → OptSizesG t3 zs →
      GridG (t1 ++ .slash :: (t2 ++ t3)) ⟨rows, .none, .none, [], zs, ⟨true, d⟩⟩
  | rows {t1 d t2 zs t3 cols} : AutoFlowG t1 d → OptSizesG t2 zs → SizingG t3 cols →
      GridG (t1 ++ (t2 ++ .slash :: t3)) ⟨.none, cols, .none, zs, [], ⟨false, d⟩⟩

/-- The `<custom-ident>` of a `<grid-line>` excludes `auto` and `span`. -/
def LineName (s : Str) : Prop := Custom s ∧ ¬ word s cs!"auto" ∧ ¬ word s cs!"span"

/-- `[ <integer≥1> || <custom-ident> ]`; the integer is 1 if left out. -/
def SpanArgG (ts : List Tok) (n : Int) (s : Option Str) : Prop :=
  1 ≤ n ∧ ((ts = [.int n] ∧ s = none) ∨
    (∃ w, LineName w ∧ s = some w ∧ ((ts = [.ident w] ∧ n = 1) ∨ ts = [.int n, .ident w] ∨ ts = [.ident w, .int n])))

/-- `<grid-line>`: `auto | <custom-ident> | [ <integer≠0> && <custom-ident>? ] | [ span && [ <integer≥1> || <custom-ident> ] ]`. -/
inductive LineG : List Tok → Line → Prop
  | auto {s} : word s cs!"auto" → LineG [.ident s] .auto
  | area {s} : LineName s → LineG [.ident s] (.area s)
  | int {n} : n ≠ 0 → LineG [.int n] (.line n none)
  | intName {n s} : n ≠ 0 → LineName s → LineG [.int n, .ident s] (.line n (some s))
  | nameInt {n s} : n ≠ 0 → LineName s → LineG [.ident s, .int n] (.line n (some s))
  | span {ts k n s} : word k cs!"span" → SpanArgG ts n s → LineG (.ident k :: ts) (.span n s)
  | spanEnd {ts k n s} : word k cs!"span" → SpanArgG ts n s → LineG (ts ++ [.ident k]) (.span n s)

/-- What the end line is when it is left out: the same name if the start line is only a name, else `auto`. -/
inductive EndG : Line → Line → Prop
  | area {s} : EndG (.area s) (.area s)
  | other {l} : (∀ s, l ≠ .area s) → EndG l .auto

/-- `grid-row`, `grid-column`: `<grid-line> [ / <grid-line> ]?`. -/
inductive PlacementG : List Tok → Line → Line → Prop
  | one {ts a b} : LineG ts a → EndG a b → PlacementG ts a b
  | two {t1 t2 a b} : LineG t1 a → LineG t2 b → PlacementG (t1 ++ .slash :: t2) a b

/-- `grid-area`: `<grid-line> [ / <grid-line> ]{0,3}`, in the order row-start, column-start, row-end, column-end. -/
inductive AreaG : List Tok → Area → Prop
  | one {ts rs o} : LineG ts rs → EndG rs o → AreaG ts ⟨rs, o, o, o⟩
  | two {t1 t2 rs cs re ce} : LineG t1 rs → LineG t2 cs → EndG rs re → EndG cs ce → AreaG (t1 ++ .slash :: t2) ⟨rs, cs, re, ce⟩
  | three {t1 t2 t3 rs cs re ce} : LineG t1 rs → LineG t2 cs → LineG t3 re → EndG cs ce →
      AreaG (t1 ++ .slash :: (t2 ++ .slash :: t3)) ⟨rs, cs, re, ce⟩
  | four {t1 t2 t3 t4 rs cs re ce} : LineG t1 rs → LineG t2 cs → LineG t3 re → LineG t4 ce →
      AreaG (t1 ++ .slash :: (t2 ++ .slash :: (t3 ++ .slash :: t4))) ⟨rs, cs, re, ce⟩

end Verif.Grid.Spec
