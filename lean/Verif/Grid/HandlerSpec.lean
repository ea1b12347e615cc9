import Verif.Grid.Spec
import Verif.Grid.Handler
/-!
What a list of grid declarations means: the cascade gives every longhand the value of the last declaration that sets
it. Uses the grammar of `Spec.lean` and the data types only.
-/
namespace Verif.Grid.Spec
open Verif.Grid

/-- The longhands of the grid properties. -/
inductive LH
  | rows | columns | areas | autoRows | autoColumns | flow | rowStart | rowEnd | columnStart | columnEnd
deriving DecidableEq

/-- A value of a longhand; `text` for the longhands of a declaration with an unparsed value. -/
inductive Val
  | sizing (v : Sizing)
  | areas (v : Areas)
  | sizes (v : List Size)
  | flow (v : Flow)
  | line (v : Line)
  | text (p : PropId) (n : Nat)
deriving DecidableEq

/-- The values a declaration gives to longhands. -/
abbrev Sets := LH → Option Val

/-- The longhands a declaration of a property sets. -/
def longhands : PropId → List LH
  | .templateRows => [.rows]
  | .templateColumns => [.columns]
  | .templateAreas => [.areas]
  | .autoRows => [.autoRows]
  | .autoColumns => [.autoColumns]
  | .autoFlow => [.flow]
  | .template => [.rows, .columns, .areas]
  | .grid => [.rows, .columns, .areas, .autoRows, .autoColumns, .flow]
  | .rowStart => [.rowStart]
  | .rowEnd => [.rowEnd]
  | .columnStart => [.columnStart]
  | .columnEnd => [.columnEnd]
  | .row => [.rowStart, .rowEnd]
  | .column => [.columnStart, .columnEnd]
  | .area => [.rowStart, .columnStart, .rowEnd, .columnEnd]

/-- The values of the longhands of a shorthand, in the order of `longhands`. -/
def sets (p : PropId) (vs : List Val) : Sets := fun l => ((longhands p).zip vs).lookup l

/-- What a browser reads: the declaration that a property name and a value stand for. -/
inductive DeclG : PropId → Text → Decl → Prop
  | rows {ts v} : SizingG ts v → DeclG .templateRows (.toks ts) (.templateRows v)
  | columns {ts v} : SizingG ts v → DeclG .templateColumns (.toks ts) (.templateColumns v)
  | areas {ts v} : AreasG ts v → DeclG .templateAreas (.toks ts) (.templateAreas v)
  | autoRows {ts v} : SizeListG ts v → DeclG .autoRows (.toks ts) (.autoRows v)
  | autoColumns {ts v} : SizeListG ts v → DeclG .autoColumns (.toks ts) (.autoColumns v)
  | flow {ts v} : FlowG ts v → DeclG .autoFlow (.toks ts) (.autoFlow v)
  | template {ts t} : TemplateG ts t → DeclG .template (.toks ts) (.template t)
  | grid {ts g} : GridG ts g → DeclG .grid (.toks ts) (.grid g)
  | rowStart {ts l} : LineG ts l → DeclG .rowStart (.toks ts) (.rowStart l)
  | rowEnd {ts l} : LineG ts l → DeclG .rowEnd (.toks ts) (.rowEnd l)
  | columnStart {ts l} : LineG ts l → DeclG .columnStart (.toks ts) (.columnStart l)
  | columnEnd {ts l} : LineG ts l → DeclG .columnEnd (.toks ts) (.columnEnd l)
  | row {ts a b} : PlacementG ts a b → DeclG .row (.toks ts) (.row a b)
  | column {ts a b} : PlacementG ts a b → DeclG .column (.toks ts) (.column a b)
  | area {ts a} : AreaG ts a → DeclG .area (.toks ts) (.area a)
  | raw {p n} : DeclG p (.raw n) (.unparsed p n)

/-- The cascade: the last declaration that sets the longhand wins. -/
def win (ds : List Sets) : Sets := fun l => ds.foldl (fun acc d => (d l).or acc) none

/-- What a parsed declaration means. -/
def meaning : Decl → Sets
  | .templateRows v => sets .templateRows [.sizing v]
  | .templateColumns v => sets .templateColumns [.sizing v]
  | .templateAreas v => sets .templateAreas [.areas v]
  | .autoRows v => sets .autoRows [.sizes v]
  | .autoColumns v => sets .autoColumns [.sizes v]
  | .autoFlow v => sets .autoFlow [.flow v]
  | .template t => sets .template [.sizing t.rows, .sizing t.columns, .areas t.areas]
  | .grid g => sets .grid [.sizing g.rows, .sizing g.columns, .areas g.areas, .sizes g.autoRows, .sizes g.autoColumns, .flow g.flow]
  | .rowStart v => sets .rowStart [.line v]
  | .rowEnd v => sets .rowEnd [.line v]
  | .columnStart v => sets .columnStart [.line v]
  | .columnEnd v => sets .columnEnd [.line v]
  | .row a b => sets .row [.line a, .line b]
  | .column a b => sets .column [.line a, .line b]
  | .area a => sets .area [.line a.rowStart, .line a.columnStart, .line a.rowEnd, .line a.columnEnd]
  | .unparsed p n => fun l => if l ∈ longhands p then some (.text p n) else none

/-- A declaration that can be written in a style sheet. -/
def Legit (d : Decl) : Prop := ∃ p text, DeclG p text d

/-- A value that could not be parsed, or has a `var()`. -/
def IsUnparsed (d : Decl) : Prop := ∃ p n, d = .unparsed p n

/-- The same layout: equal values of the longhands, except that the areas may have rows of null cells added at the end
as long as there are no more rows of cells than explicit row tracks (the explicit grid has as many rows as the
larger of the two). -/
def SameLayout (before after : Sets) : Prop :=
  (∀ l, l ≠ .areas → after l = before l) ∧
    (after .areas = before .areas ∨
      ∃ names sizes columns cells k,
        before .rows = some (.sizing (.list ⟨names, List.map Item.size sizes⟩)) ∧
        before .areas = some (.areas (.areas columns cells)) ∧
        after .areas = some (.areas (.areas columns (cells ++ List.replicate (k * columns) none))) ∧
        (cells ++ List.replicate (k * columns) none).length ≤ sizes.length * columns)

/-- The combinations that are not kept, see the counterexamples in `HandlerProps.lean`, do not occur: areas with more
rows than there are row tracks, and areas without row tracks but with implicit columns, when there are also all the
other longhands that a shorthand needs. -/
structure Expressible (w : Sets) : Prop where
  rows : ∀ l n cells, w .rows = some (.sizing (.list l)) → w .areas = some (.areas (.areas n cells)) → w .columns ≠ none →
    cells.length ≤ l.items.length * n
  columns : ∀ n cells zs d, w .rows = some (.sizing .none) → w .areas = some (.areas (.areas n cells)) → w .columns ≠ none →
    w .autoRows ≠ none → w .autoColumns = some (.sizes zs) → w .flow = some (.flow ⟨false, d⟩) → zs = []

/-- Areas have as many rows as there are row tracks, when there are also columns. -/
def FullAreas (w : Sets) : Prop :=
  ∀ l n cells, w .rows = some (.sizing (.list l)) → w .areas = some (.areas (.areas n cells)) → w .columns ≠ none →
    cells.length = l.items.length * n

end Verif.Grid.Spec
