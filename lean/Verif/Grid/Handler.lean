import Verif.Grid.Model
/-!
Model of `GridHandler` (`src/properties/grid.rs:1637-1890`): the declarations of a block that set grid properties are
collected and written as shorthands. One handler sees the declarations of one importance. `!important` and the
declarations that are not grid properties (`handle_property` returns `false` for them and they are kept elsewhere)
are left out.
-/
namespace Verif.Grid

/-- The grid properties (`is_grid_property`, grid.rs:1867-1888). -/
inductive PropId
  | templateRows | templateColumns | templateAreas | autoRows | autoColumns | autoFlow | template | grid
  | rowStart | rowEnd | columnStart | columnEnd | row | column | area
deriving DecidableEq

/-- The variants of `Property` that `GridHandler::handle_property` accepts (grid.rs:1661-1706); the value of an
`Unparsed` declaration (it contains `var()` or could not be parsed) is opaque. -/
inductive Decl
  | templateRows (v : Sizing)
  | templateColumns (v : Sizing)
  | templateAreas (v : Areas)
  | autoRows (v : List Size)
  | autoColumns (v : List Size)
  | autoFlow (v : Flow)
  | template (v : Template)
  | grid (v : GridV)
  | rowStart (v : Line)
  | rowEnd (v : Line)
  | columnStart (v : Line)
  | columnEnd (v : Line)
  | row (start stop : Line)
  | column (start stop : Line)
  | area (v : Area)
  | unparsed (p : PropId) (text : Nat)

/-- `GridHandler` (grid.rs:1637-1650). -/
structure Handler where
  rows : Option Sizing := none
  columns : Option Sizing := none
  areas : Option Areas := none
  autoRows : Option (List Size) := none
  autoColumns : Option (List Size) := none
  flow : Option Flow := none
  rowStart : Option Line := none
  columnStart : Option Line := none
  rowEnd : Option Line := none
  columnEnd : Option Line := none
  hasAny : Bool := false

/-- `GridHandler::pad_grid_template_areas` (grid.rs:1838-1862); `none` is the panic of the division by zero. -/
def padAreas (rows : Sizing) (areas : Areas) : Option Areas :=
  match rows, areas with
  | .list l, .areas n cells =>
    if n = 0 then none
    else if cells.length / n < l.items.length then
      some (.areas n (cells ++ List.replicate ((l.items.length - cells.length / n) * n) none))
    else some (.areas n cells)
  | _, a => some a

/-- `dest.push(Property::$prop(val))` if the value is there (grid.rs:1815-1821). -/
def single {α : Type} (prop : α → Decl) (v : Option α) : List Decl := v.toList.map prop

/-- The template part of `finalize` (grid.rs:1737-1793): what is pushed for rows, columns, areas and the implicit
tracks, when the first three are there. `needs_separate_areas` is grid.rs:1751-1753. -/
def finalizeTemplate (h : Handler) (rows columns : Sizing) (areas : Areas) : Option (List Decl) :=
  let asTemplate (rest : List Decl) : Option (List Decl) :=
    if Template.valid rows columns areas then (padAreas rows areas).map fun a => .template ⟨rows, columns, a⟩ :: rest
    else some (.templateRows rows :: .templateColumns columns :: .templateAreas areas :: rest)
  match h.autoRows, h.autoColumns, h.flow with
  | some autoRows, some autoColumns, some flow =>
    if GridV.valid rows columns areas autoRows autoColumns flow then
      if areas ≠ .none ∧ ((rows = .none ∧ flow.column = false) ∨ (columns = .none ∧ flow.column = true)) then
        some [.grid ⟨rows, columns, areas, autoRows, autoColumns, flow⟩, .templateAreas areas]
      else (padAreas rows areas).map fun a => [.grid ⟨rows, columns, a, autoRows, autoColumns, flow⟩]
    else asTemplate [.autoRows autoRows, .autoColumns autoColumns, .autoFlow flow]
  | autoRows, autoColumns, flow => asTemplate (single .autoRows autoRows ++ single .autoColumns autoColumns ++ single .autoFlow flow)

/-- The placement part of `finalize` (grid.rs:1795-1813) with the single properties that remain (grid.rs:1829-1832). -/
def finalizePlacement (h : Handler) : List Decl :=
  match h.rowStart, h.rowEnd, h.columnStart, h.columnEnd with
  | some rs, some re, some cs, some ce => [.area ⟨rs, cs, re, ce⟩]
  | some rs, some re, cs, ce => .row rs re :: (single .columnStart cs ++ single .columnEnd ce)
  | rs, re, some cs, some ce => .column cs ce :: (single .rowStart rs ++ single .rowEnd re)
  | rs, re, cs, ce => single .rowStart rs ++ single .rowEnd re ++ single .columnStart cs ++ single .columnEnd ce

/-- The track part of `finalize` (grid.rs:1737-1793 and the single properties of grid.rs:1823-1828). -/
def finalizeTracks (h : Handler) : Option (List Decl) :=
  match h.rows, h.columns, h.areas with
  | some rows, some columns, some areas => finalizeTemplate h rows columns areas
  | rows, columns, areas =>
    some (single .templateRows rows ++ single .templateColumns columns ++ single .templateAreas areas ++
      single .autoRows h.autoRows ++ single .autoColumns h.autoColumns ++ single .autoFlow h.flow)

/-- `GridHandler::finalize` (grid.rs:1718-1833). The declarations for the tracks and for the placement touch
different longhands; the code interleaves them (template shorthand, placement shorthands, template longhands,
placement longhands), here the placement comes last. -/
def Handler.finalize (h : Handler) : Option (List Decl) :=
  if h.hasAny then (finalizeTracks h).map (· ++ finalizePlacement h) else some []

/-- `GridHandler::handle_property` (grid.rs:1653-1716): the new state and what is pushed to `dest`. -/
def Handler.handle (h : Handler) : Decl → Option (Handler × List Decl)
  | .templateColumns v => some ({ h with columns := some v, hasAny := true }, [])
  | .templateRows v => some ({ h with rows := some v, hasAny := true }, [])
  | .templateAreas v => some ({ h with areas := some v, hasAny := true }, [])
  | .autoColumns v => some ({ h with autoColumns := some v, hasAny := true }, [])
  | .autoRows v => some ({ h with autoRows := some v, hasAny := true }, [])
  | .autoFlow v => some ({ h with flow := some v, hasAny := true }, [])
  | .template t => some ({ h with rows := some t.rows, columns := some t.columns, areas := some t.areas, hasAny := true }, [])
  | .grid g => some ({ h with
      rows := some g.rows, columns := some g.columns, areas := some g.areas, autoRows := some g.autoRows,
      autoColumns := some g.autoColumns, flow := some g.flow, hasAny := true }, [])
  | .rowStart v => some ({ h with rowStart := some v, hasAny := true }, [])
  | .rowEnd v => some ({ h with rowEnd := some v, hasAny := true }, [])
  | .columnStart v => some ({ h with columnStart := some v, hasAny := true }, [])
  | .columnEnd v => some ({ h with columnEnd := some v, hasAny := true }, [])
  | .row a b => some ({ h with rowStart := some a, rowEnd := some b, hasAny := true }, [])
  | .column a b => some ({ h with columnStart := some a, columnEnd := some b, hasAny := true }, [])
  | .area v => some ({ h with
      rowStart := some v.rowStart, rowEnd := some v.rowEnd, columnStart := some v.columnStart,
      columnEnd := some v.columnEnd, hasAny := true }, [])
  | .unparsed p t => h.finalize.map fun out => ({ hasAny := true }, out ++ [.unparsed p t])

/-- The loop over a declaration block (`DeclarationBlock::minify`, src/declaration.rs:238-264: `handle_property` for every declaration, then
`finalize`); `none` is a panic. -/
def handleGrid (h : Handler) : List Decl → Option (List Decl)
  | [] => h.finalize
  | d :: ds => (h.handle d).bind fun (h', out) => (handleGrid h' ds).map (out ++ ·)

/-- How a declaration is written: a list of component values, or the text of an unparsed value. -/
inductive Text
  | toks (ts : List Tok)
  | raw (text : Nat)

/-- The name and the minified value of a declaration (`Property::value_to_css`, macros in src/properties/mod.rs, which
calls the `to_css` of each value); `none` is a panic. -/
def printDecl : Decl → Option (PropId × Text)
  | .templateRows v => some (.templateRows, .toks (printSizing v))
  | .templateColumns v => some (.templateColumns, .toks (printSizing v))
  | .templateAreas v => some (.templateAreas, .toks (printAreas true v))
  | .autoRows v => some (.autoRows, .toks (printSizeList v))
  | .autoColumns v => some (.autoColumns, .toks (printSizeList v))
  | .autoFlow v => some (.autoFlow, .toks (printFlow true v))
  | .template v => (printTemplate true v).map fun ts => (.template, .toks ts)
  | .grid v => (printGrid true v).map fun ts => (.grid, .toks ts)
  | .rowStart v => some (.rowStart, .toks (printLine v))
  | .rowEnd v => some (.rowEnd, .toks (printLine v))
  | .columnStart v => some (.columnStart, .toks (printLine v))
  | .columnEnd v => some (.columnEnd, .toks (printLine v))
  | .row a b => some (.row, .toks (printPlacement a b))
  | .column a b => some (.column, .toks (printPlacement a b))
  | .area v => some (.area, .toks (printArea v))
  | .unparsed p t => some (p, .raw t)

end Verif.Grid
