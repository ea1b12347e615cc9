import Verif.Common.Chars
/-!
Model of `src/properties/grid.rs`: the values of the grid properties, how they are parsed from tokens and
printed to tokens.

Simplifications: whitespace and comments are not tokens (the printer always leaves enough whitespace or a
self-delimiting token between two tokens that would otherwise run together, see grid.rs:351-357, 466-472); a
`<length-percentage>` is one opaque token `len`, an `fr` dimension is one token `fr`, so the unit conversions
of `LengthPercentage` are not modelled; string tokens carry their decoded value. Line names are printed without
CSS modules (the renaming of grid names is modelled in `Names.lean`).
-/
namespace Verif.Grid

/-- CSS component values, as seen through `cssparser::Parser` (function and `[]` blocks are nested). -/
inductive Tok
  | ident (s : Str)
  | str (s : Str)
  | int (n : Int)
  | fr (q : Int)
  | len (l : Nat)
  | slash
  | comma
  | func (name : Str) (args : List Tok)
  | brack (args : List Tok)

/-- `expect_ident_matching` / `match_ignore_ascii_case!`: ASCII case-insensitive comparison with a lower-case
keyword. -/
def kw (s lit : Str) : Bool := s.map Char.toLower = lit

/-- `CustomIdent::parse` (src/values/ident.rs:31-44): any identifier but the CSS-wide keywords. -/
def customIdent : Tok → Option Str
  | .ident s =>
    if kw s cs!"initial" || kw s cs!"inherit" || kw s cs!"unset" || kw s cs!"default" || kw s cs!"revert" ||
        kw s cs!"revert-layer" then none else some s
  | _ => none

/-- The `while let Ok(ident)` loop of `parse_line_names` (grid.rs:372-376) followed by the exhaustion check of
`parse_nested_block`. -/
def customIdents : List Tok → Option (List Str)
  | [] => some []
  | t :: ts => (customIdent t).bind fun s => (customIdents ts).map (s :: ·)

/-- `parse_line_names` (grid.rs:368-379). -/
def lineNames : List Tok → Option (List Str × List Tok)
  | .brack as :: r => (customIdents as).map fun ns => (ns, r)
  | _ => none

/-- `TrackBreadth` (grid.rs:137-148). -/
inductive Breadth
  | length (l : Nat)
  | flex (q : Int)
  | minContent
  | maxContent
  | auto
deriving DecidableEq

/-- `TrackSize` (grid.rs:96-110). -/
inductive Size
  | breadth (b : Breadth)
  | minmax (min max : Breadth)
  | fitContent (l : Nat)
deriving DecidableEq

/-- `TrackSize::default` (grid.rs:112-116). -/
def Size.default : Size := .breadth .auto

/-- `TrackBreadth::parse_internal` and `parse_flex` (grid.rs:252-289); every breadth is one token. -/
def parseBreadth (flex : Bool) : Tok → Option Breadth
  | .len l => some (.length l)
  | .fr q => if flex && decide (0 ≤ q) then some (.flex q) else none
  | .ident s =>
    if kw s cs!"auto" then some .auto
    else if kw s cs!"min-content" then some .minContent
    else if kw s cs!"max-content" then some .maxContent
    else none
  | _ => none

/-- `TrackSize::parse` (grid.rs:195-215); every track size is one token (with its nested block). -/
def parseSize : Tok → Option Size
  | .func name args =>
    if kw name cs!"minmax" then
      match args with
      | [a, .comma, b] => (parseBreadth false a).bind fun x => (parseBreadth true b).map fun y => .minmax x y
      | _ => none
    else if kw name cs!"fit-content" then
      match args with
      | [.len l] => some (.fitContent l)
      | _ => none
    else none
  | t => (parseBreadth true t).map .breadth

/-- `TrackBreadth::to_css` (grid.rs:291-304). -/
def printBreadth : Breadth → Tok
  | .length l => .len l
  | .flex q => .fr q
  | .minContent => .ident cs!"min-content"
  | .maxContent => .ident cs!"max-content"
  | .auto => .ident cs!"auto"

/-- `TrackSize::to_css` (grid.rs:217-237). -/
def printSize : Size → Tok
  | .breadth b => printBreadth b
  | .minmax a b => .func cs!"minmax" [printBreadth a, .comma, printBreadth b]
  | .fitContent l => .func cs!"fit-content" [.len l]

theorem lineNames_length {ts : List Tok} {ns r} (h : lineNames ts = some (ns, r)) : r.length < ts.length := by
  unfold lineNames at h
  split at h
  · next as r' =>
    cases hc : customIdents as with
    | none => simp [hc] at h
    | some x => simp [hc] at h; simp [h.2]
  · cases h

/-- `input.try_parse(parse_line_names).unwrap_or_default()` (grid.rs:318, 425, 785). -/
def optNames (ts : List Tok) : List Str × List Tok := (lineNames ts).getD ([], ts)

theorem optNames_length (ts : List Tok) : (optNames ts).2.length ≤ ts.length := by
  unfold optNames
  cases h : lineNames ts with
  | none => simp
  | some p => exact Nat.le_of_lt (lineNames_length h)

/-- The loop of `TrackRepeat::parse` and `TrackList::parse` (grid.rs:317-327, 424-436): line names, an item,
line names, ... until there is no item. Returns the line names, the items and the tokens left. -/
def parseTracks {α : Type} (item : Tok → Option α) (ts : List Tok) : List (List Str) × List α × List Tok :=
  match h : (optNames ts).2 with
  | [] => ([(optNames ts).1], [], [])
  | t :: r =>
    match item t with
    | some x =>
      let p := parseTracks item r
      ((optNames ts).1 :: p.1, x :: p.2.1, p.2.2)
    | none => ([(optNames ts).1], [], t :: r)
termination_by ts.length
decreasing_by
  have := optNames_length ts
  rw [h] at this
  simp at this
  omega

/-- `RepeatCount` (grid.rs:186-193). -/
inductive Count
  | number (n : Int)
  | autoFill
  | autoFit
deriving DecidableEq

/-- `TrackRepeat` (grid.rs:163-171). -/
structure Repeat where
  count : Count
  names : List (List Str)
  sizes : List Size
deriving DecidableEq

/-- `TrackListItem` (grid.rs:77-83). -/
inductive Item
  | size (s : Size)
  | rep (r : Repeat)
deriving DecidableEq

/-- `TrackList` (grid.rs:57-63). -/
structure TrackList where
  names : List (List Str)
  items : List Item
deriving DecidableEq

/-- `TrackSizing` (grid.rs:36-42). -/
inductive Sizing
  | none
  | list (l : TrackList)
deriving DecidableEq

/-- `RepeatCount::parse` (derived, grid.rs:177). -/
def parseCount : Tok → Option Count
  | .int n => some (.number n)
  | .ident s => if kw s cs!"auto-fill" then some .autoFill else if kw s cs!"auto-fit" then some .autoFit else none
  | _ => none

/-- `TrackRepeat::parse` (grid.rs:306-333); `parse_nested_block` requires that the block is used up. -/
def parseRepeat : Tok → Option Repeat
  | .func name (c :: .comma :: args) =>
    if kw name cs!"repeat" then
      (parseCount c).bind fun c =>
        match parseTracks parseSize args with
        | (ns, zs, []) => some ⟨c, ns, zs⟩
        | _ => none
    else none
  | _ => none

/-- One item of a track list (grid.rs:428-435). -/
def parseItem (t : Tok) : Option Item :=
  match parseSize t with
  | some s => some (.size s)
  | none => (parseRepeat t).map .rep

/-- `TrackList::parse` (grid.rs:419-444). -/
def parseTrackList (ts : List Tok) : Option (TrackList × List Tok) :=
  let p := parseTracks parseItem ts
  if p.2.1 = [] then none else some (⟨p.1, p.2.1⟩, p.2.2)

/-- `TrackSizing::parse` (derived, grid.rs:27; derive/src/parse.rs:83-88). -/
def parseSizing (ts : List Tok) : Option (Sizing × List Tok) :=
  match ts with
  | .ident s :: r =>
    if kw s cs!"none" then some (.none, r) else (parseTrackList ts).map fun p => (.list p.1, p.2)
  | _ => (parseTrackList ts).map fun p => (.list p.1, p.2)

/-- `serialize_line_names` under its `if !names.is_empty()` guard (grid.rs:381-396, 345-347, 460-462). -/
def printNames (ns : List Str) : List Tok := if ns = [] then [] else [.brack (ns.map .ident)]

/-- The printing loops of `TrackRepeat` and `TrackList` (grid.rs:341-362, 456-481). -/
def printTracks {α : Type} (item : α → Tok) : List (List Str) → List α → List Tok
  | [], _ => []
  | ns :: nss, [] => printNames ns ++ printTracks item nss []
  | ns :: nss, x :: xs => printNames ns ++ item x :: printTracks item nss xs

/-- `RepeatCount::to_css` (derived, grid.rs:177). -/
def printCount : Count → Tok
  | .number n => .int n
  | .autoFill => .ident cs!"auto-fill"
  | .autoFit => .ident cs!"auto-fit"

/-- `TrackListItem` inside `TrackList::to_css`, with `TrackRepeat::to_css` (grid.rs:335-366, 473-476). -/
def printItem : Item → Tok
  | .size s => printSize s
  | .rep r => .func cs!"repeat" (printCount r.count :: .comma :: printTracks printSize r.names r.sizes)

/-- `TrackList::to_css` (grid.rs:447-485). -/
def printTrackList (l : TrackList) : List Tok := printTracks printItem l.names l.items

/-- `TrackSizing::to_css` (derived, grid.rs:27). -/
def printSizing : Sizing → List Tok
  | .none => [.ident cs!"none"]
  | .list l => printTrackList l

/-- `TrackList::is_explicit`, `TrackSizing::is_explicit` (grid.rs:487-500). -/
def Item.explicit : Item → Bool
  | .size _ => true
  | .rep _ => false

/-- `TrackSizing::is_explicit` (grid.rs:493-500). -/
def Sizing.explicit : Sizing → Bool
  | .none => true
  | .list l => l.items.all Item.explicit

/-- The `while let` loop of `TrackSizeList::parse` (grid.rs:504-507). -/
def parseSizes : List Tok → List Size × List Tok
  | [] => ([], [])
  | t :: ts =>
    match parseSize t with
    | some s => (s :: (parseSizes ts).1, (parseSizes ts).2)
    | none => ([], t :: ts)

/-- `TrackSizeList::parse` (grid.rs:502-514): it never fails, and a lone `auto` becomes the empty list. -/
def parseSizeList (ts : List Tok) : List Size × List Tok :=
  let p := parseSizes ts
  if p.1 = [Size.default] then ([], p.2) else p

/-- `TrackSizeList::to_css` (grid.rs:516-534). -/
def printSizeList (l : List Size) : List Tok :=
  if l = [] then [.ident cs!"auto"] else l.map printSize

/-! ### `grid-template-areas` -/

/-- `HTML_SPACE_CHARACTERS` (grid.rs:627). -/
def isSpace (c : Char) : Bool := c = ' ' || c = '\t' || c = '\n' || c = '\x0c' || c = '\r'

/-- `is_name_code_point` (grid.rs:629-631). -/
def isName (c : Char) : Bool :=
  ('A' ≤ c && c ≤ 'Z') || ('a' ≤ c && c ≤ 'z') || 128 ≤ c.toNat || c = '_' || ('0' ≤ c && c ≤ '9') || c = '-'

theorem length_dropWhile_le {α : Type} (p : α → Bool) (l : List α) : (l.dropWhile p).length ≤ l.length := by
  induction l with
  | nil => simp
  | cons a l ih => by_cases h : p a <;> simp [h] <;> omega

/-- The loop of `GridTemplateAreas::parse_string` (grid.rs:591-621): the cells of the row, or none on an error. -/
def cellsOf (s : Str) : Option (List (Option Str)) :=
  match h : s.dropWhile isSpace with
  | [] => some []
  | c :: r =>
    if c = '.' then (cellsOf (r.dropWhile (· = '.'))).map (none :: ·)
    else if isName c then (cellsOf (r.dropWhile isName)).map (some (c :: r.takeWhile isName) :: ·)
    else none
termination_by s.length
decreasing_by
  all_goals
    have h1 := length_dropWhile_le isSpace s
    rw [h] at h1
    simp at h1
  · have h2 := length_dropWhile_le (fun c => decide (c = '.')) r
    omega
  · have h2 := length_dropWhile_le isName r
    omega

/-- `GridTemplateAreas::parse_string` (grid.rs:588-624): a string without any cell is an error. The number of
columns returned is the number of cells. -/
def parseString (s : Str) : Option (List (Option Str)) :=
  match cellsOf s with
  | some (c :: cs) => some (c :: cs)
  | _ => none

/-- `GridTemplateAreas` (grid.rs:547-558). -/
inductive Areas
  | none
  | areas (columns : Nat) (cells : List (Option Str))
deriving DecidableEq

/-- The loop of `GridTemplateAreas::parse` (grid.rs:566-583); `row`, `columns` and `cells` are its variables. -/
def parseAreasLoop (row columns : Nat) (cells : List (Option Str)) : List Tok → Option (Areas × List Tok)
  | .str s :: r =>
    match parseString s with
    | none => none
    | some cs =>
      if row = 0 then parseAreasLoop 1 cs.length (cells ++ cs) r
      else if cs.length ≠ columns then none
      else parseAreasLoop (row + 1) columns (cells ++ cs) r
  | ts => some (.areas columns cells, ts)

/-- `GridTemplateAreas::parse` (grid.rs:560-585). -/
def parseAreas (ts : List Tok) : Option (Areas × List Tok) :=
  match ts with
  | .ident s :: r => if kw s cs!"none" then some (.none, r) else parseAreasLoop 0 0 [] ts
  | _ => parseAreasLoop 0 0 [] ts

/-- The loop of `GridTemplateAreas::write_string` (grid.rs:690-709): `i` and `lastNull` are its variables, the
list is the cells that are still to come (`next` and the iterator), `n` the number of columns left. Returns the
decoded text between the quotes. -/
def rowText (minify : Bool) : Nat → Nat → Bool → List (Option Str) → Str
  | 0, _, _, _ => []
  | _ + 1, _, _, [] => []
  | n + 1, i, lastNull, some s :: cs =>
    (if i > 0 && (!lastNull || !minify) then [' '] else []) ++ s ++ rowText minify n (i + 1) false cs
  | n + 1, i, lastNull, none :: cs =>
    (if i > 0 && (lastNull || !minify) then [' '] else []) ++ '.' :: rowText minify n (i + 1) true cs

/-- One call of `write_string` (grid.rs:673-712). -/
def rowTok (minify : Bool) (columns : Nat) (cells : List (Option Str)) : Tok :=
  .str (rowText minify columns 0 false cells)

/-- The loop of `GridTemplateAreas::to_css` (grid.rs:641-663). With zero columns and some cells the loop would
not end; the model stops there (no parsed value has zero columns and a cell). -/
def printRows (minify : Bool) (columns : Nat) (cells : List (Option Str)) : List Tok :=
  match cells with
  | [] => []
  | c :: cs =>
    if columns = 0 then []
    else rowTok minify columns (c :: cs) :: printRows minify columns ((c :: cs).drop columns)
termination_by cells.length
decreasing_by simp; omega

/-- `GridTemplateAreas::to_css` (grid.rs:633-671). -/
def printAreas (minify : Bool) : Areas → List Tok
  | .none => [.ident cs!"none"]
  | .areas columns cells => printRows minify columns cells

/-! ### `grid-template` -/

/-- `GridTemplate` (grid.rs:723-731). -/
structure Template where
  rows : Sizing
  columns : Sizing
  areas : Areas
deriving DecidableEq

/-- The variables of the loop in `GridTemplate::parse` (grid.rs:746-750). -/
structure TmplState where
  names : List (List Str) := []
  items : List Item := []
  columns : Nat := 0
  row : Nat := 0
  cells : List (Option Str) := []

/-- `if let Some(last_names) = line_names.last_mut() { extend } else { push }` (grid.rs:754-758). -/
def extendLast : List (List Str) → List Str → List (List Str)
  | [], ns => [ns]
  | [l], ns => [l ++ ns]
  | l :: ls, ns => l :: extendLast ls ns

/-- Leading line names of a row (grid.rs:753-759). -/
def leadNames (st : TmplState) (ts : List Tok) : TmplState × List Tok :=
  match lineNames ts with
  | some (ns, r) => ({ st with names := extendLast st.names ns }, r)
  | none => (st, ts)

/-- `input.try_parse(TrackSize::parse).unwrap_or_default()` (grid.rs:773). -/
def optSize : List Tok → Size × List Tok
  | t :: r => match parseSize t with
    | some z => (z, r)
    | none => (Size.default, t :: r)
  | [] => (Size.default, [])

theorem leadNames_length (st : TmplState) (ts : List Tok) : (leadNames st ts).2.length ≤ ts.length := by
  unfold leadNames
  split
  · next ns r h => exact Nat.le_of_lt (lineNames_length h)
  · simp

theorem optSize_length (ts : List Tok) : (optSize ts).2.length ≤ ts.length := by
  unfold optSize
  split
  · split <;> simp
  · simp

/-- The loop of `GridTemplate::parse` (grid.rs:752-781). -/
def parseTmplLoop (st : TmplState) (ts : List Tok) : Option (TmplState × List Tok) :=
  match h : (leadNames st ts).2 with
  | .str s :: r =>
    match parseString s with
    | none => none
    | some cs =>
      if (leadNames st ts).1.row ≠ 0 ∧ cs.length ≠ (leadNames st ts).1.columns then none
      else
        parseTmplLoop
          { names := (leadNames st ts).1.names ++ [(optNames (optSize r).2).1]
            items := (leadNames st ts).1.items ++ [.size (optSize r).1]
            columns := if (leadNames st ts).1.row = 0 then cs.length else (leadNames st ts).1.columns
            row := (leadNames st ts).1.row + 1
            cells := (leadNames st ts).1.cells ++ cs }
          (optNames (optSize r).2).2
  | r => some ((leadNames st ts).1, r)
termination_by ts.length
decreasing_by
  have h1 := leadNames_length st ts
  rw [h] at h1
  have h2 := optSize_length r
  have h3 := optNames_length (optSize r).2
  simp at h1
  omega

/-- `expect_delim('/')`. -/
def slash : List Tok → Option (List Tok)
  | .slash :: r => some r
  | _ => none

/-- `GridTemplate::parse` (grid.rs:733-812). -/
def parseTemplate (ts : List Tok) : Option (Template × List Tok) :=
  match ts with
  | .ident s :: r =>
    if kw s cs!"none" then (if r.isEmpty then some (⟨.none, .none, .none⟩, []) else none) else body ts
  | _ => body ts
where
  /-- grid.rs:745-811. -/
  body (ts : List Tok) : Option (Template × List Tok) :=
    (parseTmplLoop {} ts).bind fun (st, r) =>
      if st.cells ≠ [] then
        let names := if st.names.length = st.items.length then st.names ++ [[]] else st.names
        match slash r with
        | some r' =>
          (parseTrackList r').bind fun (l, r'') =>
            if l.items.all Item.explicit then
              some (⟨.list ⟨names, st.items⟩, .list l, .areas st.columns st.cells⟩, r'')
            else none
        | none => some (⟨.list ⟨names, st.items⟩, .none, .areas st.columns st.cells⟩, r)
      else
        (parseSizing ts).bind fun (rows, r) =>
          (slash r).bind fun r => (parseSizing r).map fun (columns, r) => (⟨rows, columns, .none⟩, r)

/-- The line names before a row in `GridTemplate::to_css_with_indent` (grid.rs:861-881): without minification
exactly two names are written as two blocks. -/
def printLeadNames (minify : Bool) (ns : List Str) : List Tok :=
  match ns with
  | [a, b] => if minify then printNames [a, b] else printNames [a] ++ printNames [b]
  | ns => printNames ns

/-- The row sizes in `to_css_with_indent` (grid.rs:885-893): `auto` is left out. `none` stands for the
`unreachable!()`. -/
def printRowSize : List Item → Option (List Tok)
  | [] => some []
  | .size z :: _ => some (if z = Size.default then [] else [printSize z])
  | .rep _ :: _ => none

/-- The loop of `to_css_with_indent` (grid.rs:846-903), followed by the trailing line names; `none` is a panic. -/
def printTmplRows (minify : Bool) (columns : Nat) (names : List (List Str)) (items : List Item) (cells : List (Option Str)) :
    Option (List Tok) :=
  match cells with
  | [] => some (match names with | [] => [] | ns :: _ => printNames ns)
  | c :: cs =>
    if columns = 0 then none
    else
      (printRowSize items).bind fun z =>
        (printTmplRows minify columns names.tail items.tail ((c :: cs).drop columns)).map fun r =>
          (match names with | [] => [] | ns :: _ => printLeadNames minify ns) ++ rowTok minify columns (c :: cs) :: z ++ r
termination_by cells.length
decreasing_by simp; omega

/-- `GridTemplate::to_css_with_indent` (grid.rs:823-913); `none` is a panic (`unreachable!()`). -/
def printTemplate (minify : Bool) (t : Template) : Option (List Tok) :=
  match t.areas with
  | .none =>
    if t.rows = .none ∧ t.columns = .none then some [.ident cs!"none"]
    else some (printSizing t.rows ++ .slash :: printSizing t.columns)
  | .areas columns cells =>
    match t.rows with
    | .none => none
    | .list l =>
      (printTmplRows minify columns l.names l.items cells).map fun r =>
        r ++ match t.columns with
          | .none => []
          | .list c => .slash :: printTrackList c

/-- `GridTemplate::is_valid` (grid.rs:916-923). -/
def Template.valid (rows columns : Sizing) (areas : Areas) : Bool :=
  areas = .none || (rows ≠ .none && rows.explicit && columns.explicit)

/-! ### `grid-auto-flow` and `grid` -/

/-- `GridAutoFlow` (grid.rs:948-956): the two flags. -/
structure Flow where
  column : Bool
  dense : Bool
deriving DecidableEq

/-- `GridAutoFlow::default` (grid.rs:1019-1023). -/
def Flow.default : Flow := ⟨false, false⟩

/-- `GridAutoFlow::parse` (grid.rs:1031-1079). After `dense`, one of `row` and `column` must follow: the error of
the inner `try_parse` is returned by the `?`. -/
def parseFlow : List Tok → Option (Flow × List Tok)
  | .ident s :: r =>
    if kw s cs!"row" then some (dense false r)
    else if kw s cs!"column" then some (dense true r)
    else if kw s cs!"dense" then
      match r with
      | .ident d :: r' =>
        if kw d cs!"row" then some (⟨false, true⟩, r') else if kw d cs!"column" then some (⟨true, true⟩, r') else none
      | _ => none
    else none
  | _ => none
where
  /-- `match_dense!` (grid.rs:1035-1041). -/
  dense (column : Bool) (r : List Tok) : Flow × List Tok :=
    match r with
    | .ident d :: r' => if kw d cs!"dense" then (⟨column, true⟩, r') else (⟨column, false⟩, r)
    | _ => (⟨column, false⟩, r)

/-- `GridAutoFlow::to_css` (grid.rs:1081-1105). -/
def printFlow (minify : Bool) (f : Flow) : List Tok :=
  match f with
  | ⟨false, false⟩ => [.ident cs!"row"]
  | ⟨true, false⟩ => [.ident cs!"column"]
  | ⟨false, true⟩ => if minify then [.ident cs!"dense"] else [.ident cs!"row", .ident cs!"dense"]
  | ⟨true, true⟩ => [.ident cs!"column", .ident cs!"dense"]

/-- `Grid` (grid.rs:1121-1135). -/
structure GridV where
  rows : Sizing
  columns : Sizing
  areas : Areas
  autoRows : List Size
  autoColumns : List Size
  flow : Flow
deriving DecidableEq

/-- `parse_grid_auto_flow` (grid.rs:1184-1201). -/
def parseAutoFlow (column : Bool) : List Tok → Option (Flow × List Tok)
  | .ident s :: r =>
    if kw s cs!"auto-flow" then
      match r with
      | .ident d :: r' => if kw d cs!"dense" then some (⟨column, true⟩, r') else some (⟨column, false⟩, r)
      | _ => some (⟨column, false⟩, r)
    else if kw s cs!"dense" then
      match r with
      | .ident d :: r' => if kw d cs!"auto-flow" then some (⟨column, true⟩, r') else none
      | _ => none
    else none
  | _ => none

/-- `Grid::parse` (grid.rs:1137-1182). -/
def parseGrid (ts : List Tok) : Option (GridV × List Tok) :=
  match parseTemplate ts with
  | some (t, r) => some (⟨t.rows, t.columns, t.areas, [], [], .default⟩, r)
  | none =>
    match parseSizing ts with
    | some (rows, r) =>
      (slash r).bind fun r =>
        (parseAutoFlow true r).map fun (flow, r) =>
          (⟨rows, .none, .none, [], (parseSizeList r).1, flow⟩, (parseSizeList r).2)
    | none =>
      (parseAutoFlow false ts).bind fun (flow, r) =>
        (slash (parseSizeList r).2).bind fun r' =>
          (parseSizing r').map fun (columns, r'') => (⟨.none, columns, .none, (parseSizeList r).1, [], flow⟩, r'')

/-- `auto-flow dense?` followed by the track sizes if they are not initial (grid.rs:1216-1223, 1236-1243). -/
def printAutoFlow (dense : Bool) (sizes : List Size) : List Tok :=
  .ident cs!"auto-flow" :: (if dense then [.ident cs!"dense"] else []) ++ (if sizes = [] then [] else printSizeList sizes)

/-- `Grid::to_css` (grid.rs:1203-1297); `none` is a panic (`unreachable!`). -/
def printGrid (minify : Bool) (g : GridV) : Option (List Tok) :=
  let initial := g.autoRows = [] ∧ g.autoColumns = [] ∧ g.flow = Flow.default
  if g.areas ≠ .none ∧ g.rows = .none then
    some (printAutoFlow g.flow.dense g.autoRows ++ .slash :: printSizing g.columns)
  else if g.areas ≠ .none ∧ g.columns = .none ∧ g.flow.column = true then
    some (printSizing g.rows ++ .slash :: printAutoFlow g.flow.dense g.autoColumns)
  else if g.areas ≠ .none ∨ (g.rows ≠ .none ∧ g.columns ≠ .none) ∨ (g.areas = .none ∧ initial) then
    if initial then printTemplate minify ⟨g.rows, g.columns, g.areas⟩ else none
  else if g.flow.column = true then
    if g.columns ≠ .none ∨ g.autoRows ≠ [] then none
    else some (printSizing g.rows ++ .slash :: printAutoFlow g.flow.dense g.autoColumns)
  else if g.rows ≠ .none ∨ g.autoColumns ≠ [] then none
  else some (printAutoFlow g.flow.dense g.autoRows ++ .slash :: printSizing g.columns)

/-- `Grid::is_valid` (grid.rs:1299-1339). -/
def GridV.valid (rows columns : Sizing) (areas : Areas) (autoRows autoColumns : List Size) (flow : Flow) : Bool :=
  if areas ≠ .none ∧ rows = .none then !flow.column
  else
    (Template.valid rows columns areas && (autoRows = [] && autoColumns = [] && flow = Flow.default)) ||
      (!flow.column && rows = .none && autoColumns = []) ||
      (flow.column && columns = .none && autoRows = [])

/-! ### `grid-row-start` and the other placement properties -/

/-- `GridLine` (grid.rs:1358-1382). -/
inductive Line
  | auto
  | area (name : Str)
  | line (index : Int) (name : Option Str)
  | span (index : Int) (name : Option Str)
deriving DecidableEq

/-- `input.try_parse(CSSInteger::parse)`. -/
def optInt : List Tok → Option (Int × List Tok)
  | .int n :: r => some (n, r)
  | _ => none

/-- `input.try_parse(CustomIdent::parse)`. -/
def optIdent : List Tok → Option (Str × List Tok)
  | t :: r => (customIdent t).map fun s => (s, r)
  | [] => none

/-- `input.try_parse(CustomIdent::parse).ok()`. -/
def maybeIdent (r : List Tok) : Option Str × List Tok :=
  match optIdent r with
  | some (s, r') => (some s, r')
  | none => (none, r)

/-- `GridLine::parse` after `auto` and `span` have been tried (grid.rs:1411-1432). -/
def parseLineRest (ts : List Tok) : Option (Line × List Tok) :=
  match optInt ts with
  | some (n, r) => if n = 0 then none else some (.line n (maybeIdent r).1, (maybeIdent r).2)
  | none =>
    (optIdent ts).bind fun (s, r) =>
      match optInt r with
      | some (n, r') => if n = 0 then none else some (.line n (some s), r')
      | none => some (.area s, r)

/-- The `span` branch of `GridLine::parse` (grid.rs:1391-1409). -/
def parseSpan (ts : List Tok) : Option (Line × List Tok) :=
  match optInt ts with
  | some (n, r) => if n = 0 then none else some (.span n (maybeIdent r).1, (maybeIdent r).2)
  | none =>
    (optIdent ts).bind fun (s, r) =>
      match optInt r with
      | some (n, r') => if n = 0 then none else some (.span n (some s), r')
      | none => some (.span 1 (some s), r)

/-- `GridLine::parse` (grid.rs:1384-1434). -/
def parseLine (ts : List Tok) : Option (Line × List Tok) :=
  match ts with
  | .ident s :: r => if kw s cs!"auto" then some (.auto, r) else if kw s cs!"span" then parseSpan r else parseLineRest ts
  | _ => parseLineRest ts

/-- `GridLine::to_css` (grid.rs:1436-1466). -/
def printLine : Line → List Tok
  | .auto => [.ident cs!"auto"]
  | .area s => [.ident s]
  | .line n name => .int n :: (match name with | some s => [.ident s] | none => [])
  | .span n name =>
    .ident cs!"span" :: (if n ≠ 1 || name.isNone then [.int n] else []) ++ (match name with | some s => [.ident s] | none => [])

/-- `GridLine::default_end_value` (grid.rs:1469-1475). -/
def Line.defaultEnd : Line → Line
  | .area s => .area s
  | _ => .auto

/-- `GridLine::can_omit_end` (grid.rs:1477-1485). -/
def Line.canOmitEnd (start stop : Line) : Bool :=
  match start with
  | .area s => stop = .area s
  | _ => stop = .auto

/-- `GridRow::parse`, `GridColumn::parse` (`impl_grid_placement!`, grid.rs:1490-1502). -/
def parsePlacement (ts : List Tok) : Option ((Line × Line) × List Tok) :=
  (parseLine ts).bind fun (a, r) =>
    match slash r with
    | some r' => (parseLine r').map fun (b, r'') => ((a, b), r'')
    | none => some ((a, a.defaultEnd), r)

/-- `GridRow::to_css`, `GridColumn::to_css` (grid.rs:1504-1518). -/
def printPlacement (a b : Line) : List Tok :=
  printLine a ++ (if a.canOmitEnd b then [] else .slash :: printLine b)

/-- `GridArea` (grid.rs:1554-1565). -/
structure Area where
  rowStart : Line
  columnStart : Line
  rowEnd : Line
  columnEnd : Line
deriving DecidableEq

/-- `GridArea::parse` (grid.rs:1567-1617). -/
def parseArea (ts : List Tok) : Option (Area × List Tok) :=
  (parseLine ts).bind fun (rs, r) =>
    match slash r with
    | none => some (⟨rs, rs.defaultEnd, rs.defaultEnd, rs.defaultEnd⟩, r)
    | some r =>
      (parseLine r).bind fun (cs, r) =>
        match slash r with
        | none => some (⟨rs, cs, rs.defaultEnd, cs.defaultEnd⟩, r)
        | some r =>
          (parseLine r).bind fun (re, r) =>
            match slash r with
            | none => some (⟨rs, cs, re, cs.defaultEnd⟩, r)
            | some r => (parseLine r).map fun (ce, r) => (⟨rs, cs, re, ce⟩, r)

/-- `GridArea::to_css` (grid.rs:1619-1648). -/
def printArea (a : Area) : List Tok :=
  let omitCE := a.columnStart.canOmitEnd a.columnEnd
  let omitRE := omitCE && a.rowStart.canOmitEnd a.rowEnd
  let omitCS := omitRE && a.rowStart.canOmitEnd a.columnStart
  printLine a.rowStart ++ (if omitCS then [] else .slash :: printLine a.columnStart) ++
    (if omitRE then [] else .slash :: printLine a.rowEnd) ++ (if omitCE then [] else .slash :: printLine a.columnEnd)

end Verif.Grid
