import Verif.Targets.Model
import Verif.Common.Chars
/-!
# `display` and `overflow` (`/repo/src/properties/display.rs`, `/repo/src/properties/overflow.rs`)

Values are lists of identifiers (any other token is an error in all parsers here).
-/
namespace Verif.Display
open Verif.Targets

/-- `DisplayOutside` (src/properties/display.rs:17-25). -/
inductive Outside
  | block | inline | runIn
deriving DecidableEq

/-- `DisplayInside` (src/properties/display.rs:36-44). A value has one prefix. -/
inductive Inside
  | flow | flowRoot | table
  | flex (p : Prefix)
  | box (p : Prefix)
  | grid | ruby
deriving DecidableEq

/-- `DisplayPair` (src/properties/display.rs:119-126). -/
structure Pair where
  outside : Outside
  inside : Inside
  listItem : Bool
deriving DecidableEq

/-- `DisplayKeyword` (src/properties/display.rs:308-330); `noBox` is `none`. -/
inductive Kw
  | noBox | contents | tableRowGroup | tableHeaderGroup | tableFooterGroup | tableRow | tableCell | tableColumnGroup | tableColumn
  | tableCaption | rubyBase | rubyText | rubyBaseContainer | rubyTextContainer
deriving DecidableEq

/-- `Display` (src/properties/display.rs:342-351). -/
inductive Display
  | keyword (k : Kw)
  | pair (p : Pair)
deriving DecidableEq

/-- `match_ignore_ascii_case!`, `expect_ident_matching`. -/
def ci (s lit : Str) : Bool := s.map Char.toLower = lit

/-- The derived `Parse` of `DisplayOutside` (src/properties/display.rs:17-25, src/macros.rs:1-35). -/
def Outside.parse (s : Str) : Option Outside :=
  if ci s cs!"block" then some .block
  else if ci s cs!"inline" then some .inline
  else if ci s cs!"run-in" then some .runIn
  else none

/-- `DisplayInside::parse` (src/properties/display.rs:46-66). -/
def Inside.parse (s : Str) : Option Inside :=
  if ci s cs!"flow" then some .flow
  else if ci s cs!"flow-root" then some .flowRoot
  else if ci s cs!"table" then some .table
  else if ci s cs!"flex" then some (.flex .none)
  else if ci s cs!"-webkit-flex" then some (.flex .webkit)
  else if ci s cs!"-ms-flexbox" then some (.flex .ms)
  else if ci s cs!"-webkit-box" then some (.box .webkit)
  else if ci s cs!"-moz-box" then some (.box .moz)
  else if ci s cs!"grid" then some .grid
  else if ci s cs!"ruby" then some .ruby
  else none

/-- The derived `Parse` of `DisplayKeyword` (src/properties/display.rs:308-330): names in kebab case. -/
def Kw.parse (s : Str) : Option Kw :=
  if ci s cs!"none" then some .noBox
  else if ci s cs!"contents" then some .contents
  else if ci s cs!"table-row-group" then some .tableRowGroup
  else if ci s cs!"table-header-group" then some .tableHeaderGroup
  else if ci s cs!"table-footer-group" then some .tableFooterGroup
  else if ci s cs!"table-row" then some .tableRow
  else if ci s cs!"table-cell" then some .tableCell
  else if ci s cs!"table-column-group" then some .tableColumnGroup
  else if ci s cs!"table-column" then some .tableColumn
  else if ci s cs!"table-caption" then some .tableCaption
  else if ci s cs!"ruby-base" then some .rubyBase
  else if ci s cs!"ruby-text" then some .rubyText
  else if ci s cs!"ruby-base-container" then some .rubyBaseContainer
  else if ci s cs!"ruby-text-container" then some .rubyTextContainer
  else none

/-- What the loop of `DisplayPair::parse` has found. -/
structure Found where
  listItem : Bool := false
  outside : Option Outside := none
  inside : Option Inside := none

/-- The loop (src/properties/display.rs:134-154): what was found and the tokens that are left. -/
def loop (f : Found) : List Str → Found × List Str
  | [] => (f, [])
  | t :: ts =>
    if ci t cs!"list-item" then loop { f with listItem := true } ts
    else match f.outside, Outside.parse t with
      | none, some o => loop { f with outside := some o } ts
      | _, _ => match f.inside, Inside.parse t with
        | none, some i => loop { f with inside := some i } ts
        | _, _ => (f, t :: ts)

/-- The outside display type if there is none (src/properties/display.rs:158-164). -/
def defaultOutside : Inside → Outside
  | .ruby => .inline
  | _ => .block

/-- The legacy keywords (src/properties/display.rs:180-224). -/
def legacy (s : Str) : Option Pair :=
  if ci s cs!"inline-block" then some ⟨.inline, .flowRoot, false⟩
  else if ci s cs!"inline-table" then some ⟨.inline, .table, false⟩
  else if ci s cs!"inline-flex" then some ⟨.inline, .flex .none, false⟩
  else if ci s cs!"-webkit-inline-flex" then some ⟨.inline, .flex .webkit, false⟩
  else if ci s cs!"-ms-inline-flexbox" then some ⟨.inline, .flex .ms, false⟩
  else if ci s cs!"-webkit-inline-box" then some ⟨.inline, .box .webkit, false⟩
  else if ci s cs!"-moz-inline-box" then some ⟨.inline, .box .moz, false⟩
  else if ci s cs!"inline-grid" then some ⟨.inline, .grid, false⟩
  else none

/-- `DisplayPair::parse` (src/properties/display.rs:128-228) on a whole value: tokens that are left over make the declaration invalid. -/
def Pair.parse (ts : List Str) : Option Pair :=
  let (f, rest) := loop {} ts
  if f.listItem || f.inside.isSome || f.outside.isSome then
    let inside := f.inside.getD .flow
    let outside := f.outside.getD (defaultOutside inside)
    if f.listItem && !(inside = .flow || inside = .flowRoot) then none
    else if rest = [] then some ⟨outside, inside, f.listItem⟩ else none
  else match rest with
    | [t] => legacy t
    | _ => none

/-- The derived `Parse` of `Display` (src/properties/display.rs:342-351): a keyword or a pair. -/
def Display.parse (ts : List Str) : Option Display :=
  match ts with
  | [] => none
  | t :: rest => match Kw.parse t with
    | some k => if rest = [] then some (.keyword k) else none
    | none => (Pair.parse ts).map .pair

/-- `VendorPrefix::to_css` (src/vendor_prefix.rs:60-76). -/
def prefixText : Prefix → Str
  | .none => []
  | .webkit => cs!"-webkit-"
  | .moz => cs!"-moz-"
  | .ms => cs!"-ms-"
  | .o => cs!"-o-"

/-- The names of `DisplayOutside` (src/macros.rs:24-34). -/
def Outside.print : Outside → Str
  | .block => cs!"block"
  | .inline => cs!"inline"
  | .runIn => cs!"run-in"

/-- `DisplayInside::to_css` (src/properties/display.rs:68-93). -/
def Inside.print : Inside → Str
  | .flow => cs!"flow"
  | .flowRoot => cs!"flow-root"
  | .table => cs!"table"
  | .flex p => prefixText p ++ (if p = .ms then cs!"flexbox" else cs!"flex")
  | .box p => prefixText p ++ cs!"box"
  | .grid => cs!"grid"
  | .ruby => cs!"ruby"

/-- `DisplayPair::to_css` (src/properties/display.rs:230-306): the words. -/
def Pair.print : Pair → List Str
  | ⟨.inline, .flowRoot, false⟩ => [cs!"inline-block"]
  | ⟨.inline, .table, false⟩ => [cs!"inline-table"]
  | ⟨.inline, .flex p, false⟩ => [prefixText p ++ (if p = .ms then cs!"inline-flexbox" else cs!"inline-flex")]
  | ⟨.inline, .box p, false⟩ => [prefixText p ++ cs!"inline-box"]
  | ⟨.inline, .grid, false⟩ => [cs!"inline-grid"]
  | ⟨o, i, li⟩ =>
    (if o ≠ defaultOutside i || (i = .flow && !li) then [o.print] else []) ++ (if i ≠ .flow then [i.print] else []) ++ (if li then [cs!"list-item"] else [])

/-- The names of `DisplayKeyword`. -/
def Kw.print : Kw → Str
  | .noBox => cs!"none"
  | .contents => cs!"contents"
  | .tableRowGroup => cs!"table-row-group"
  | .tableHeaderGroup => cs!"table-header-group"
  | .tableFooterGroup => cs!"table-footer-group"
  | .tableRow => cs!"table-row"
  | .tableCell => cs!"table-cell"
  | .tableColumnGroup => cs!"table-column-group"
  | .tableColumn => cs!"table-column"
  | .tableCaption => cs!"table-caption"
  | .rubyBase => cs!"ruby-base"
  | .rubyText => cs!"ruby-text"
  | .rubyBaseContainer => cs!"ruby-base-container"
  | .rubyTextContainer => cs!"ruby-text-container"

/-- The derived `ToCss` of `Display`. -/
def Display.print : Display → List Str
  | .keyword k => [k.print]
  | .pair p => p.print

/-! ### `DisplayHandler` -/

/-- `DisplayInside::is_equivalent` (src/properties/display.rs:95-105). -/
def Inside.equiv : Inside → Inside → Bool
  | .flex _, .flex _ => true
  | .box _, .box _ => true
  | .flex _, .box _ => true
  | .box _, .flex _ => true
  | a, b => a = b

/-- A declaration; an unparsed one is its text. -/
inductive Decl
  | display (d : Display)
  | unparsed (text : Str)
deriving DecidableEq

/-- `DisplayHandler` (src/properties/display.rs:365-369). -/
structure Handler where
  decls : List Decl := []
  display : Option Display := none

/-- The values written for an unprefixed `flex` before it (src/properties/display.rs:431-470). -/
def flexPrefixes (t : Targets) (o : Outside) : List Decl :=
  let ps := t.prefixes Prefix.none.set .displayFlex
  (match t.browsers with
    | some br => if isFlex2009 br then
        (if ps.has .webkit then [.display (.pair ⟨o, .box .webkit, false⟩)] else []) ++ (if ps.has .moz then [.display (.pair ⟨o, .box .moz, false⟩)] else [])
      else []
    | none => []) ++
  (if ps.has .webkit then [.display (.pair ⟨o, .flex .webkit, false⟩)] else []) ++ (if ps.has .ms then [.display (.pair ⟨o, .flex .ms, false⟩)] else [])

/-- The test for unprefixed `flex` (src/properties/display.rs:429-435). -/
def before (t : Targets) : Display → List Decl
  | .pair ⟨o, .flex .none, _⟩ => flexPrefixes t o
  | _ => []

/-- `finalize` (src/properties/display.rs:421-474). -/
def finalize (t : Targets) (s : Handler × List Decl) : Handler × List Decl :=
  match s.1.display with
  | none => s
  | some d =>
    ({}, s.2 ++ s.1.decls ++ before t d ++ [.display d])

/-- `handle_property` (src/properties/display.rs:371-419). -/
def handle (t : Targets) (s : Handler × List Decl) : Decl → Handler × List Decl
  | .display new =>
    let decls := match s.1.display, new with
      | some (.pair cur), .pair n =>
        if cur.outside = n.outside ∧ cur.listItem = n.listItem ∧ cur.inside ≠ n.inside ∧ cur.inside.equiv n.inside = true then
          if t.browsers.isSome ∧ n.inside = .flex .none then []
          else if t.browsers.isNone ∨ cur.inside ≠ .flex .none then s.1.decls ++ [.display (.pair cur)]
          else s.1.decls
        else s.1.decls
      | _, _ => s.1.decls
    (⟨decls, some new⟩, s.2)
  | .unparsed text =>
    let s := finalize t s
    (s.1, s.2 ++ [.unparsed text])

/-- The handler over one block. -/
def run (t : Targets) (ds : List Decl) : Handler × List Decl := finalize t (ds.foldl (handle t) ({}, []))

/-! ### `overflow` -/

/-- `OverflowKeyword` (src/properties/overflow.rs:15-30). -/
inductive OKw
  | visible | hidden | clip | scroll | auto
deriving DecidableEq

/-- The derived `Parse` of `OverflowKeyword`. -/
def OKw.parse (s : Str) : Option OKw :=
  if ci s cs!"visible" then some .visible
  else if ci s cs!"hidden" then some .hidden
  else if ci s cs!"clip" then some .clip
  else if ci s cs!"scroll" then some .scroll
  else if ci s cs!"auto" then some .auto
  else none

/-- The names of `OverflowKeyword`. -/
def OKw.print : OKw → Str
  | .visible => cs!"visible"
  | .hidden => cs!"hidden"
  | .clip => cs!"clip"
  | .scroll => cs!"scroll"
  | .auto => cs!"auto"

/-- `Overflow::parse` (src/properties/overflow.rs:42-48) on a whole value. -/
def Overflow.parse : List Str → Option (OKw × OKw)
  | [] => none
  | t :: ts => do
    let x ← OKw.parse t
    match ts with
    | [] => some (x, x)
    | u :: us => match OKw.parse u with
      | some y => if us = [] then some (x, y) else none
      | none => none

/-- `Overflow::to_css` (src/properties/overflow.rs:50-62): the words. -/
def Overflow.print (v : OKw × OKw) : List Str := v.1.print :: (if v.2 ≠ v.1 then [v.2.print] else [])

/-- The three properties; an unparsed one is its text. -/
inductive ODecl
  | x (v : OKw)
  | y (v : OKw)
  | both (x y : OKw)
  | rawX (text : Str)
  | rawY (text : Str)
  | rawBoth (text : Str)
deriving DecidableEq

/-- `OverflowHandler` (src/properties/overflow.rs:74-78). -/
structure OHandler where
  x : Option OKw := none
  y : Option OKw := none

/-- `finalize` (src/properties/overflow.rs:111-135). -/
def ofinalize (t : Targets) (s : OHandler × List ODecl) : OHandler × List ODecl :=
  let out : List ODecl := match s.1.x, s.1.y with
    | some x, some y => if x = y || t.isCompatible .overflowShorthand then [.both x y] else [.x x, .y y]
    | some x, none => [.x x]
    | none, some y => [.y y]
    | none, none => []
  ({}, s.2 ++ out)

/-- `handle_property` (src/properties/overflow.rs:80-109). -/
def ohandle (t : Targets) (s : OHandler × List ODecl) : ODecl → OHandler × List ODecl
  | .x v => ({ s.1 with x := some v }, s.2)
  | .y v => ({ s.1 with y := some v }, s.2)
  | .both x y => (⟨some x, some y⟩, s.2)
  | d => let s := ofinalize t s; (s.1, s.2 ++ [d])

/-- The handler over one block. -/
def orun (t : Targets) (ds : List ODecl) : OHandler × List ODecl := ofinalize t (ds.foldl (ohandle t) ({}, []))

end Verif.Display
