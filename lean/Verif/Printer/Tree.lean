import Mathlib.Tactic.Common
/-!
Model of the serialisation of rule lists: src/rules/mod.rs `CssRuleList::to_css`, src/rules/style.rs `StyleRule::to_css`, the
nested at-rules and src/declaration.rs `to_css_declarations`.

Selectors, declarations and the preludes of at-rules are opaque numbers; what is modelled is everything around them: braces,
semicolons, line breaks, indentation, the order of the parts, the selector context used when nesting is compiled, and the vendor
prefix override. `@nest` (src/rules/nesting.rs:43-55), unknown and custom at-rules are not modelled.
-/
namespace Verif.Printer

/-- What precedes an opening brace. -/
inductive Prelude
  /-- A selector list printed with the given enclosing selectors substituted for `&`, under a vendor prefix override (0 if none). -/
  | sel (ctx : List Nat) (s : Nat) (vp : Nat)
  /-- A nested at-rule. -/
  | at (n : Nat)
  /-- `@media all`, or any other query that always matches. -/
  | all
  /-- `@scope`, whose limits are printed with the enclosing selectors. -/
  | scope (n : Nat) (ctx : List Nat)
  /-- An at-rule (or keyframe) to which the enclosing selectors do not matter, such as `@font-face`. -/
  | leaf (n : Nat)
deriving DecidableEq, Repr

/-- The tokens of the output at the level of rules and declarations. -/
inductive Tok
  | open (p : Prelude)
  | close
  | decl (d : Nat) (important : Bool)
  | semi
  | stmt (n : Nat)
deriving DecidableEq, Repr

/-- The declarations of a `DeclarationBlock` in printing order, with their importance; `none` is a CSS modules `composes`
declaration, which is not printed (src/declaration.rs:202-217; the printer of CSS modules is assumed, as `composes` is only parsed
then). -/
abbrev Decls := List (Option Nat × Bool)

/-- src/rules/mod.rs:122-186 `CssRule`. -/
inductive Rule
  /-- src/rules/style.rs:34-59; `vps` are the prefixes in `vendor_prefix`. -/
  | style (s : Nat) (vps : List Nat) (decls : Decls) (rules : List Rule)
  /-- src/rules/nesting.rs:63-70. -/
  | nested (decls : Decls)
  /-- `@media`, `@supports`, `@layer`, `@container`, `@starting-style`, `@-moz-document` with a block. -/
  | block (n : Nat) (rules : List Rule)
  /-- `@media` with a query list for which `always_matches` answers true. -/
  | mediaAll (rules : List Rule)
  | scope (n : Nat) (rules : List Rule)
  /-- An at-rule statement; `flat` for `@namespace` and `@layer a, b;`. -/
  | stmt (n : Nat) (flat : Bool)
  | importRule (n : Nat)
  /-- `@font-face`, `@font-palette-values`, `@property`, `@view-transition`: a list of descriptors. -/
  | font (n : Nat) (props : List Nat)
  /-- `@counter-style`, `@viewport`: a block printed with `to_css_block`. -/
  | declBlock (n : Nat) (decls : Decls)
  /-- `@page` with its declarations and margin rules. -/
  | page (n : Nat) (decls : List (Nat × Bool)) (margins : List (Nat × Decls))
  /-- `@keyframes`, once per vendor prefix. -/
  | keyframes (names : List Nat) (frames : List (Nat × Decls))
  | ignored
deriving Repr

/-- The options of the printer: `minify`, whether the targets need nesting compiled (`should_compile!(…, Nesting)`, which does not change
while printing since no `@supports` condition implies `Nesting`, src/rules/supports.rs:171-191), and whether `@import` rules are
removed (src/rules/mod.rs:1035-1049). -/
structure Opts where
  minify : Bool
  compile : Bool
  removeImports : Bool := false
deriving DecidableEq, Repr

/-- What the serialisers ask of the printer. `openSel`/`open` stand for the prelude, the optional space and the brace; `rawnl` for
`if !dest.minify { dest.write_char('\n') }`; `vp` for the assignment of `dest.vendor_prefix`. -/
inductive Op
  | openSel (ctx : List Nat) (s : Nat)
  | tok (t : Tok)
  | nl
  | rawnl
  | indent
  | dedent
  | vp (p : Nat)
deriving DecidableEq, Repr

/-- src/declaration.rs:199-229 the loops of `to_css_declarations`. -/
def declOps (o : Opts) (hasNested : Bool) (len : Nat) : Nat → Decls → List Op
  | _, [] => []
  | i, (none, _) :: ds => declOps o hasNested len i ds
  | i, (some d, imp) :: ds =>
    (if i > 0 then [.nl] else []) ++ .tok (.decl d imp) :: ((if i ≠ len - 1 ∨ !o.minify ∨ hasNested then [.tok .semi] else []) ++
      declOps o hasNested len (i + 1) ds)

/-- src/declaration.rs:186-232 `to_css_declarations`. -/
def toCssDeclarations (o : Opts) (hasNested : Bool) (ds : Decls) : List Op := declOps o hasNested ds.length 0 ds

/-- src/declaration.rs:155-169 `to_css_block` after the prelude. -/
def toCssBlock (o : Opts) (p : Prelude) (ds : Decls) : List Op :=
  [.tok (.open p), .indent, .nl] ++ toCssDeclarations o false ds ++ [.dedent, .nl, .tok .close]

/-- src/declaration.rs:171-183 `has_printable_declarations`. -/
def hasPrintable (ds : Decls) : Bool :=
  if ds.length > 1 then true else if ds.length = 1 then ds.all (·.1.isSome) else false

/-- src/rules/font_face.rs:521-529 the loop over the descriptors. -/
def fontOps (o : Opts) (len : Nat) : Nat → List Nat → List Op
  | _, [] => []
  | i, d :: ds =>
    [.nl, .tok (.decl d false)] ++ (if i ≠ len - 1 ∨ !o.minify then [.tok .semi] else []) ++ fontOps o len (i + 1) ds

/-- src/rules/page.rs:242-255 the loops over the declarations of `@page`. -/
def pageDecls (o : Opts) (len : Nat) : Nat → List (Nat × Bool) → List Op
  | _, [] => []
  | i, (d, imp) :: ds =>
    [.nl, .tok (.decl d imp)] ++ (if i ≠ len - 1 ∨ !o.minify then [.tok .semi] else []) ++ pageDecls o len (i + 1) ds

/-- src/rules/page.rs:263-275 the loop over the margin rules. -/
def marginOps (o : Opts) : Bool → List (Nat × Decls) → List Op
  | _, [] => []
  | first, (n, ds) :: ms => (if first then [] else [.rawnl, .nl]) ++ toCssBlock o (.leaf n) ds ++ marginOps o false ms

/-- src/rules/keyframes.rs:244-254 the loop over the keyframes. -/
def frameOps (o : Opts) : Bool → List (Nat × Decls) → List Op
  | _, [] => []
  | first, (n, ds) :: fs => (if first then [] else [.rawnl]) ++ [.nl] ++ toCssBlock o (.leaf n) ds ++ frameOps o false fs

/-- src/rules/keyframes.rs:225-265 `write_prefix!` for each prefix. -/
def keyframesOps (o : Opts) (frames : List (Nat × Decls)) : Bool → List Nat → List Op
  | _, [] => []
  | first, n :: names =>
    (if first then [] else [.rawnl, .nl]) ++ [.tok (.open (.leaf n)), .indent] ++ frameOps o true frames ++ [.dedent, .nl, .tok .close] ++
      keyframesOps o frames false names

/-- src/rules/style.rs:243-303 `to_css_base`, given how the nested rules are printed in a context. -/
def styleBase (o : Opts) (ctx : List Nat) (s : Nat) (ds : Decls) (empty : Bool) (inner : List Nat → List Op) : List Op :=
  let supportsNesting := empty || !o.compile
  let len := ds.length
  let hasDeclarations := supportsNesting || 0 < len || empty
  let start : List Op :=
    if hasDeclarations then
      [.openSel ctx s, .indent] ++ (if 0 < len then [.nl] else []) ++ toCssDeclarations o (supportsNesting && !empty) ds
    else []
  let newline : List Op :=
    if !o.minify && (supportsNesting || 0 < len) && !empty then (if 0 < len then [.rawnl] else []) ++ [.nl] else []
  let finish : List Op := if hasDeclarations then [.dedent, .nl, .tok .close] else []
  if supportsNesting then start ++ newline ++ inner ctx ++ finish
  else start ++ finish ++ newline ++ inner (ctx ++ [s])

/-- src/rules/style.rs:218-238 the loop over the prefixes in `StyleRule::to_css`. -/
def prefixOps (base : List Op) : Bool → List Nat → List Op
  | _, [] => [.vp 0]
  | first, p :: ps => (if first then [] else [.rawnl, .nl]) ++ .vp p :: base ++ prefixOps base false ps

/-- src/rules/mod.rs:1057-1059, 1075-1078 rules that end with a semicolon. -/
def Rule.isFlat : Rule → Bool
  | .stmt _ flat => flat
  | .importRule _ => true
  | _ => false

/-- src/rules/mod.rs:1068. -/
def Rule.isNested : Rule → Bool
  | .nested _ => true
  | _ => false

/-- src/rules/mod.rs:1030-1049 rules that are not printed at all. -/
def Rule.skipped (o : Opts) : Rule → Bool
  | .ignored => true
  | .importRule _ => o.removeImports
  | _ => false

mutual
/-- `CssRule::to_css`, src/rules/mod.rs:371-408, and the implementations for each kind of rule; `ctx` is the selector context of the
printer, outermost first. -/
def ruleOps (o : Opts) (ctx : List Nat) : Rule → List Op
  -- src/rules/style.rs:214-238
  | .style s vps ds rs =>
    let base := styleBase o ctx s ds rs.isEmpty (fun c => listOps o c true false rs)
    if vps.isEmpty then base else prefixOps base true vps
  -- src/rules/nesting.rs:87-123
  | .nested ds =>
    if o.compile && !ctx.isEmpty then
      if hasPrintable ds then
        [.openSel ctx.dropLast (ctx.getLast?.getD 0), .indent, .nl] ++ toCssDeclarations o false ds ++ [.dedent, .nl, .tok .close]
      else toCssDeclarations o false ds
    else toCssDeclarations o false ds
  -- src/rules/media.rs:60-69 and the like
  | .block n rs => [.tok (.open (.at n)), .indent, .nl] ++ listOps o ctx true false rs ++ [.dedent, .nl, .tok .close]
  -- src/rules/media.rs:52-69
  | .mediaAll rs =>
    if o.minify then listOps o ctx true false rs
    else [.tok (.open .all), .indent, .nl] ++ listOps o ctx true false rs ++ [.dedent, .nl, .tok .close]
  -- src/rules/scope.rs:66-107
  | .scope n rs => [.tok (.open (.scope n ctx)), .indent, .nl] ++ listOps o [] true false rs ++ [.dedent, .nl, .tok .close]
  | .stmt n _ => [.tok (.stmt n)]
  | .importRule n => [.tok (.stmt n)]
  -- src/rules/font_face.rs:511-534
  | .font n ps => [.tok (.open (.leaf n)), .indent] ++ fontOps o ps.length 0 ps ++ [.dedent, .nl, .tok .close]
  -- src/rules/counter_style.rs:30-40
  | .declBlock n ds => toCssBlock o (.leaf n) ds
  -- src/rules/page.rs:211-282
  | .page n ds ms =>
    [.tok (.open (.leaf n)), .indent] ++ pageDecls o (ds.length + ms.length) 0 ds ++
      (if ms.isEmpty then [] else (if 0 < ds.length then [.rawnl] else []) ++ [.nl] ++ marginOps o true ms) ++ [.dedent, .nl, .tok .close]
  | .keyframes names frames => keyframesOps o frames true names
  | .ignored => []
/-- src/rules/mod.rs:1020-1083 `CssRuleList::to_css`; the Booleans are `first` and `last_without_block`. -/
def listOps (o : Opts) (ctx : List Nat) : Bool → Bool → List Rule → List Op
  | _, _, [] => []
  | first, last, r :: rs =>
    if r.skipped o then listOps o ctx first last rs
    else
      (if first then [] else (if last && r.isFlat then [] else [.rawnl]) ++ [.nl]) ++ ruleOps o ctx r ++
        (if o.minify && !o.compile && r.isNested && !rs.isEmpty then [.tok .semi] else []) ++ listOps o ctx false r.isFlat rs
end

/-! ### Running the operations -/

/-- The output: tokens and line breaks with the number of spaces after them. -/
inductive Piece
  | tok (t : Tok)
  | nl (spaces : Nat)
  | rawnl
deriving DecidableEq, Repr

/-- The printer's indentation and vendor prefix override, and the output. -/
structure St where
  indent : Nat := 0
  vp : Nat := 0
  out : List Piece := []
deriving DecidableEq, Repr

/-- One operation; the indentation is a `u8` that wraps, as in a release build (src/printer.rs:205-235). -/
def exec1 (minify : Bool) (st : St) : Op → St
  | .openSel ctx s => { st with out := st.out ++ [.tok (.open (.sel ctx s st.vp))] }
  | .tok t => { st with out := st.out ++ [.tok t] }
  | .nl => if minify then st else { st with out := st.out ++ [.nl st.indent] }
  | .rawnl => if minify then st else { st with out := st.out ++ [.rawnl] }
  | .indent => { st with indent := (st.indent + 2) % 256 }
  | .dedent => { st with indent := (st.indent + 254) % 256 }
  | .vp p => { st with vp := p }

def exec (minify : Bool) (ops : List Op) (st : St) : St := ops.foldl (exec1 minify) st

/-- The same with overflow checks, as in a debug build: `none` is a panic. `extra d` is how far the value of a declaration indents itself
while it is printed (21 for `grid-template-areas`, src/properties/grid.rs:646-656). -/
def checked1 (extra : Nat → Nat) (indent : Nat) : Op → Option Nat
  | .indent => if indent + 2 < 256 then some (indent + 2) else none
  | .dedent => if 2 ≤ indent then some (indent - 2) else none
  | .tok (.decl d _) => if indent + extra d < 256 then some indent else none
  | _ => some indent

def checked (extra : Nat → Nat) : List Op → Nat → Option Nat
  | [], i => some i
  | op :: ops, i => (checked1 extra i op).bind (checked extra ops)

/-- Printing a style sheet. -/
def printSheet (o : Opts) (rs : List Rule) : St := exec o.minify (listOps o [] true false rs) {}

/-- The tokens of the output, without white space. -/
def tokens (ps : List Piece) : List Tok := ps.filterMap fun
  | .tok t => some t
  | _ => none

end Verif.Printer
