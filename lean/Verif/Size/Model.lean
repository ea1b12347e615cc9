import Verif.Targets.Model
import Verif.Common.Chars
/-!
# Box sizes (`/repo/src/properties/size.rs`)

`Size` and `MaxSize` have the same variants but for the first one (`auto`, `none`); they are one type here. Lengths and percentages are an
opaque type `L`; whether a set of browsers supports a length is a parameter. A panic is `none`.
-/
namespace Verif.Size
open Verif.Targets

/-- The keywords with vendor prefixes. -/
inductive Kw
  | minContent | maxContent | fitContent | stretch
deriving DecidableEq

/-- `Size` (src/properties/size.rs:36-61) and `MaxSize` (src/properties/size.rs:165-190). `auto` is `None` in `MaxSize`. A value has one prefix. -/
inductive Sz (L : Type)
  | auto
  | lp (l : L)
  | kw (k : Kw) (p : Prefix)
  | fitFn (l : L)
  | contain
deriving DecidableEq

/-- A component value: an identifier, `fit-content(…)` or another function with one length, or a length. -/
inductive Tok (L : Type)
  | ident (s : Str)
  | func (name : Str) (arg : L)
  | lp (l : L)
deriving DecidableEq

section
variable {L : Type}

/-- `match_ignore_ascii_case!`. -/
def ci (s lit : Str) : Bool := s.map Char.toLower = lit

/-- The keywords of `Size::parse` (src/properties/size.rs:67-83) and `MaxSize::parse` (196-212); `max` says which. -/
def keyword (max : Bool) (s : Str) : Option (Sz L) :=
  if ci s (if max then cs!"none" else cs!"auto") then some .auto
  else if ci s cs!"min-content" then some (.kw .minContent .none)
  else if ci s cs!"-webkit-min-content" then some (.kw .minContent .webkit)
  else if ci s cs!"-moz-min-content" then some (.kw .minContent .moz)
  else if ci s cs!"max-content" then some (.kw .maxContent .none)
  else if ci s cs!"-webkit-max-content" then some (.kw .maxContent .webkit)
  else if ci s cs!"-moz-max-content" then some (.kw .maxContent .moz)
  else if ci s cs!"stretch" then some (.kw .stretch .none)
  else if ci s cs!"-webkit-fill-available" then some (.kw .stretch .webkit)
  else if ci s cs!"-moz-available" then some (.kw .stretch .moz)
  else if ci s cs!"fit-content" then some (.kw .fitContent .none)
  else if ci s cs!"-webkit-fit-content" then some (.kw .fitContent .webkit)
  else if ci s cs!"-moz-fit-content" then some (.kw .fitContent .moz)
  else if ci s cs!"contain" then some .contain
  else none

/-- `Size::parse`, `MaxSize::parse` (src/properties/size.rs:63-96, 192-225), `parse_fit_content` (295-300), on a value of one component. -/
def Sz.parse (max : Bool) : Tok L → Option (Sz L)
  | .ident s => keyword max s
  | .func n l => if ci n cs!"fit-content" then some (.fitFn l) else none
  | .lp l => some (.lp l)

/-- `VendorPrefix::to_css` (src/vendor_prefix.rs:60-76). -/
def prefixText : Prefix → Str
  | .none => []
  | .webkit => cs!"-webkit-"
  | .moz => cs!"-moz-"
  | .ms => cs!"-ms-"
  | .o => cs!"-o-"

/-- `Size::to_css`, `MaxSize::to_css` (src/properties/size.rs:98-132, 227-261). -/
def Sz.print (max : Bool) : Sz L → Option (Tok L)
  | .auto => some (.ident (if max then cs!"none" else cs!"auto"))
  | .contain => some (.ident cs!"contain")
  | .kw .minContent p => some (.ident (prefixText p ++ cs!"min-content"))
  | .kw .maxContent p => some (.ident (prefixText p ++ cs!"max-content"))
  | .kw .fitContent p => some (.ident (prefixText p ++ cs!"fit-content"))
  | .kw .stretch .none => some (.ident cs!"stretch")
  | .kw .stretch .webkit => some (.ident cs!"-webkit-fill-available")
  | .kw .stretch .moz => some (.ident cs!"-moz-available")
  | .kw .stretch _ => none
  | .fitFn l => some (.func cs!"fit-content" l)
  | .lp l => some (.lp l)

/-- `IsCompatible for Size` and `MaxSize` (src/properties/size.rs:134-157, 263-286). -/
def Sz.compat (lc : L → Browsers → Bool) (br : Browsers) : Sz L → Bool
  | .lp l => lc l br
  | .kw .minContent _ => CompatFeature.minContentSize.isCompatible br
  | .kw .maxContent _ => CompatFeature.maxContentSize.isCompatible br
  | .kw .fitContent _ => CompatFeature.fitContentSize.isCompatible br
  | .fitFn l => CompatFeature.fitContentFunctionSize.isCompatible br && lc l br
  | .kw .stretch .none => CompatFeature.stretchSize.isCompatible br
  | .kw .stretch .webkit => CompatFeature.webkitFillAvailableSize.isCompatible br
  | .kw .stretch .moz => CompatFeature.webkitFillAvailableSize.isCompatible br
  | .kw .stretch _ => false
  | .contain => false
  | .auto => true

/-! ### The handler -/

/-- `PropertyCategory` (src/logical.rs). -/
inductive Cat
  | logical | physical
deriving DecidableEq
/-- `width`, `min-width` or `max-width`. -/
inductive Kind
  | size | min | max
deriving DecidableEq
/-- The axis of a horizontal writing mode: `block` is the height. -/
inductive Axis
  | block | inline
deriving DecidableEq

/-- The twelve properties (`SizeProperty`, src/properties/size.rs:363-380). -/
structure Name where
  cat : Cat
  kind : Kind
  axis : Axis
deriving DecidableEq

/-- A declaration; the value of an unparsed one is its text. -/
inductive Decl (L : Type)
  | size (n : Name) (v : Sz L)
  | unparsed (n : Name) (text : Str)
deriving DecidableEq

/-- What the handler sees of its context. -/
structure Env (L : Type) where
  targets : Targets
  styleAttribute : Bool
  lengthCompat : L → Browsers → Bool

/-- `PropertyHandlerContext::should_compile_logical(LogicalSize)` (src/context.rs:74-82). -/
def Env.compile (env : Env L) : Bool :=
  if env.styleAttribute then false else env.targets.shouldCompileLogical .logicalSize

/-- `SizeHandler` (src/properties/size.rs:382-399). -/
structure Handler (L : Type) where
  pending : Name → Option (Sz L)
  hasAny : Bool
  flushed : Name → Bool
  category : Cat

/-- The physical property of the macros `logical!` and `logical_unparsed!`. -/
def Env.target (env : Env L) (n : Name) : Name :=
  match n.cat with
  | .physical => n
  | .logical => if env.compile then ⟨.physical, n.kind, n.axis⟩ else n

/-- The prefix feature of a keyword (third argument of `prefix!`). -/
def Kw.feature : Kw → PrefixFeature
  | .minContent => .minContent
  | .maxContent => .maxContent
  | .fitContent => .fitContent
  | .stretch => .stretch

/-- Iteration over the flags of `prefixes - VendorPrefix::None`. -/
def flagsButNone (s : PrefixSet) : List Prefix :=
  (if s.webkit then [.webkit] else []) ++ (if s.moz then [.moz] else []) ++ (if s.ms then [.ms] else []) ++ (if s.o then [.o] else [])

/-- The macro `prefix!` (src/properties/size.rs:488-498). -/
def prefixed (env : Env L) (flushed : Name → Bool) (n : Name) : Sz L → List (Decl L)
  | .kw k .none =>
    if flushed n then []
    else (flagsButNone (env.targets.prefixes Prefix.none.set k.feature)).map fun p => .size n (.kw k p)
  | _ => []

/-- Setting a field or a flag. -/
def put {A : Type} (f : Name → A) (n : Name) (a : A) : Name → A := fun m => if m = n then a else f m

/-- The macros `property!` and `logical!` of `flush` for one field (src/properties/size.rs:500-524). -/
def flushOne (env : Env L) (s : Handler L × List (Decl L)) (n : Name) : Handler L × List (Decl L) :=
  match s.1.pending n with
  | none => s
  | some v =>
    let m := env.target n
    ({ s.1 with pending := put s.1.pending n none, flushed := put s.1.flushed m true },
      s.2 ++ prefixed env s.1.flushed m v ++ [.size m v])

/-- The fields in the order of `flush` (src/properties/size.rs:526-537). -/
def order : List Name := [
  ⟨.physical, .size, .inline⟩, ⟨.physical, .min, .inline⟩, ⟨.physical, .max, .inline⟩,
  ⟨.physical, .size, .block⟩, ⟨.physical, .min, .block⟩, ⟨.physical, .max, .block⟩,
  ⟨.logical, .size, .block⟩, ⟨.logical, .min, .block⟩, ⟨.logical, .max, .block⟩,
  ⟨.logical, .size, .inline⟩, ⟨.logical, .min, .inline⟩, ⟨.logical, .max, .inline⟩]

/-- `SizeHandler::flush` (src/properties/size.rs:479-543). -/
def flush (env : Env L) (s : Handler L × List (Decl L)) : Handler L × List (Decl L) :=
  if s.1.hasAny then order.foldl (flushOne env) ({ s.1 with hasAny := false }, s.2) else s

/-- `matches!(context.targets.browsers, Some(targets) if !$val.is_compatible(targets))`. -/
def Env.incompatible (env : Env L) (v : Sz L) : Bool :=
  match env.targets.browsers with
  | some br => !v.compat env.lengthCompat br
  | none => false

/-- `handle_property` (src/properties/size.rs:401-476). -/
def handle (env : Env L) (s : Handler L × List (Decl L)) : Decl L → Handler L × List (Decl L)
  | .size n v =>
    let s := if n.cat ≠ s.1.category ∨ ((s.1.pending n).isSome ∧ env.incompatible v = true) then flush env s else s
    ({ s.1 with pending := put s.1.pending n (some v), category := n.cat, hasAny := true }, s.2)
  | .unparsed n t =>
    let s := flush env s
    let m := env.target n
    ({ s.1 with flushed := put s.1.flushed m true }, s.2 ++ [.unparsed m t])

/-- `finalize` (src/properties/size.rs:472-475): the declarations written, and the state for the next block. -/
def finalize (env : Env L) (s : Handler L × List (Decl L)) : Handler L × List (Decl L) :=
  let s := flush env s
  ({ s.1 with flushed := fun _ => false }, s.2)

/-- The handler over one block. -/
def run (env : Env L) (h : Handler L) (ds : List (Decl L)) : Handler L × List (Decl L) :=
  finalize env (ds.foldl (handle env) (h, []))

/-- A new handler (`Default`). -/
def Handler.new : Handler L := ⟨fun _ => none, false, fun _ => false, .physical⟩

end
end Verif.Size
