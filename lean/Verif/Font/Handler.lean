import Verif.Font.Model
/-!
# Fonts: the handler (`/repo/src/properties/font.rs:804-1049`)

The values of the longhands other than `font-family` are an opaque type `V`; `Env` says what the code asks about them.
-/
namespace Verif.Font

/-- The fields of `FontHandler` other than the family (src/properties/font.rs:818-829), in the order in which `flush` writes them (969-997). -/
inductive Field
  | size | style | caps | weight | stretch | line
deriving DecidableEq

/-- The order of the pushes (src/properties/font.rs:973-996). -/
def fields : List Field := [.size, .style, .caps, .weight, .stretch, .line]

/-- The order of the `flush!`s for the shorthand, after the one for the family (src/properties/font.rs:866-872). -/
def flushOrder : List Field := [.size, .style, .weight, .stretch, .line, .caps]

/-- The declarations. `raw` is `Unparsed` with one of the font properties (`none` is `font`, `some none` is `font-family`) and an opaque value. `other` is a property that `font` resets but that the handler does not know (`font-kerning`, `font-feature-settings`, ...). -/
inductive Decl (V : Type)
  | family (l : List Family)
  | long (k : Field) (v : V)
  | font (l : List Family) (v : Field → V)
  | raw (p : Option (Option Field)) (u : Nat)
  | other (u : Nat)

/-- `FontHandler` (src/properties/font.rs:818-829); of the flushed properties only the family is used. -/
structure Handler (V : Type) where
  family : Option (List Family) := none
  f : Field → Option V := fun _ => none
  flushedFamily : Bool := false
  any : Bool := false

/-- What the handler asks: `compat` and `famCompat` are "no browsers are given, or the value is compatible with them" (src/properties/font.rs:843), `css2` is `is_css2` and `normalCaps` the default of `font-variant-caps`, `compileUi` is `should_compile!(context.targets, FontFamilySystemUi)`. -/
structure Env (V : Type) where
  compat : Field → V → Bool
  famCompat : List Family → Bool
  css2 : V → Bool
  normalCaps : V
  compileUi : Bool

/-- `DEFAULT_SYSTEM_FONTS` (src/properties/font.rs:1000-1010). -/
def systemFonts : List Family :=
  [.name cs!"-apple-system", .name cs!"BlinkMacSystemFont", .name cs!"Segoe UI", .name cs!"Roboto", .name cs!"Noto Sans", .name cs!"Ubuntu", .name cs!"Cantarell",
    .name cs!"Helvetica Neue"]

/-- `families.splice((position + 1)..(position + 1), ..)` at the first `system-ui` (src/properties/font.rs:1022-1031). -/
def spliceUi : List Family → List Family
  | [] => []
  | f :: r => if f = .generic .systemUi then f :: (systemFonts ++ r) else f :: spliceUi r

/-- `compatible_font_family` (src/properties/font.rs:1016-1034). -/
def compatible (supported : Bool) (l : List Family) : List Family := if supported then l else spliceUi l

/-- `family.retain(|f| seen.insert(f.clone()))` (src/properties/font.rs:932-938). -/
def dedupe : List Family → List Family → List Family
  | _, [] => []
  | seen, f :: r => if f ∈ seen then dedupe seen r else f :: dedupe (f :: seen) r

section
variable {V : Type}

/-- The family that is written (src/properties/font.rs:918-938). -/
def outFamily (env : Env V) (h : Handler V) (l : List Family) : List Family :=
  dedupe [] (if h.flushedFamily then l else compatible (!env.compileUi) l)

/-- All six fields (src/properties/font.rs:940-947). -/
def Handler.full (h : Handler V) : Option (Field → V) :=
  match h.f .size, h.f .style, h.f .weight, h.f .stretch, h.f .line, h.f .caps with
  | some a, some b, some c, some d, some e, some g => some fun
    | .size => a | .style => b | .weight => c | .stretch => d | .line => e | .caps => g
  | _, _, _, _, _, _ => none

/-- The value in the shorthand (src/properties/font.rs:950-965). -/
def shortVals (env : Env V) (v : Field → V) : Field → V := fun k =>
  if k = .caps then (if env.css2 (v .caps) then v .caps else env.normalCaps) else v k

/-- The pushes without the shorthand (src/properties/font.rs:973-996). -/
def pushLong (h : Handler V) (k : Field) : List (Decl V) := match h.f k with
  | some v => [.long k v]
  | none => []

/-- The family, if it is set. -/
def pushFamily (env : Env V) (h : Handler V) : List (Decl V) := match h.family with
  | some l => [.family (outFamily env h l)]
  | none => []

/-- What `flush` writes (src/properties/font.rs:899-998). -/
def flushOut (env : Env V) (h : Handler V) : List (Decl V) :=
  if h.any then
    match h.family, h.full with
    | some l, some v => .font (outFamily env h l) (shortVals env v) :: (if env.css2 (v .caps) then [] else [.long .caps (v .caps)])
    | _, _ => pushFamily env h ++ fields.flatMap (pushLong h)
  else []

/-- Whether the family is flushed after this: the shorthand sets the flags of all longhands (src/properties/font.rs:806-815, 911-916). -/
def flushFlag (h : Handler V) : Bool := h.flushedFamily || (h.any && h.family.isSome)

/-- `FontHandler::flush` (src/properties/font.rs:899-998). -/
def flush (env : Env V) (s : Handler V × List (Decl V)) : Handler V × List (Decl V) :=
  if s.1.any then ({ flushedFamily := flushFlag s.1 }, s.2 ++ flushOut env s.1) else s

/-- `flush!` for a field (src/properties/font.rs:841-847). -/
def maybe [DecidableEq V] (env : Env V) (s : Handler V × List (Decl V)) (k : Field) (v : V) : Handler V × List (Decl V) :=
  match s.1.f k with
  | some w => if w ≠ v ∧ env.compat k v = false then flush env s else s
  | none => s

/-- `flush!` for the family. -/
def maybeFam (env : Env V) (s : Handler V × List (Decl V)) (l : List Family) : Handler V × List (Decl V) :=
  match s.1.family with
  | some w => if w ≠ l ∧ env.famCompat l = false then flush env s else s
  | none => s

/-- A field is set. -/
def Handler.set (h : Handler V) (k : Field) (v : V) : Handler V := { h with f := fun j => if j = k then some v else h.f j, any := true }

/-- `FontHandler::handle_property` (src/properties/font.rs:832-891). What is not handled is written at once (src/declaration.rs:246-254). -/
def handle [DecidableEq V] (env : Env V) (s : Handler V × List (Decl V)) : Decl V → Handler V × List (Decl V)
  | .family l => let s := maybeFam env s l; ({ s.1 with family := some l, any := true }, s.2)
  | .long k v => let s := maybe env s k v; (s.1.set k v, s.2)
  | .font l v =>
    let s := flushOrder.foldl (fun s k => maybe env s k (v k)) (maybeFam env s l)
    ({ s.1 with family := some l, f := fun k => some (v k), any := true }, s.2)
  | .raw p u =>
    let s := flush env s
    ({ s.1 with flushedFamily := s.1.flushedFamily || (p = none || p = some none) }, s.2 ++ [.raw p u])
  | .other u => (s.1, s.2 ++ [.other u])

/-- The handler, over the declarations of a block, with `finalize` (src/properties/font.rs:893-896). -/
def run [DecidableEq V] (env : Env V) (ds : List (Decl V)) : List (Decl V) := (flush env (ds.foldl (handle env) ({}, []))).2

end

/-! ## What a browser makes of it -/
namespace HSpec
variable {V : Type}

/-- A value: what the element had before, a value of the block, an opaque text, or the initial value. -/
inductive Value (T : Type)
  | before
  | val (v : T)
  | raw (u : Nat)
  | initial

/-- The computed properties. `other` are those that `font` resets. -/
structure Computed (V : Type) where
  family : Value (List Family) := .before
  f : Field → Value V := fun _ => .before
  other : Value Nat := .before

/-- A browser: the values it accepts for each longhand, and those it accepts inside `font`. -/
structure Agent (V : Type) where
  ok : Field → V → Bool
  short : Field → V → Bool

/-- One declaration. Declarations with values that the browser does not accept are ignored; `font` needs all its values accepted. -/
def apply (b : Agent V) (c : Computed V) : Decl V → Computed V
  | .family l => { c with family := .val l }
  | .long k v => if b.ok k v then { c with f := fun j => if j = k then .val v else c.f j } else c
  | .font l v => if ∀ k ∈ fields, b.ok k (v k) ∧ b.short k (v k) then { family := .val l, f := fun k => .val (v k), other := .initial } else c
  | .raw none u => { family := .raw u, f := fun _ => .raw u, other := .initial }
  | .raw (some none) u => { c with family := .raw u }
  | .raw (some (some k)) u => { c with f := fun j => if j = k then .raw u else c.f j }
  | .other u => { c with other := .val u }

/-- A block of declarations. -/
def computed (b : Agent V) (c : Computed V) (ds : List (Decl V)) : Computed V := ds.foldl (apply b) c

/-- Two lists of families give the same font for each text: the first family that has it is the same. -/
def SameChoice (avail : Family → Bool) (x y : Value (List Family)) : Prop :=
  match x, y with
  | .val l, .val m => l.find? avail = m.find? avail
  | x, y => x = y

end HSpec
end Verif.Font
