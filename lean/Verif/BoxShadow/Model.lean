import Verif.TextDeco.Model
/-!
# `box-shadow` (`/repo/src/properties/box_shadow.rs`)

Lengths and colours are opaque: `L` and `C`. A component value is a keyword, a length or a colour; which of the three it is, is up to their own
parsers.
-/
namespace Verif.BoxShadow
open Verif.TextDeco (Vp)

/-- `BoxShadow` (src/properties/box_shadow.rs:29-43). -/
structure Shadow (L C : Type) where
  color : C
  x : L
  y : L
  blur : L
  spread : L
  inset : Bool
deriving DecidableEq

/-- A component value: `inset`, what `Length::parse` takes, what `CssColor::parse` takes, anything else. -/
inductive Tok (L C : Type)
  | inset
  | len (l : L)
  | col (c : C)
  | other (n : Nat)
deriving DecidableEq

variable {L C : Type}

/-- The lengths (src/properties/box_shadow.rs:61-67): two, and at most two more, zero if they are not there. -/
def lengths (zero : L) : List (Tok L C) → Option ((L × L × L × L) × List (Tok L C))
  | .len a :: .len b :: .len c :: .len d :: r => some ((a, b, c, d), r)
  | .len a :: .len b :: .len c :: r => some ((a, b, c, zero), r)
  | .len a :: .len b :: r => some ((a, b, zero, zero), r)
  | _ => none

/-- What the loop has found. -/
structure Found (L C : Type) where
  color : Option C := none
  lens : Option (L × L × L × L) := none
  inset : Bool := false

/-- One turn of the loop (src/properties/box_shadow.rs:52-83); `none` is `break`. -/
def turn (zero : L) (f : Found L C) (ts : List (Tok L C)) : Option (Found L C × List (Tok L C)) :=
  match f.inset, ts with
  | false, .inset :: r => some ({ f with inset := true }, r)
  | _, _ =>
    match f.lens, lengths zero ts with
    | none, some (v, r) => some ({ f with lens := some v }, r)
    | _, _ =>
      match f.color, ts with
      | none, .col c :: r => some ({ f with color := some c }, r)
      | _, _ => none

/-- The loop; each turn finds one of three things, so it ends after three turns and is written out (src/properties/box_shadow.rs:52-83). -/
def loop (zero : L) : Nat → Found L C → List (Tok L C) → Found L C × List (Tok L C)
  | 0, f, ts => (f, ts)
  | n + 1, f, ts => match turn zero f ts with
    | some (f', r) => loop zero n f' r
    | none => (f, ts)

/-- `BoxShadow::parse` (src/properties/box_shadow.rs:46-95): the shadow and what is left of the input. -/
def parse (zero : L) (current : C) (ts : List (Tok L C)) : Option (Shadow L C × List (Tok L C)) :=
  let r := loop zero 4 {} ts
  match r.1.lens with
  | some (a, b, c, d) => some (⟨r.1.color.getD current, a, b, c, d, r.1.inset⟩, r.2)
  | none => none

/-- `BoxShadow::to_css` (src/properties/box_shadow.rs:98-128), as component values. -/
def print [DecidableEq L] [DecidableEq C] (zero : L) (current : C) (s : Shadow L C) : List (Tok L C) :=
  (if s.inset then [.inset] else []) ++ [.len s.x, .len s.y] ++
    (if s.blur ≠ zero ∨ s.spread ≠ zero then .len s.blur :: (if s.spread ≠ zero then [.len s.spread] else []) else []) ++
    (if s.color ≠ current then [.col s.color] else [])

/-! ## The handler -/

/-- A value of the property. -/
abbrev Val (L C : Type) := List (Shadow L C)

/-- The declarations; `raw` is `Unparsed`. -/
inductive Decl (L C : Type)
  | set (v : Val L C) (vp : Vp)
  | raw (u : Nat) (vp : Vp)
deriving DecidableEq

/-- `ColorFallbackKind`, without `OKLAB`, which the handler does not ask for (src/values/color.rs:267-280). -/
structure Kinds where
  rgb : Bool
  p3 : Bool
  lab : Bool

/-- What the handler asks: `is_compatible` of one shadow with the browsers (`true` without browsers), `targets.prefixes`,
`get_necessary_fallbacks`, and `to_rgb`, `to_p3`, `to_lab` (or the colour itself if they fail). -/
structure Env (L C : Type) where
  compatible : Shadow L C → Bool
  prefixes : Vp → Vp
  needs : C → Kinds
  rgb : C → C
  p3 : C → C
  lab : C → C

/-- `BoxShadowHandler` (src/properties/box_shadow.rs:140-144) and the output. -/
structure State (L C : Type) where
  out : List (Decl L C) := []
  pending : Option (Val L C × Vp) := none
  flushed : Bool := false

/-- The colours of the shadows are changed (src/properties/box_shadow.rs:208-213, 224-229, 235-240). -/
def recolor (f : C → C) (v : Val L C) : Val L C := v.map fun s => { s with color := f s.color }

/-- The union of the fallbacks of the colours (src/properties/box_shadow.rs:201-204). -/
def needsOf (env : Env L C) (v : Val L C) : Kinds :=
  v.foldl (fun k s => ⟨k.rgb || (env.needs s.color).rgb, k.p3 || (env.needs s.color).p3, k.lab || (env.needs s.color).lab⟩) ⟨false, false, false⟩

/-- What `flush` writes when nothing has been flushed, and whether it reaches its end (src/properties/box_shadow.rs:199-245). -/
def firstOut (env : Env L C) (v : Val L C) (vp : Vp) : List (Decl L C) × Bool :=
  let pre := env.prefixes vp
  let k := needsOf env v
  if k.rgb && !pre.none then ([.set (recolor env.rgb v) pre], false)
  else
    ((if k.rgb then [.set (recolor env.rgb v) pre] else []) ++
      (if k.p3 then [.set (recolor env.p3 v) Vp.plain] else []) ++
      (if k.lab then [.set (recolor env.lab v) Vp.plain] else [.set v (if k.rgb then Vp.plain else pre)]), true)

/-- `flush` (src/properties/box_shadow.rs:190-252). -/
def flush (env : Env L C) (s : State L C) : State L C :=
  match s.pending with
  | none => s
  | some (v, vp) =>
    if s.flushed then { out := s.out ++ [.set v vp], pending := none, flushed := true }
    else { out := s.out ++ (firstOut env v vp).1, pending := none, flushed := (firstOut env v vp).2 }

/-- `handle_property` (src/properties/box_shadow.rs:147-182). The `@supports` rules of `add_unparsed_fallbacks` are not modelled. -/
def handle [DecidableEq L] [DecidableEq C] (env : Env L C) (s : State L C) : Decl L C → State L C
  | .set v vp =>
    let s := if s.pending.isSome && !v.all env.compatible then flush env s else s
    match s.pending with
    | some (w, q) =>
      if w ≠ v ∧ q.contains vp = false then { flush env s with pending := some (v, vp) }
      else { s with pending := some (v, q.or vp) }
    | none => { s with pending := some (v, vp) }
  | .raw u vp =>
    let s := flush env s
    { s with out := s.out ++ [.raw u vp], flushed := true }

/-- A whole block: every declaration, then `finalize` (src/properties/box_shadow.rs:184-187). -/
def minify [DecidableEq L] [DecidableEq C] (env : Env L C) (ds : List (Decl L C)) : List (Decl L C) :=
  (flush env (ds.foldl (handle env) {})).out

end Verif.BoxShadow
