import Verif.BoxShadow.Model
import Verif.TextDeco.Spec
/-!
# What `box-shadow` means

The grammar of a shadow, and what a browser makes of a block. This file uses the types of the model, and `recolor`.
-/
namespace Verif.BoxShadow
open Verif.TextDeco (Vp meets)
variable {L C : Type}

/-- The three parts of a shadow: `inset? && <length>{2,4} && <color>?`. The parts are written in any order. -/
inductive Parts (zero : L) (current : C) : Shadow L C → List (List (Tok L C)) → Prop
  | mk (s : Shadow L C) (i l c : List (Tok L C))
      (hi : i = if s.inset then [.inset] else [])
      (hl : l = [.len s.x, .len s.y, .len s.blur, .len s.spread] ∨ l = [.len s.x, .len s.y, .len s.blur] ∧ s.spread = zero ∨
        l = [.len s.x, .len s.y] ∧ s.blur = zero ∧ s.spread = zero)
      (hc : c = [.col s.color] ∨ c = [] ∧ s.color = current) : Parts zero current s [i, l, c]

/-- The component values are a way to write the shadow. -/
def Writes (zero : L) (current : C) (s : Shadow L C) (ts : List (Tok L C)) : Prop :=
  ∃ parts order : List (List (Tok L C)), Parts zero current s parts ∧ order.Perm parts ∧ ts = order.flatten

/-- A browser: the prefixes it knows, and the shadows it reads. -/
structure Browser (L C : Type) where
  known : Vp
  ok : Shadow L C → Bool

/-- The value of the property: as before the block, a value, or that of a declaration with `var()`. -/
inductive Seen (L C : Type)
  | before
  | val (v : Val L C)
  | raw (u : Nat)
deriving DecidableEq

/-- What a browser takes from a declaration: one shadow that it does not read makes the declaration invalid. -/
def reads (b : Browser L C) : Decl L C → Option (Seen L C)
  | .set v vp => if meets b.known vp = true ∧ v.all b.ok = true then some (.val v) else none
  | .raw u vp => if meets b.known vp = true then some (.raw u) else none

/-- The last declaration that is read decides. -/
def final (b : Browser L C) (ds : List (Decl L C)) : Seen L C := ds.foldl (fun x d => (reads b d).getD x) .before

/-- The same value, except that all colours may have been converted with one of `fs`. -/
def Same (fs : List (C → C)) (x y : Seen L C) : Prop :=
  match x with
  | .before => y = .before
  | .raw u => y = .raw u
  | .val v => y = .val v ∨ ∃ f ∈ fs, y = .val (recolor f v)

/-- The prefixes of the declaration. -/
def Decl.vp : Decl L C → Vp
  | .set _ vp => vp
  | .raw _ vp => vp

/-- The prefixes for an unprefixed property include no prefix; a prefixed property stays as it is. -/
structure PrefixesOk (env : Env L C) : Prop where
  plain : ∀ vp : Vp, vp.none = true → (env.prefixes vp).none = true
  keep : ∀ vp : Vp, vp.none = false → env.prefixes vp = vp

/-- The browser is one of the targets: it knows the unprefixed property, reads what is compatible with the targets, and reads a colour after its
conversion to LAB if it reads the colour itself. -/
structure Target (env : Env L C) (b : Browser L C) : Prop where
  known : b.known.none = true
  compatible : ∀ s, env.compatible s = true → b.ok s = true
  lab : ∀ s : Shadow L C, b.ok s = true → b.ok { s with color := env.lab s.color } = true

end Verif.BoxShadow
