/-!
# `color-scheme` and `light-dark()`

`ColorScheme` and `ColorSchemeHandler` (`/repo/src/properties/ui.rs:400-586`), the rules for `prefers-color-scheme` (`/repo/src/context.rs:89-148`), and
`light-dark()` in colours (`/repo/src/values/color.rs`). Colours other than `light-dark()` are opaque: `C`.
-/
namespace Verif.LightDark

/-- `ColorScheme` (src/properties/ui.rs:404-418); empty is `normal`. -/
structure Scheme where
  light : Bool := false
  dark : Bool := false
  only : Bool := false
deriving DecidableEq

/-- The keywords; `other` is any other component value. -/
inductive Kw
  | normal | only | light | dark | other
deriving DecidableEq

/-- The loop (src/properties/ui.rs:446-460). -/
def schemeLoop (s : Scheme) (any : Bool) : List Kw → Scheme × Bool × List Kw
  | .light :: r => schemeLoop { s with light := true } true r
  | .dark :: r => schemeLoop { s with dark := true } true r
  | r => (s, any, r)

/-- `ColorScheme::parse` (src/properties/ui.rs:433-475): the value and what is left. -/
def parseScheme (ts : List Kw) : Option (Scheme × List Kw) :=
  match ts with
  | .normal :: r => some ({}, r)
  | _ =>
    let (s, any, r) := match ts with
      | .only :: r => schemeLoop { only := true } true r
      | _ => schemeLoop {} false ts
    match s.only, r with
    | false, .only :: r' => some ({ s with only := true }, r')
    | _, _ => if any then some (s, r) else none

/-- `ColorScheme::to_css` (src/properties/ui.rs:477-508), as keywords. -/
def printScheme (s : Scheme) : List Kw :=
  if !s.light && !s.dark && !s.only then [.normal]
  else (if s.light then [.light] else []) ++ (if s.dark then [.dark] else []) ++ (if s.only then [.only] else [])

/-! ## The handler -/

/-- `--lightningcss-light` and `--lightningcss-dark`. -/
inductive Which
  | light | dark
deriving DecidableEq

/-- The values of these: `initial` and a space. -/
inductive VarVal
  | initial | space
deriving DecidableEq

/-- A declaration: `color-scheme`, one of the two variables, or another property. -/
inductive Item
  | scheme (s : Scheme)
  | var (w : Which) (v : VarVal)
  | other (n : Nat)
deriving DecidableEq

/-- A declaration block: `declarations` and `important_declarations`. -/
structure Block where
  decls : List Item := []
  imp : List Item := []

/-- `handle_property` when `light-dark()` is compiled (src/properties/ui.rs:557-586): what goes to the block and to the dark rule. -/
def handle : Item → List Item × List Item
  | .scheme s =>
    if s.light then
      ([.var .light .initial, .var .dark .space, .scheme s], if s.dark then [.var .light .space, .var .dark .initial] else [])
    else if s.dark then ([.var .light .space, .var .dark .initial, .scheme s], [])
    else ([.scheme s], [])
  | i => ([i], [])

/-- The declarations of one importance. -/
def expand (is : List Item) : List Item := is.flatMap fun i => (handle i).1

/-- What is added to the dark rule, whatever the importance: the important declarations come first (src/declaration.rs:257-258). -/
def darkItems (b : Block) : List Item := (b.imp ++ b.decls).flatMap fun i => (handle i).2

/-- A style rule with the same selector: its condition (`true` for `@media (prefers-color-scheme: dark)`) and its block. -/
abbrev CRule := Bool × Block

/-- The rules that are written for a style rule (src/rules/mod.rs:737-738, src/context.rs:93-148): the declarations of the dark rule are not important. -/
def minifyRule (b : Block) : List CRule :=
  (false, ⟨expand b.decls, expand b.imp⟩) :: (if (darkItems b).isEmpty then [] else [(true, ⟨darkItems b, []⟩)])

/-! ## Colours -/

/-- `CssColor`: `light-dark()` or another colour. -/
inductive Col (C : Type)
  | plain (c : C)
  | lightDark (l d : Col C)

/-- Parsing `light-dark()` (src/values/color.rs:1079-1092): of a `light-dark()` in it, only the one half is kept. -/
def mkLightDark {C : Type} (l d : Col C) : Col C :=
  .lightDark (match l with | .lightDark x _ => x | x => x) (match d with | .lightDark _ x => x | x => x)

/-- A printed value: colours and `var()` with a fallback. -/
inductive Text (C : Type)
  | col (c : C)
  | var (w : Which) (fallback : List (Text C))

/-- `CssColor::to_css` when `light-dark()` is compiled (src/values/color.rs:631-642). -/
def Col.print {C : Type} : Col C → List (Text C)
  | .plain c => [.col c]
  | .lightDark l d => [.var .light l.print, .var .dark d.print]

/-- `to_rgb`, `to_lab`, `to_p3` (src/values/color.rs:332-359): both halves are converted. -/
def Col.convert {C D : Type} (f : C → Option D) : Col C → Option (Col D)
  | .plain c => (f c).map .plain
  | .lightDark l d => match l.convert f, d.convert f with
    | some x, some y => some (.lightDark x y)
    | _, _ => none

/-- Both halves of a result, with `?`. -/
def pair {C : Type} : Option (Col C) → Option (Col C) → Option (Col C)
  | some l, some d => some (.lightDark l d)
  | _, _ => none

/-- `interpolate` with `to_light_dark` written out (src/values/color.rs:3339-3344, 3348-3382): `f` mixes two other colours. -/
def mix {C : Type} (f : C → C → Option C) : Col C → Col C → Option (Col C)
  | .plain a, .plain b => (f a b).map .plain
  | .plain a, .lightDark l d => pair (mix f (.plain a) l) (mix f (.plain a) d)
  | .lightDark l d, .plain b => pair (mix f l (.plain b)) (mix f d (.plain b))
  | .lightDark l d, .lightDark l' d' => pair (mix f l l') (mix f d d')
termination_by x y => sizeOf x + sizeOf y

end Verif.LightDark
