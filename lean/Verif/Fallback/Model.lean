import Verif.Targets.Model
/-!
# Model of color fallbacks (`/repo/src/values/color.rs` and the users of its functions)

Browser support is the table of `Verif/Targets/CompatTable.lean`. A color has a color space and a value of an arbitrary type `V`; conversions between spaces are a parameter.
-/
namespace Verif.Fallback
open Verif.Targets

/-- The color spaces that fallbacks tell apart: `CssColor::RGBA`, `Float`, `LAB` with `LABColor::LAB` or `LCH`, with `OKLAB` or `OKLCH`, `Predefined` with `DisplayP3`, and with another space, `color.rs:46-73`, `169-230`. -/
inductive Space
  | rgba | float | lab | oklab | p3 | predefined
deriving DecidableEq

/-- `CssColor`, `color.rs:46-73`; `CurrentColor` and `System` are keywords. -/
inductive Color (V : Type)
  | keyword (name : Str)
  | leaf (s : Space) (v : V)
  | lightDark (light dark : Color V)

/-- The kinds of fallbacks that are generated, `ColorFallbackKind`, `color.rs:232-245`. -/
inductive Kind
  | rgb | p3 | lab
deriving DecidableEq

/-- A set of `ColorFallbackKind`s, `color.rs:232-245`, as four flags instead of a byte. -/
structure Kinds where
  rgb : Bool
  p3 : Bool
  lab : Bool
  oklab : Bool
deriving DecidableEq

/-- `ColorFallbackKind::empty()`. -/
def Kinds.empty : Kinds := ⟨false, false, false, false⟩

/-- `|`. -/
def Kinds.union (a b : Kinds) : Kinds := ⟨a.rgb || b.rgb, a.p3 || b.p3, a.lab || b.lab, a.oklab || b.oklab⟩

/-- `-`. -/
def Kinds.diff (a b : Kinds) : Kinds := ⟨a.rgb && !b.rgb, a.p3 && !b.p3, a.lab && !b.lab, a.oklab && !b.oklab⟩

/-- `ColorFallbackKind::highest`, `color.rs:288-296`. -/
def Kinds.highest (a : Kinds) : Kinds :=
  if a.oklab then ⟨false, false, false, true⟩
  else if a.lab then ⟨false, false, true, false⟩
  else if a.p3 then ⟨false, true, false, false⟩
  else if a.rgb then ⟨true, false, false, false⟩
  else .empty

/-- `ColorFunction`, `OklabColors`, `LabColors` and `P3Colors` in `Features`, `targets.rs:164-167`. -/
def flagOf : CompatFeature → Flags
  | .colorFunction => 1#32 <<< 10
  | .oklabColors => 1#32 <<< 11
  | .labColors => 1#32 <<< 12
  | .p3Colors => 1#32 <<< 13
  | _ => 0#32

/-- `should_compile!(targets, feature)`, `targets.rs:317-324`. -/
def compiles (t : Targets) (f : CompatFeature) : Bool := t.shouldCompile f (flagOf f)

/-- `targets.browsers.map(|targets| feature.is_partially_compatible(targets)).unwrap_or(false)`, `color.rs:401-405`, `417-420`. -/
def partially (t : Targets) (f : CompatFeature) : Bool :=
  match t.browsers with
  | some br => f.isPartiallyCompatible br
  | none => false

/-- The second part of `get_possible_fallbacks`, `color.rs:390-428`. -/
def reduce (t : Targets) (f : Kinds) : Kinds :=
  -- 390-394
  let f := if f.oklab then (if !compiles t .oklabColors then { f with rgb := false, p3 := false, lab := false } else f) else f
  -- 396-408
  let f := if f.lab then
      (if !compiles t .labColors then { f with rgb := false, p3 := false }
       else if partially t .labColors then { f with p3 := false } else f) else f
  -- 410-425
  if f.p3 then
    (if !compiles t .p3Colors then { f with rgb := false }
     else if f.highest ≠ ⟨false, true, false, false⟩ ∧ partially t .p3Colors = false then { f with p3 := false } else f)
  else f

/-- The kinds at the start of `get_possible_fallbacks` for a color that is not `light-dark()`, `color.rs:365-385`; none if it is returned at once. -/
def start (t : Targets) : Space → Option Kinds
  | .rgba => none
  | .float => none
  | .lab => if compiles t .labColors then some ⟨true, true, true, false⟩ else none
  | .oklab => if compiles t .oklabColors then some ⟨true, true, true, true⟩ else none
  | .p3 =>
    if compiles t .p3Colors then some ⟨true, true, false, false⟩
    else if compiles t .colorFunction then some ⟨true, true, true, false⟩ else none
  | .predefined => if compiles t .colorFunction then some ⟨true, true, true, false⟩ else none

/-- `get_possible_fallbacks`, `color.rs:361-429`. -/
def possible {V : Type} (t : Targets) : Color V → Kinds
  | .keyword _ => .empty
  | .leaf s _ => match start t s with
    | none => .empty
    | some f => reduce t f
  | .lightDark l d => (possible t l).union (possible t d)

/-- `get_necessary_fallbacks`, `color.rs:432-437`. -/
def necessary {V : Type} (t : Targets) (c : Color V) : Kinds := (possible t c).diff (possible t c).highest

/-- The color space of a fallback: `to_rgb`, `to_p3` and `to_lab` make `RGBA`, `Predefined(DisplayP3)` and `LAB(LAB)`. -/
def Kind.space : Kind → Space
  | .rgb => .rgba
  | .p3 => .p3
  | .lab => .lab

/-- `to_rgb`, `to_lab` and `to_p3`, `color.rs:332-359`, with `TryFrom<&CssColor>`, `color.rs:2964-2977`; `conv` converts the values. -/
def Color.convert {V : Type} (conv : Kind → Space → V → V) (k : Kind) : Color V → Option (Color V)
  | .keyword _ => none
  | .leaf s v => some (.leaf k.space (conv k s v))
  | .lightDark l d => do some (.lightDark (← l.convert conv k) (← d.convert conv k))

/-- How the users of fallbacks convert a color: `to_rgb().unwrap()` (`CssColor::get_fallbacks`, `color.rs:503-520`, and text shadows, `properties/text.rs:1484-1521`), `get_fallback`, which keeps
`RGBA` and unwraps otherwise (`color.rs:440-451`; gradients, border colors, drop shadows and backgrounds), or `to_rgb().unwrap_or_else(|_| color.clone())` (box shadows, `properties/box_shadow.rs:207-246`). -/
inductive Mode
  | direct | keepRgba | keepFailed
deriving DecidableEq

/-- One color of a fallback value; none is a panic. -/
def fallback {V : Type} (conv : Kind → Space → V → V) (m : Mode) (k : Kind) (c : Color V) : Option (Color V) :=
  match m with
  | .direct => c.convert conv k
  | .keepRgba => match c with
    | .leaf .rgba v => some (.leaf .rgba v)
    | c => c.convert conv k
  | .keepFailed => some ((c.convert conv k).getD c)

/-- The union of the necessary fallbacks of the colors, such as `properties/text.rs:1486-1489`. -/
def needs {V : Type} (t : Targets) (cs : List (Color V)) : Kinds := cs.foldl (fun f c => f.union (necessary t c)) .empty

/-- One fallback value. -/
def version {V : Type} (conv : Kind → Space → V → V) (m : Mode) (k : Kind) (cs : List (Color V)) : Option (List (Color V)) := cs.mapM (fallback conv m k)

/-- `FallbackValues::get_fallbacks` of a value with the colors `cs`: the values that are added before, and what the value is changed to. None is a panic. `color.rs:503-520` for one color, `properties/text.rs:1484-1521`,
`properties/effects.rs:368-405`, `properties/border.rs:428-462`, `properties/box_shadow.rs:201-246` without prefixes, `values/image.rs:234-302` without prefixes. -/
def getFallbacks {V : Type} (conv : Kind → Space → V → V) (m : Mode) (t : Targets) (cs : List (Color V)) : Option (List (List (Color V)) × List (Color V)) :=
  (if (needs t cs).rgb then (version conv m .rgb cs).map (fun x => [x]) else some []).bind fun rgb =>
  (if (needs t cs).p3 then (version conv m .p3 cs).map (fun x => [x]) else some []).bind fun p3 =>
  (if (needs t cs).lab then version conv m .lab cs else some cs).bind fun last =>
  some (rgb ++ p3, last)

end Verif.Fallback
