import Verif.Fallback.Model
import Mathlib.Data.List.Forall2
/-!
# What browsers do with colors, written without the functions of the model
-/
namespace Verif.Fallback
open Verif.Targets

/-- One browser in one version. -/
def one (b : Browser) (v : Nat) : Browsers := fun x => if x = b then some v else none

/-- A browser supports a feature, according to the table of the project. -/
def Supports (b : Browser) (v : Nat) (f : CompatFeature) : Prop := f.isCompatible (one b v) = true

/-- A browser understands the notation of a color space. -/
def Notation (b : Browser) (v : Nat) : Space → Prop
  | .rgba => True
  | .float => True
  | .lab => Supports b v .labColors
  | .oklab => Supports b v .oklabColors
  | .p3 => Supports b v .p3Colors
  | .predefined => Supports b v .colorFunction

/-- A browser understands a color. (`light-dark()` is compiled separately; here it is understood if its colors are. Keywords are understood.) -/
def Understands {V : Type} (b : Browser) (v : Nat) : Color V → Prop
  | .keyword _ => True
  | .leaf s _ => Notation b v s
  | .lightDark l d => Understands b v l ∧ Understands b v d

/-- A browser understands a value that has these colors: else it ignores the declaration. -/
def UnderstandsAll {V : Type} (b : Browser) (v : Nat) (cs : List (Color V)) : Prop := ∀ c ∈ cs, Understands b v c

/-- The browser is a target: its version is at least the lowest one that is asked for. -/
def IsTarget (t : Targets) (b : Browser) (v : Nat) : Prop := ∃ br w, t.browsers = some br ∧ br b = some w ∧ w ≤ v

/-- The features that concern colors. -/
def ColorFeature (f : CompatFeature) : Prop := f = .labColors ∨ f = .oklabColors ∨ f = .p3Colors ∨ f = .colorFunction

/-- The bit of a feature is set in flags. -/
def Flagged (flags : Flags) : CompatFeature → Prop
  | .colorFunction => flags.getLsbD 10 = true
  | .oklabColors => flags.getLsbD 11 = true
  | .labColors => flags.getLsbD 12 = true
  | .p3Colors => flags.getLsbD 13 = true
  | _ => False

/-- No keyword such as `currentColor` occurs in the color. -/
def Color.Concrete {V : Type} : Color V → Prop
  | .keyword _ => False
  | .leaf _ _ => True
  | .lightDark l d => l.Concrete ∧ d.Concrete

/-- A color without keywords inside, or a keyword on its own. -/
def Color.Plain {V : Type} (c : Color V) : Prop := c.Concrete ∨ ∃ n, c = .keyword n

/-- A color in the space of a fallback: keywords are kept, colors are converted, and RGB colors may be kept. -/
inductive VersionOf {V : Type} (conv : Kind → Space → V → V) (k : Kind) : Color V → Color V → Prop
  | keyword {n : Str} : VersionOf conv k (.keyword n) (.keyword n)
  | kept {v : V} : VersionOf conv k (.leaf .rgba v) (.leaf .rgba v)
  | rgb {s : Space} {v : V} : k = .rgb → VersionOf conv k (.leaf s v) (.leaf .rgba (conv .rgb s v))
  | p3 {s : Space} {v : V} : k = .p3 → VersionOf conv k (.leaf s v) (.leaf .p3 (conv .p3 s v))
  | lab {s : Space} {v : V} : k = .lab → VersionOf conv k (.leaf s v) (.leaf .lab (conv .lab s v))
  | lightDark {l d l' d' : Color V} : VersionOf conv k l l' → VersionOf conv k d d' → VersionOf conv k (.lightDark l d) (.lightDark l' d')

/-- Each color of a value is replaced by its version; box shadows keep a color with keywords as it is. -/
def Versions {V : Type} (conv : Kind → Space → V → V) (k : Kind) (cs xs : List (Color V)) : Prop :=
  List.Forall₂ (fun c x => VersionOf conv k c x ∨ (x = c ∧ ¬ c.Concrete)) cs xs

end Verif.Fallback
