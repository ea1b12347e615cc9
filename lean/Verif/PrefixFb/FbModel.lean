import Verif.PrefixFb.Model
import Verif.Fallback.TokenModel
/-!
# The fallback handler for properties whose values are lists of colors
-/
namespace Verif.PrefixFb
open Verif.Targets Verif.Fallback

/-- `IsCompatible for CssColor`, `values/color.rs:483-501`, with `SystemColor`, `3795-3803`. -/
def colorCompatible {C : Type} (br : Browsers) : Color C → Bool
  | .keyword n => if n = cs!"accentcolor" ∨ n = cs!"accentcolortext" then CompatFeature.accentSystemColor.isCompatible br else true
  | .leaf .rgba _ => true
  | .leaf .float _ => true
  | .leaf .lab _ => CompatFeature.labColors.isCompatible br
  | .leaf .oklab _ => CompatFeature.oklabColors.isCompatible br
  | .leaf .p3 _ => CompatFeature.p3Colors.isCompatible br
  | .leaf .predefined _ => CompatFeature.colorFunction.isCompatible br
  | .lightDark l d => CompatFeature.lightDark.isCompatible br && colorCompatible br l && colorCompatible br d

/-- The properties `color`, `fill`, `stroke`, `caret-color`, `caret` (one color or none, `mode` is `direct`), `text-shadow` (`direct`; lengths are taken to be compatible), `prefix_handler.rs:171-180`. A crash of `get_fallbacks` is the subject of C96;
here the value stays then. Unparsed values are lists of colors as well, which `lowest` changes. -/
def colorConfig {C : Type} (conv : Kind → Space → C → C) (mode : Mode) (t : Targets) (lowest : List (Color C) → List (Color C)) : Config (List (Color C)) where
  feature := none
  fallbacks v := (getFallbacks conv mode t v).getD ([], v)
  compatible v := match t.browsers with
    | some br => v.all (colorCompatible br)
    | none => true
  lowest := lowest

/-- `filter` and `backdrop-filter`, `prefix_handler.rs:174-175`, with the colors of their drop shadows: `is_compatible` is always true, `properties/effects.rs:409-413`. -/
def filterConfig {C : Type} (conv : Kind → Space → C → C) (f : PrefixFeature) (t : Targets) : Config (List (Color C)) where
  feature := some f
  fallbacks v := (getFallbacks conv .keepRgba t v).getD ([], v)
  compatible _ := true
  lowest v := v

end Verif.PrefixFb
