import Verif.PrefixFb.Model
import Verif.Fallback.TokenModel
/-!
# Model of the `@supports` rules that are added for fallbacks of custom properties and unparsed values (`/repo/src/context.rs`, `/repo/src/declaration.rs`)
-/
namespace Verif.PrefixFb
open Verif.Targets Verif.Fallback

/-- `PropertyHandlerContext::supports`, `context.rs:16-20`, `32-48`: the conditions with their declarations; here only those of one property, without `!important`. -/
abbrev Entries (T : Type) := List (Kind × List T)

/-- `PropertyHandlerContext::add_conditional_property` in a style rule, `context.rs:156-183`. -/
def addConditional {T : Type} : Entries T → Kind × T → Entries T
  | [], (k, x) => [(k, [x])]
  | (k', xs) :: es, (k, x) => if k = k' then (k', xs ++ [x]) :: es else (k', xs) :: addConditional es (k, x)

/-- The state of `DeclarationHandler` for one custom property: its declaration in `decls`, and the entries. -/
structure CustomState (T : Type) where
  decl : Option T
  entries : Entries T

/-- `DeclarationHandler::handle_custom_property` with `add_conditional_fallbacks`, `declaration.rs:603-632`, `664-682`, for one name. `fb` is `TokenList::get_fallbacks`: the values for `@supports`, and the changed value. -/
def handleCustom {T : Type} [DecidableEq T] (fb : T → List (Kind × T) × T) (s : CustomState T) (v : T) : CustomState T :=
  if s.decl = some v then s else ⟨some (fb v).2, (fb v).1.foldl addConditional s.entries⟩

/-- A style rule with declarations of one custom property: what is left in the rule, and the `@supports` rules after it, `context.rs:203-227`. -/
def minifyCustom {T : Type} [DecidableEq T] (fb : T → List (Kind × T) × T) (vs : List T) : CustomState T := vs.foldl (handleCustom fb) ⟨none, []⟩

/-- The entries that `FallbackHandler` adds for unparsed declarations of its properties, `prefix_handler.rs:144`, `context.rs:185-201`. -/
def unparsedEntries {T : Type} (fb : T → List (Kind × T) × T) (ds : List (Item T)) : Entries T :=
  ds.foldl (fun es d => match d with
    | .unparsed v _ => (fb v).1.foldl addConditional es
    | _ => es) []

end Verif.PrefixFb
