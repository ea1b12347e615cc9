import Verif.Keyframes.Model
/-! Which keyframes an animation uses: those of the last rule with its name that the browser understands. -/
namespace Verif.Keyframes
open Verif.Targets
variable {F C O X : Type}

/-- A browser: the vendor prefixes it understands, which conditions of `@supports` rules hold, what it makes of keyframes, and the
keyframes that other rules (such as `@media` rules) define. -/
structure Browser (F C O X : Type) where
  knows : Prefix → Bool
  holds : C → Bool
  view : F → X
  other : O → Str → Option X

/-- Does the browser understand one of the prefixes? -/
def Browser.reads (b : Browser F C O X) (vp : PrefixSet) : Bool :=
  [Prefix.none, .webkit, .moz, .ms, .o].any fun p => vp.has p && b.knows p

/-- The keyframes a rule defines for a name. -/
def defines (b : Browser F C O X) (name : Str) : Rule F C O → Option X
  | .kf n vp f => if n.text = name ∧ b.reads vp then some (b.view f) else none
  | .supports c n vp f => if b.holds c = true ∧ n.text = name ∧ b.reads vp then some (b.view f) else none
  | .other o => b.other o name

/-- The keyframes in effect for a name: those of the last rule that defines it. -/
def effective (b : Browser F C O X) (name : Str) : List (Rule F C O) → Option X
  | [] => none
  | r :: rs => (effective b name rs).or (defines b name r)

/-- What is assumed of the parts not modelled: minifying keyframes does not change them; the rule with the lowest fallback followed by
the `@supports` rules is the same as the rule. -/
structure Laws (c : Cfg F C) (b : Browser F C O X) : Prop where
  min : ∀ f, b.view (c.minF f) = b.view f
  fallbacks : ∀ n vp f, b.reads vp → effective b n.text
    (.kf n vp (c.fallbacks f).1 :: (c.fallbacks f).2.map fun x => .supports x.1 n vp x.2) = some (b.view f)
end Verif.Keyframes
