import Verif.Targets.Model
/-! Model of what `CssRuleList::minify` (src/rules/mod.rs:546-587) does with `@keyframes`.

The keyframes themselves are opaque; other rules too (they may define keyframes, such as `@media` rules do). -/
namespace Verif.Keyframes
open Verif.Targets

/-- src/rules/keyframes.rs:60-68 `KeyframesName`: an identifier or a string. -/
inductive Name where
  | ident (s : Str)
  | custom (s : Str)
deriving DecidableEq, Repr

/-- The text of a name. -/
def Name.text : Name → Str
  | .ident s => s
  | .custom s => s

/-- Rules: `@keyframes` (src/rules/keyframes.rs:35-47), the `@supports` rules made by `get_fallback`, and others. -/
inductive Rule (F C O : Type)
  | kf (name : Name) (vp : PrefixSet) (frames : F)
  | supports (cond : C) (name : Name) (vp : PrefixSet) (frames : F)
  | other (o : O)

/-- The context. `minF` is `KeyframesRule::minify` (src/rules/keyframes.rs:124-134), `fallbacks` is `get_fallbacks` (:136-181): the
new keyframes, and the conditions and keyframes of the `@supports` rules; `unused` are the unused symbols. -/
structure Cfg (F C : Type) where
  targets : Targets
  minF : F → F
  fallbacks : F → F × List (C × F)
  unused : Str → Bool

/-- The state of the loop: the rules so far and `keyframe_rules`. -/
structure St (F C O : Type) where
  rules : List (Rule F C O)
  map : List (Name × Nat)

/-- `HashMap::get`. -/
def lookup (n : Name) : List (Name × Nat) → Option Nat
  | [] => none
  | (m, i) :: rest => if m = n then some i else lookup n rest

variable {F C O : Type}

/-- src/rules/mod.rs:575-585: push the rule and its fallbacks. -/
def pushKf (c : Cfg F C) (st : St F C O) (n : Name) (vp : PrefixSet) (f : F) : St F C O :=
  let vp := c.targets.prefixes vp .atKeyframes
  let fb := c.fallbacks f
  ⟨st.rules ++ .kf n vp fb.1 :: fb.2.map (fun x => .supports x.1 n vp x.2), (n, st.rules.length) :: st.map⟩

/-- One rule of the loop (src/rules/mod.rs:548-587). -/
def step [DecidableEq F] (c : Cfg F C) (st : St F C O) : Rule F C O → St F C O
  | .kf n vp f =>
    if c.unused n.text then st
    else
      let f := c.minF f
      match lookup n st.map with
      | some i =>
        match st.rules[i]? with
        | some (.kf n' vp' f') =>
          if vp' = vp then { st with rules := st.rules.set i (.kf n vp f) }
          else if f' = f then { st with rules := st.rules.set i (.kf n' (c.targets.prefixes (vp'.union vp) .atKeyframes) f') }
          else pushKf c st n vp f
        | _ => pushKf c st n vp f
      | none => pushKf c st n vp f
  | r => { st with rules := st.rules ++ [r] }

/-- The loop. -/
def minify [DecidableEq F] (c : Cfg F C) (rs : List (Rule F C O)) : List (Rule F C O) := (rs.foldl (step c) ⟨[], []⟩).rules
end Verif.Keyframes
