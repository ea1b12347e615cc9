import Verif.Common.Chars
/-! Model of what `CssRuleList::minify` (src/rules/mod.rs) does with cascade layers.

Other rules are opaque, conditional group rules have an opaque condition. Left out: everything else the loop does with style rules
(`Verif.Rules`), keyframes (`Verif.Keyframes`) and so on, except that it drops some rules that have no effect. -/
namespace Verif.Layers

/-- A layer name: the identifiers between the dots, at least one (src/rules/layer.rs:22). -/
structure Name (N : Type) where
  head : N
  tail : List N
deriving DecidableEq, Repr

/-- Rules. `N` identifiers, `G` conditions of group rules, `O` other rules (for `imp`: the imported style sheet).
`block` is `LayerBlockRule` (src/rules/layer.rs:115-127), `stmt` is `LayerStatementRule` (:84-92), both with their source location;
the layer of an `@import` is missing, anonymous or named (src/rules/import.rs). -/
inductive Rule (N G O : Type)
  | block (name : Option (Name N)) (loc : Nat) (rules : List (Rule N G O))
  | stmt (names : List (Name N)) (loc : Nat)
  | imp (layer : Option (Option (Name N))) (loc : Nat) (o : O)
  | group (g : G) (rules : List (Rule N G O))
  | other (o : O)
  | ignored

variable {N G O : Type}

/-- The state of the loop: the rules so far, `layer_rules` and `has_layers` (src/rules/mod.rs:540-541). -/
structure St (N G O : Type) where
  rules : List (Rule N G O)
  layers : List (Name N × Nat)
  has : Bool

/-- `HashMap::get`. -/
def lookup [DecidableEq N] (n : Name N) : List (Name N × Nat) → Option Nat
  | [] => none
  | (m, i) :: rest => if m = n then some i else lookup n rest

/-- `if let Some(CssRule::LayerBlock(last_rule)) = rules.get_mut(*idx) { last_rule.rules.0.extend(..) }`
(src/rules/mod.rs:640-641); `none` if the rule is not a block. -/
def extendAt : List (Rule N G O) → Nat → List (Rule N G O) → Option (List (Rule N G O))
  | .block n l rs :: rest, 0, new => some (.block n l (rs ++ new) :: rest)
  | _ :: _, 0, _ => none
  | r :: rest, i + 1, new => (extendAt rest i new).map (r :: ·)
  | [], _, _ => none

/-- Declare a name of an `@layer` statement (src/rules/mod.rs:653-662). -/
def declareName [DecidableEq N] (loc : Nat) (st : St N G O) (n : Name N) : St N G O :=
  match lookup n st.layers with
  | some _ => st
  | none => ⟨st.rules ++ [.block (some n) loc []], (n, st.rules.length) :: st.layers, true⟩

/-- One rule of the loop (src/rules/mod.rs:546-898). `drop` are the rules without effect that are removed; `rec` is the recursive
call. -/
def step [DecidableEq N] [DecidableEq G] (drop : O → Bool) (rec : List (Rule N G O) → List (Rule N G O)) (st : St N G O) :
    Rule N G O → St N G O
  -- src/rules/mod.rs:635-649, 897
  | .block (some n) loc rs =>
    match (lookup n st.layers).bind fun i => extendAt st.rules i rs with
    | some rules => { st with rules := rules }
    | none => ⟨st.rules ++ [.block (some n) loc rs], (n, st.rules.length) :: st.layers, true⟩
  | .block none loc rs => { st with rules := st.rules ++ [.block none loc rs] }
  -- src/rules/mod.rs:650-665
  | .stmt names loc => names.foldl (declareName loc) st
  -- src/rules/mod.rs:890-893
  | .imp l loc o => { st with rules := st.rules ++ [.imp l loc o], layers := [] }
  -- src/rules/mod.rs:595-634
  | .group g rs =>
    match st.rules.getLast? with
    | some (.group g' rs') =>
      if g' = g then { st with rules := st.rules.dropLast ++ [.group g' (rec (rs' ++ rs))] }
      else if (rec rs).isEmpty then st else { st with rules := st.rules ++ [.group g (rec rs)] }
    | _ => if (rec rs).isEmpty then st else { st with rules := st.rules ++ [.group g (rec rs)] }
  | .other o => if drop o then st else { st with rules := st.rules ++ [.other o] }
  | .ignored => { st with rules := st.rules ++ [.ignored] }

/-- The state of the second pass: the rules it has passed, `declared_layers`, `layer_statement` (src/rules/mod.rs:903-904). -/
structure Fin (N G O : Type) where
  rules : List (Rule N G O)
  declared : List (Name N)
  stmt : Option Nat

/-- `if let CssRule::LayerStatement(layer) = &mut rules[layer_index] { layer.names.push(name); .. }` (src/rules/mod.rs:920-924). -/
def addName : List (Rule N G O) → Nat → Name N → Option (List (Rule N G O))
  | .stmt ns l :: rest, 0, n => some (.stmt (ns ++ [n]) l :: rest)
  | _ :: _, 0, _ => none
  | r :: rest, i + 1, n => (addName rest i n).map (r :: ·)
  | [], _, _ => none

/-- One rule of the second pass (src/rules/mod.rs:905-953). -/
def finish [DecidableEq N] (rec : List (Rule N G O) → List (Rule N G O)) (st : Fin N G O) : Rule N G O → Fin N G O
  | .block name loc rs =>
    let rs' := rec rs
    if rs'.isEmpty then
      match name with
      | some n =>
        if n ∈ st.declared then { st with rules := st.rules ++ [.ignored] }
        else
          match st.stmt with
          | some i =>
            match addName st.rules i n with
            | some rules => { st with rules := rules ++ [.ignored], declared := n :: st.declared }
            | none => { st with rules := st.rules ++ [.block name loc rs'], declared := n :: st.declared }
          | none => ⟨st.rules ++ [.stmt [n] loc], n :: st.declared, some st.rules.length⟩
      | none => { st with rules := st.rules ++ [.ignored] }
    else { st with rules := st.rules ++ [.block name loc rs'], stmt := none }
  | .imp (some l) loc o => ⟨st.rules ++ [.imp (some l) loc o], l.toList ++ st.declared, none⟩
  | r => { st with rules := st.rules ++ [r] }

/-- src/rules/mod.rs:534-958 `CssRuleList::minify`. The code recurses without a bound; `fuel` bounds the depth here, and the theorems
hold for every fuel. -/
def minify [DecidableEq N] [DecidableEq G] (drop : O → Bool) : Nat → List (Rule N G O) → List (Rule N G O)
  | 0, rs => rs
  | fuel + 1, rs =>
    let st := rs.foldl (step drop (minify drop fuel)) ⟨[], [], false⟩
    if st.has then (st.rules.foldl (finish (minify drop fuel)) ⟨[], [], none⟩).rules else st.rules
end Verif.Layers
