/-!
# The parser of rules (`/repo/src/parser.rs:126-520, 1000-1075`, `/repo/src/stylesheet.rs:186-206`)

What the tokenizer and the parsers of selectors, preludes and values do is abstract: an item of a block is a declaration, a rule, or an item that fails to parse (`bad`); names and values are numbers. `@nest` and custom at-rules are left out.
-/
namespace Verif.Parse

/-- An item of a block: what `RuleBodyParser` gives to the callbacks. `group` stands for `@media`, `@supports`, `@container`, `@scope`, `@layer` with a block, `@-moz-document` and `@starting-style`; `leaf` for at-rules with a block that cannot be in style rules; `parts` for `@font-face` and `@keyframes`, whose parts may have errors (`none`); `unknown` for unknown at-rules; `property` for `@property`, which is returned before the check for style rules (src/parser.rs:700-703). -/
inductive Item
  | decl (d : Nat) (important : Bool)
  | bad
  | style (sel : Nat) (body : List Item)
  | group (g : Nat) (body : List Item)
  | leaf (n : Nat)
  | parts (n : Nat) (ps : List (Option Nat))
  | layer (n : Nat)
  | unknown (n : Nat)
  | property (n : Nat)

/-- The rules that are made (src/rules/mod.rs:100-170). -/
inductive Rule
  | style (sel : Nat) (decls imps : List Nat) (rules : List Rule)
  | group (g : Nat) (rules : List Rule)
  | nested (decls imps : List Nat)
  | leaf (n : Nat)
  | parts (n : Nat) (ps : List Nat)
  | layer (n : Nat)
  | unknown (n : Nat)

/-- The state of `NestedRuleParser` (src/parser.rs:437-445), with whether there are errors (:463). -/
structure St where
  decls : List Nat := []
  imps : List Nat := []
  rules : List Rule := []
  errors : Bool := false

/-- An item that fails (src/parser.rs:465-482). -/
def fail (recover allow : Bool) (s : St) : Option St :=
  if allow then some { s with decls := [], imps := [], errors := true }
  else if recover then some s else none

/-- A rule is added. -/
def St.push (s : St) (r : Rule) : St := { s with rules := s.rules ++ [r] }

/-- A declaration to the list it belongs to (src/declaration.rs:531-535). -/
def addTo (d : Nat) (important : Bool) (decls imps : List Nat) : List Nat × List Nat :=
  if important then (decls, imps ++ [d]) else (decls ++ [d], imps)

/-- `parse_value` (src/parser.rs:1023-1065). -/
def addDecl (s : St) (d : Nat) (important : Bool) : St :=
  if s.rules.isEmpty then { s with decls := (addTo d important s.decls s.imps).1, imps := (addTo d important s.decls s.imps).2 }
  else match s.rules.getLast? with
    | some (.nested ds is) => { s with rules := s.rules.dropLast ++ [.nested (addTo d important ds is).1 (addTo d important ds is).2] }
    | _ => s.push (.nested (addTo d important [] []).1 (addTo d important [] []).2)

/-- The end of `parse_nested` (src/parser.rs:485-505). -/
def finish (recover allow : Bool) (s : St) : Option St :=
  if allow && s.errors && !recover then none else some s

/-- `parse_style_block`: leading declarations become a rule of their own (src/parser.rs:508-531). -/
def styleBlock (s : St) : List Rule :=
  if s.decls.isEmpty && s.imps.isEmpty then s.rules else .nested s.decls s.imps :: s.rules

mutual
/-- An item, in a block that is inside a style rule or not, and allows declarations or not; `none` is an error that ends the parse. The callbacks: parse_prelude (src/parser.rs:545-714), rule_without_block (:716-753), parse_block (:755-965 and :998-1016), parse_value (:1023-1065). -/
def parseItem (recover inStyle allow : Bool) (s : St) : Item → Option St
  | .decl d important => if allow then some (addDecl s d important) else fail recover allow s
  | .bad => fail recover allow s
  | .style sel body => match parseBody recover true true {} body with
    | some b => match finish recover true b with
      | some b => some (s.push (.style sel b.decls b.imps b.rules))
      | none => fail recover allow s
    | none => fail recover allow s
  | .group g body => match parseBody recover inStyle (allow || inStyle) {} body with
    | some b => match finish recover (allow || inStyle) b with
      | some b => some (s.push (.group g (styleBlock b)))
      | none => fail recover allow s
    | none => fail recover allow s
  | .leaf n => if inStyle then fail recover allow s else some (s.push (.leaf n))
  | .parts n ps => if inStyle then fail recover allow s else some (s.push (.parts n (ps.filterMap id)))
  | .layer n => if inStyle then fail recover allow s else some (s.push (.layer n))
  | .unknown n => some (s.push (.unknown n))
  | .property n => some (s.push (.leaf n))

/-- The loop of `parse_nested` (src/parser.rs:464-483). -/
def parseBody (recover inStyle allow : Bool) (s : St) : List Item → Option St
  | [] => some s
  | i :: is => match parseItem recover inStyle allow s i with
    | some s => parseBody recover inStyle allow s is
    | none => none
end

/-- `StyleSheet::parse`, without the order of `@import` and `@namespace` (src/stylesheet.rs:186-206): declarations are not allowed at the top. -/
def parseSheet (recover : Bool) (items : List Item) : Option (List Rule) := (parseBody recover false false {} items).map St.rules

/-! ### The order of rules at the top -/

/-- `State` (src/parser.rs:126-133). -/
inductive State
  | start | layers | imports | namespaces | body
deriving DecidableEq

/-- The order of states. -/
def State.num : State → Nat
  | .start => 1
  | .layers => 2
  | .imports => 3
  | .namespaces => 4
  | .body => 5

/-- A statement or rule at the top of a sheet. `ok` says if its prelude (for rules with a block, prelude and block) parses; `names` if `@layer` has names. `selOk` says if the selector of a style rule parses. -/
inductive Top
  | charset (ok : Bool)
  | «import» (n : Nat) (ok : Bool)
  | «namespace» (n : Nat) (ok : Bool)
  | customMedia (n : Nat) (ok : Bool)
  | layer (n : Nat) (preludeOk names : Bool)
  | unknown (n : Nat)
  | custom (n : Nat) (preludeOk ok : Bool)
  | block (n : Nat) (preludeOk ok : Bool)
  | unknownBlock (n : Nat)
  | style (n : Nat) (selOk ok : Bool)
deriving DecidableEq

/-- The state and whether a rule is made (src/parser.rs:283-433); for `charset` nothing is made. -/
def step (st : State) : Top → State × Bool
  | .charset _ => (st, false)
  | .import _ ok => if st.num > State.imports.num then (st, false) else if ok then (.imports, true) else (st, false)
  | .namespace _ ok => if st.num > State.namespaces.num then (st, false) else if ok then (.namespaces, true) else (st, false)
  | .customMedia _ ok => if ok then (.body, true) else (st, false)
  | .layer _ preludeOk names => if preludeOk then (if st.num ≤ State.layers.num then .layers else .body, names) else (st, false)
  | .unknown _ => (st, true)
  | .custom _ preludeOk ok => if preludeOk then (.body, ok) else (st, false)
  | .block _ preludeOk ok => if preludeOk then (.body, ok) else (st, false)
  | .unknownBlock _ => (.body, true)
  | .style _ selOk ok => (.body, selOk && ok)

/-- The state after some statements. -/
def stateAfter (ts : List Top) : State := ts.foldl (fun st t => (step st t).1) .start

/-- The rules that are made, in order, with error recovery (src/stylesheet.rs:190-206). -/
def topRules (st : State) : List Top → List Top
  | [] => []
  | t :: ts => if (step st t).2 then t :: topRules (step st t).1 ts else topRules (step st t).1 ts

end Verif.Parse
