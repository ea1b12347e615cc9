/-! Model of the at-rules that define names: `@property` (src/rules/property.rs) and `@font-feature-values`
(src/rules/font_feature_values.rs), and of what `CssRuleList::minify` (src/rules/mod.rs) does with them. -/

namespace Verif.Named

/-- An `IndexMap` as an association list in insertion order (used at src/rules/font_feature_values.rs:32, :227). -/
abbrev IMap (κ ν : Type) := List (κ × ν)

/-- `IndexMap::insert`: a key that is present keeps its place and gets the new value, another is appended.
Used at src/rules/font_feature_values.rs:118-129, :182-186 (through `extend`), :303. -/
def IMap.insert {κ ν : Type} [DecidableEq κ] (k : κ) (v : ν) : IMap κ ν → IMap κ ν
  | [] => [(k, v)]
  | (k', v') :: m => if k' = k then (k', v) :: m else (k', v') :: IMap.insert k v m

/-- `IndexMap::get`. -/
def IMap.get {κ ν : Type} [DecidableEq κ] (k : κ) : IMap κ ν → Option ν
  | [] => none
  | (k', v') :: m => if k' = k then some v' else IMap.get k m

/-- `IndexMap::extend`: the entries are inserted one after the other. -/
def IMap.extend {κ ν : Type} [DecidableEq κ] (m : IMap κ ν) (l : List (κ × ν)) : IMap κ ν :=
  l.foldl (fun m kv => IMap.insert kv.1 kv.2 m) m

/-- The blocks of a `@font-feature-values` rule: sub-rule types (`@styleset`, ..) to declarations
(src/rules/font_feature_values.rs:32, :227). Types, names and values are numbers; the locations are left out. -/
abbrev Body := IMap Nat (IMap Nat (List Int))

/-- src/rules/font_feature_values.rs:177-188 `merge`. -/
def Body.merge (a b : Body) : Body :=
  b.foldl (fun a tr =>
    match IMap.get tr.1 a with
    | some ds => IMap.insert tr.1 (ds.extend tr.2) a
    | none => IMap.insert tr.1 tr.2 a) a

/-- A rule that defines a name: `@property` with its name and descriptors, or `@font-feature-values` with its family list
and its blocks (src/rules/property.rs:29-46, src/rules/font_feature_values.rs:27-36). Names are numbers, the descriptors of
`@property` are an arbitrary type. -/
inductive Item (D : Type) where
  | property (name : Nat) (d : D)
  | ffv (fams : List Nat) (b : Body)

/-- A rule of the list: a name defining rule, a style rule, a group rule whose condition is `cond` with the name defining
rules in it, a rule replaced by `CssRule::Ignored`, or another rule. `S` is the type of style rules. -/
inductive Rule (D S : Type) where
  | item (i : Item D)
  | style (s : S)
  | group (cond : Nat) (items : List (Item D))
  | ignored
  | other

/-- What `CssRuleList::minify` decides about style rules, left arbitrary: `drop` (`style.minify` at src/rules/mod.rs:665),
`empty` (`is_empty` at :774), `merge new last` (`merge_style_rules`, :961-1018, the updated rule), `dup` (the index the lookup in
`style_rules` returns, :786), `extra` (the rules for logical properties, `@supports` overrides, incompatible selectors and nested
rules, :802-825: style rules, and others that define no name), and `unused` (`unused_symbols`, :879). -/
structure Ctx (S : Type) where
  drop : S → Bool
  empty : S → Bool
  merge : S → S → Option S
  dup : {D : Type} → List (Rule D S) → Option Nat
  extra : S → List (Option S)
  unused : Nat → Bool

/-- src/rules/mod.rs:718-732: the last style rule `l` is merged into the ones before it as long as this succeeds; `r` is the list
before it, reversed. -/
def mergeUp {D S : Type} (c : Ctx S) (l : S) : List (Rule D S) → List (Rule D S)
  | .style p :: r =>
    match c.merge l p with
    | some p' => mergeUp c p' r
    | none => .style l :: .style p :: r
  | r => .style l :: r

/-- src/rules/mod.rs:783-795: if the new rule duplicates an earlier style rule, that one is marked as ignored. -/
def dedup {D S : Type} (c : Ctx S) (rs : List (Rule D S)) : List (Rule D S) :=
  match c.dup rs with
  | some i =>
    match rs[i]? with
    | some (.style _) => rs.set i .ignored
    | _ => rs
  | none => rs

/-- src/rules/mod.rs:774-800: the rule is pushed unless it is empty. -/
def push {D S : Type} (c : Ctx S) (s : S) (rs : List (Rule D S)) : List (Rule D S) :=
  if c.empty s then rs else dedup c (rs ++ [.style s])

/-- src/rules/mod.rs:664-828, the branch for style rules, on the rules so far. -/
def styleStep {D S : Type} (c : Ctx S) (s : S) (rs : List (Rule D S)) : List (Rule D S) :=
  if c.drop s then rs
  else
    let rs1 := match rs.reverse with
      | .style l :: r =>
        match c.merge s l with
        | some l' => (mergeUp c l' r).reverse
        | none => push c s rs
      | _ => push c s rs
    rs1 ++ (c.extra s).map (fun e => match e with | some s => .style s | none => .other)

/-- The state of the loop: the rules so far, `property_rules` and `font_feature_values_rules` (src/rules/mod.rs:542-546). -/
structure St (D S : Type) where
  rules : List (Rule D S)
  props : IMap Nat Nat
  ffvs : List Nat

/-- src/rules/mod.rs:866-869: the `find` over the indices of the `@font-feature-values` rules. -/
def findFfv {D S : Type} (rs : List (Rule D S)) (fams : List Nat) : List Nat → Option (Nat × Body)
  | [] => none
  | i :: is =>
    match rs[i]? with
    | some (.item (.ffv f b)) => if f = fams then some (i, b) else findFfv rs fams is
    | _ => findFfv rs fams is

/-- One turn of the loop (src/rules/mod.rs:548-898). Simplified: the merging of `@media`, `@supports`, `@container` and `@layer`
rules with earlier ones and the pass inside of group rules (the same function, on the list in the group) are left out: groups
are pushed as they are. -/
def step {D S : Type} (c : Ctx S) (st : St D S) : Rule D S → St D S
  | .style s => { st with rules := styleStep c s st.rules }
  -- src/rules/mod.rs:865-877
  | .item (.ffv fams b) =>
    match findFfv st.rules fams st.ffvs with
    | some (i, a) => { st with rules := st.rules.set i (.item (.ffv fams (a.merge b))) }
    | none => { st with rules := st.rules ++ [.item (.ffv fams b)], ffvs := st.ffvs ++ [st.rules.length] }
  -- src/rules/mod.rs:878-889
  | .item (.property n d) =>
    if c.unused n then st
    else
      match IMap.get n st.props with
      | some i => { st with rules := st.rules.set i (.item (.property n d)) }
      | none =>
        { st with rules := st.rules ++ [.item (.property n d)], props := IMap.insert n st.rules.length st.props }
  | r => { st with rules := st.rules ++ [r] }

/-- src/rules/mod.rs:532-957 `CssRuleList::minify`, the name defining rules. -/
def minify {D S : Type} (c : Ctx S) (rs : List (Rule D S)) : List (Rule D S) :=
  (rs.foldl (step c) ⟨[], [], []⟩).rules

/-! ### Parsing -/

/-- A token of the value of a `@font-feature-values` declaration: an integer, or anything else. -/
inductive Tok where
  | int (i : Int)
  | bad
  deriving DecidableEq, Repr

/-- src/rules/font_feature_values.rs:287-297: the loop of `parse_value`. `CSSInteger::parse` (src/values/number.rs:117-121) takes
a token before it fails, so the loop takes the first token that is not an integer with it. Returns the rest of the tokens. -/
def parseInts : List Tok → List Int × List Tok
  | [] => ([], [])
  | .int i :: ts => let r := parseInts ts; (i :: r.1, r.2)
  | .bad :: ts => ([], ts)

/-- src/rules/font_feature_values.rs:282-305 `parse_value`, inside of cssparser's `parse_entirely`, which makes the tokens that
are left an error. `none` is an error. -/
def parseFfvValue (ts : List Tok) : Option (List Int) :=
  let r := parseInts ts
  if r.1.isEmpty then none else if r.2.isEmpty then some r.1 else none

/-- src/rules/font_feature_values.rs:98-131 `parse_block` with error recovery: a declaration that is an error is skipped, another is
inserted; the map is the one of an earlier block of the same type if there is one. -/
def parseBlock (m : Body) (t : Nat) (decls : List (Nat × List Tok)) : Body :=
  let ds := (IMap.get t m).getD []
  IMap.insert t (decls.foldl (fun ds d =>
    match parseFfvValue d.2 with
    | some v => IMap.insert d.1 v ds
    | none => ds) ds) m

/-- src/rules/font_feature_values.rs:39-65 `parse`: the blocks one after the other. -/
def parseFfv (blocks : List (Nat × List (Nat × List Tok))) : Body :=
  blocks.foldl (fun m b => parseBlock m b.1 b.2) []

/-- A declaration in a `@property` rule: `syntax` (`none` if the string is not a syntax), `inherits` (`none` if it is not `true` or
`false`), `initial-value` with its value, and any other descriptor. `Y` is the type of syntaxes, `V` of unparsed values. -/
inductive Desc (Y V : Type) where
  | syntax (y : Option Y)
  | inherits (b : Option Bool)
  | initial (v : V)
  | unknown

/-- What `SyntaxString::parse_value` (src/values/syntax.rs:203-295) does: `universal` says that a syntax is `*`, `value y v` is the
component parsed from the *start* of `v` (`none` is an error): the callers do not look at what follows it. -/
structure SynCtx (Y V C : Type) where
  universal : Y → Bool
  value : Y → V → Option C

/-- src/rules/property.rs:48-104, :169-208: the descriptors of a block are parsed one after the other; the first error ends it. -/
def parseDescs {Y V : Type} : Option Y × Option Bool × Option V → List (Desc Y V) → Option (Option Y × Option Bool × Option V)
  | st, [] => some st
  | (_, i, v), .syntax (some y) :: ds => parseDescs (some y, i, v) ds
  | (y, _, v), .inherits (some b) :: ds => parseDescs (y, some b, v) ds
  | (y, i, _), .initial v :: ds => parseDescs (y, i, some v) ds
  | _, _ :: _ => none

/-- src/rules/property.rs:48-104 `PropertyRule::parse`: the syntax, whether it inherits, and the initial value. `none` is an error. -/
def parseProperty {Y V C : Type} (c : SynCtx Y V C) (ds : List (Desc Y V)) : Option (Y × Bool × Option C) :=
  match parseDescs (none, none, none) ds with
  | some (some y, some b, v) =>
    match v with
    | none => if c.universal y then some (y, b, none) else none
    | some v => (c.value y v).map (fun x => (y, b, some x))
  | _ => none

end Verif.Named
