import Verif.Common.Chars
/-! Model of the rule list minifier: `CssRuleList::minify` and `merge_style_rules` (src/rules/mod.rs), with the parts of
`StyleRule` (src/rules/style.rs) it uses.

Selectors, property ids, values, conditions of group rules (`@media`, `@supports`, `@container`) and all other rules are abstract.
The declaration minifier is a parameter (it is modelled in `Verif.Handler`).
Not modelled here: selectors with vendor prefixes (`update_prefix` and the merging of equivalent prefixed selectors; the model is of
rules for which `get_prefix` returns nothing), unused symbols, `@layer` (`Verif.Layers`), `@keyframes` (`Verif.Keyframes`),
`@property`, `@font-feature-values`, `@scope`, `@nest`. The lists of the latter rules are opaque (`other`). -/
namespace Verif.Rules

/-- A declaration block: normal and important declarations, each a property id and a value (src/declaration.rs:40-47). -/
structure Block (I V : Type) where
  decls : List (I × V)
  imps : List (I × V)
deriving DecidableEq, Repr

/-- The property ids in the order of `DeclarationBlock::iter` (src/declaration.rs:311-316). -/
def Block.ids {I V : Type} (b : Block I V) : List I := (b.decls ++ b.imps).map (·.1)

/-- src/declaration.rs:267-269 `is_empty`. -/
def Block.isEmpty {I V : Type} (b : Block I V) : Bool := b.decls.isEmpty && b.imps.isEmpty

/-- Rules. `S` selectors, `I` property ids, `V` values, `G` conditions of group rules (with their kind), `O` other rules.
`style` has the source index of its location. `decls` is a nested declarations rule. -/
inductive Rule (S I V G O : Type)
  | style (sels : List S) (b : Block I V) (rules : List (Rule S I V G O)) (src : Nat)
  | group (g : G) (rules : List (Rule S I V G O))
  | decls (b : Block I V)
  | other (o : O)
  | ignored

/-- A style rule (src/rules/style.rs:34-52, without the vendor prefix). -/
structure Style (S I V G O : Type) where
  sels : List S
  b : Block I V
  rules : List (Rule S I V G O)
  src : Nat

variable {S I V G O E : Type}

/-- `CssRule::Style`. -/
def Style.rule (s : Style S I V G O) : Rule S I V G O := .style s.sels s.b s.rules s.src

/-- `if let CssRule::Style(style) = rule`. -/
def Rule.style? : Rule S I V G O → Option (Style S I V G O)
  | .style sels b rules src => some ⟨sels, b, rules, src⟩
  | _ => none

/-- The context of minification. `E` are the entries that the declaration minifier adds to the `PropertyHandlerContext` (logical
properties, `@supports` fallbacks, dark mode declarations). -/
structure Cfg (S I V G O E : Type) where
  /-- `is_compatible(selectors, targets)` of one selector (src/selector.rs:1801); a list is compatible if all are. -/
  compat : S → Bool
  /-- `should_compile_selectors` (src/targets.rs:238). -/
  compileSels : Bool
  /-- The condition for wrapping a selector list in `:is()` (src/rules/mod.rs:682-684). -/
  wrapOk : List S → Bool
  /-- `Component::Is(..).into()` (src/rules/mod.rs:686-690). -/
  isSel : List S → S
  /-- `DeclarationBlock::minify` in a style rule: the new block and the entries added to the context. -/
  minB : Block I V → Block I V × List E
  /-- `DeclarationBlock::minify` when two minified blocks are merged (no entries are added: src/context.rs:164 and all logical
  properties are already compiled). -/
  minM : Block I V → Block I V
  /-- `get_additional_rules` (src/context.rs:101-161). -/
  logical : List S → List E → List (Rule S I V G O)
  /-- `get_supports_rules` (src/context.rs:211-236). -/
  supports : List S → List E → List (Rule S I V G O)
  /-- What minifying another rule adds to the context (keyframes: src/rules/keyframes.rs:125-135). -/
  leak : O → List E
  /-- The condition of a group rule after `transform_custom_media`, `transform_resolution`, `set_prefixes_for_targets`. -/
  trans : G → G
  /-- `never_matches` for `@media`; `false` for other group rules (src/rules/media.rs:43, supports: rules/mod.rs:617-634). -/
  never : G → Bool
  /-- `context.css_modules`. -/
  cssModules : Bool
  /-- The hash of selectors and property ids (src/rules/style.rs:152-159). -/
  hash : List S → List I → Nat
  /-- Which of several matching entries a `HashMap` finds. -/
  choose : List (Nat × Nat × Nat) → Option (Nat × Nat × Nat)

/-- src/rules/style.rs:110-112 `is_empty`. -/
def Style.isEmpty (s : Style S I V G O) : Bool := s.sels.isEmpty || (s.b.isEmpty && s.rules.isEmpty)

/-- src/rules/style.rs:164-172 `is_duplicate`. -/
def Style.isDuplicate [DecidableEq S] [DecidableEq I] (s t : Style S I V G O) : Bool :=
  (s.b.decls.length + s.b.imps.length == t.b.decls.length + t.b.imps.length) && decide (s.sels = t.sels) &&
    decide (s.b.ids = t.b.ids)

/-- src/rules/mod.rs:961-1018 `merge_style_rules`: what is left of the first rule, and the second rule, if they are merged. -/
def mergeStyle [DecidableEq S] [DecidableEq I] [DecidableEq V] (c : Cfg S I V G O E) (style last : Style S I V G O) :
    Option (Style S I V G O × Style S I V G O) :=
  if style.sels = last.sels ∧ style.sels.all c.compat ∧ last.sels.all c.compat ∧ style.rules.isEmpty ∧ last.rules.isEmpty ∧
      (!c.cssModules ∨ style.src = last.src) then
    some ({ style with b := ⟨[], []⟩ },
      { last with b := c.minM ⟨last.b.decls ++ style.b.decls, last.b.imps ++ style.b.imps⟩ })
  else if style.b = last.b ∧ style.rules.isEmpty ∧ last.rules.isEmpty then
    if style.sels.all c.compat ∧ last.sels.all c.compat then
      some ({ style with sels := [] }, { last with sels := last.sels ++ style.sels })
    else none
  else none

/-- The `while` loop of src/rules/mod.rs:719-731. `last` is the last rule, the list holds the rules before it, in reverse. -/
def mergeUp [DecidableEq S] [DecidableEq I] [DecidableEq V] (c : Cfg S I V G O E) (last : Style S I V G O) :
    List (Rule S I V G O) → List (Rule S I V G O)
  | [] => [last.rule]
  | prev :: rest =>
    match prev.style? with
    | some p =>
      match mergeStyle c last p with
      | some (_, p') => mergeUp c p' rest
      | none => last.rule :: prev :: rest
    | none => last.rule :: prev :: rest

/-- src/rules/mod.rs:712-734: try to merge with the last rule. The new list of rules and what is left of the style rule, or `none`. -/
def tryMerge [DecidableEq S] [DecidableEq I] [DecidableEq V] (c : Cfg S I V G O E) (style : Style S I V G O)
    (rules : List (Rule S I V G O)) : Option (List (Rule S I V G O) × Style S I V G O) :=
  match rules.reverse with
  | [] => none
  | last :: rest =>
    match last.style? with
    | some l =>
      match mergeStyle c style l with
      | some (s', l') => some ((mergeUp c l' rest).reverse, s')
      | none => none
    | none => none

/-- The state of the loop: the rules so far, `style_rules` as a list of (hash, index in the key, value), the entries in the
handler context, and a ghost flag that none of the harmful events (see `Props`) has happened. -/
structure St (S I V G O E : Type) where
  rules : List (Rule S I V G O)
  keys : List (Nat × Nat × Nat)
  ex : List E
  good : Bool

/-- `StyleRuleKey::eq` (src/rules/mod.rs:1148-1162). -/
def keyEq [DecidableEq S] [DecidableEq I] (rules : List (Rule S I V G O)) (i j : Nat) : Bool :=
  match rules[i]?.bind Rule.style?, rules[j]?.bind Rule.style? with
  | some a, some b => a.isDuplicate b
  | _, _ => false

/-- The entries of the map that match the key of the rule at `idx`. -/
def matching [DecidableEq S] [DecidableEq I] (rules : List (Rule S I V G O)) (keys : List (Nat × Nat × Nat)) (h idx : Nat) :
    List (Nat × Nat × Nat) :=
  keys.filter fun k => k.1 == h && keyEq rules k.2.1 idx

/-- `HashMap::insert`: a matching entry keeps its key and gets the new value. -/
def insertKey [DecidableEq S] [DecidableEq I] (c : Cfg S I V G O E) (rules : List (Rule S I V G O)) (keys : List (Nat × Nat × Nat))
    (h idx : Nat) : List (Nat × Nat × Nat) :=
  match c.choose (matching rules keys h idx) with
  | some k => keys.map fun k' => if k' = k then (k.1, k.2.1, idx) else k'
  | none => (h, idx, idx) :: keys

/-- Ghost: removing the rule at `i` because of the rule `s` at `idx` is harmless. -/
def goodRemoval [DecidableEq S] [DecidableEq I] (rules : List (Rule S I V G O)) (i idx : Nat) (s : Style S I V G O) : Bool :=
  decide (i < idx) &&
    match rules[i]?.bind Rule.style? with
    | some o => o.isDuplicate s && o.rules.isEmpty && o.b.imps.length == s.b.imps.length
    | none => false

/-- src/rules/mod.rs:779-805: push a style rule and remove an earlier duplicate. -/
def pushStyle [DecidableEq S] [DecidableEq I] (c : Cfg S I V G O E) (s : Style S I V G O) (st : St S I V G O E) : St S I V G O E :=
  let idx := st.rules.length
  let rules := st.rules ++ [s.rule]
  if s.rules.isEmpty then
    let h := c.hash s.sels s.b.ids
    if idx > 0 then
      match c.choose (matching rules st.keys h idx) with
      | some k =>
        let keys := st.keys.filter (· ≠ k)
        match rules[k.2.2]?.bind Rule.style? with
        | some other =>
          if !c.cssModules ∨ s.src = other.src then
            let rules' := rules.set k.2.2 .ignored
            { st with rules := rules', keys := insertKey c rules' keys h idx, good := st.good && goodRemoval rules k.2.2 idx s }
          else { st with rules := rules, keys := insertKey c rules keys h idx }
        | none => { st with rules := rules, keys := insertKey c rules keys h idx }
      | none => { st with rules := rules, keys := insertKey c rules st.keys h idx }
    else { st with rules := rules, keys := insertKey c rules st.keys h idx }
  else { st with rules := rules }

/-- src/rules/mod.rs:674-708: wrap the selectors in `:is()` or split off the incompatible ones. -/
def splitSels (c : Cfg S I V G O E) (s : Style S I V G O) : Style S I V G O × List S :=
  if s.sels.length > 1 ∧ c.compileSels ∧ ¬ s.sels.all c.compat then
    if c.wrapOk s.sels then ({ s with sels := [c.isSel s.sels] }, [])
    else ({ s with sels := s.sels.filter c.compat }, s.sels.filter (!c.compat ·))
  else (s, [])

/-- Push rules without any check (`rules.extend`). -/
def St.extend (st : St S I V G O E) (rs : List (Rule S I V G O)) : St S I V G O E := { st with rules := st.rules ++ rs }

/-- `CssRuleList(logical).minify(context)` and `rules.extend`; `rec` is the recursive call. -/
def St.extendMin (rec : List (Rule S I V G O) → List E → List (Rule S I V G O) × List E × Bool) (st : St S I V G O E)
    (rs : List (Rule S I V G O)) : St S I V G O E :=
  if rs.isEmpty then st
  else
    let r := rec rs st.ex
    { st with rules := st.rules ++ r.1, ex := r.2.1, good := st.good && r.2.2 }

/-- The rules for one incompatible selector (src/rules/mod.rs:814-824, with 740-754). -/
def pushIncompatible (rec : List (Rule S I V G O) → List E → List (Rule S I V G O) × List E × Bool) (c : Cfg S I V G O E)
    (s : Style S I V G O) (ex : List E) (st : St S I V G O E) (sel : S) : St S I V G O E :=
  let clone := { s with sels := [sel] }
  let st := if clone.isEmpty then st else st.extend [clone.rule]
  (st.extendMin rec (c.logical [sel] ex)).extend (c.supports [sel] ex)

/-- The second half of the treatment of a style rule (src/rules/mod.rs:736-830): `s` is what is left of the rule after merging, `inc`
the incompatible selectors, `ex` the entries of the context. -/
def finishStyle [DecidableEq S] [DecidableEq I]
    (rec : List (Rule S I V G O) → List E → List (Rule S I V G O) × List E × Bool) (c : Cfg S I V G O E) (s : Style S I V G O)
    (inc : List S) (ex : List E) (merged : Bool) (st : St S I V G O E) : St S I V G O E :=
  let supports := c.supports s.sels ex
  let logical := c.logical s.sels ex
  let st := { st with ex := [] }
  let split := !s.rules.isEmpty && !s.sels.isEmpty && (!logical.isEmpty || !supports.isEmpty || !inc.isEmpty)
  let s' := if split then { s with rules := [] } else s
  let st := if !merged && !s'.isEmpty then pushStyle c s' st else st
  let st := (st.extendMin rec logical).extend supports
  let st := inc.foldl (pushIncompatible rec c s ex) st
  if split then st.extend [({ s with b := ⟨[], []⟩ } : Style S I V G O).rule] else st

/-- A style rule (src/rules/mod.rs:667-831; 56-106 of src/rules/style.rs for `StyleRule::minify`). The code mutates one rule; here
`s1` is the rule after `StyleRule::minify`, `s2` after the selectors were split, `s3` what is left after merging. -/
def doStyle [DecidableEq S] [DecidableEq I] [DecidableEq V]
    (rec : List (Rule S I V G O) → List E → List (Rule S I V G O) × List E × Bool) (c : Cfg S I V G O E) (s : Style S I V G O)
    (st : St S I V G O E) : St S I V G O E :=
  let m := c.minB s.b
  let n := if s.rules.isEmpty then ([], [], true) else rec s.rules []
  let ex := st.ex ++ m.2
  let s1 := { s with b := m.1, rules := n.1 }
  let sp := splitSels c s1
  let s2 := sp.1
  -- harmful: nested rules of a rule whose selectors are split
  let good := st.good && n.2.2 && (sp.2.isEmpty || s1.rules.isEmpty)
  match tryMerge c s2 st.rules with
  | some (rules, s3) =>
    -- harmful: the declarations or selectors that the following rules need have been moved away
    let good := good && (sp.2.isEmpty || decide (s3.b = s2.b)) && (ex.isEmpty || decide (s3.sels = s2.sels))
    finishStyle rec c s3 sp.2 ex true { st with rules := rules, good := good }
  | none => finishStyle rec c s2 sp.2 ex false { st with good := good }

/-- One rule of the loop (src/rules/mod.rs:546-898). -/
def doRule [DecidableEq S] [DecidableEq I] [DecidableEq V] [DecidableEq G]
    (rec : List (Rule S I V G O) → List E → List (Rule S I V G O) × List E × Bool) (c : Cfg S I V G O E) (r : Rule S I V G O)
    (st : St S I V G O E) : St S I V G O E :=
  match r with
  | .style sels b rules src => doStyle rec c ⟨sels, b, rules, src⟩ st
  | .group g rules =>
    match st.rules.reverse with
    | .group g' rules' :: rest =>
      if g' = g then
        let r := rec (rules' ++ rules) st.ex
        { st with rules := rest.reverse ++ [.group (c.trans g') r.1], ex := r.2.1, good := st.good && r.2.2 }
      else
        let r := rec rules st.ex
        let st := { st with ex := r.2.1, good := st.good && r.2.2 }
        if r.1.isEmpty || c.never (c.trans g) then st else st.extend [.group (c.trans g) r.1]
    | _ =>
      let r := rec rules st.ex
      let st := { st with ex := r.2.1, good := st.good && r.2.2 }
      if r.1.isEmpty || c.never (c.trans g) then st else st.extend [.group (c.trans g) r.1]
  | .decls b =>
    let m := c.minB b
    -- harmful: the entries stay in the context
    { st with rules := st.rules ++ [.decls m.1], ex := st.ex ++ m.2, good := st.good && m.2.isEmpty }
  | .other o => { st with rules := st.rules ++ [.other o], ex := st.ex ++ c.leak o, good := st.good && (c.leak o).isEmpty }
  | .ignored => { st with rules := st.rules ++ [.ignored] }

/-- src/rules/mod.rs:534-958 `CssRuleList::minify`: the new rules, the entries left in the context and the ghost flag. The code
recurses without a bound; `fuel` bounds the depth of the recursion, and all theorems hold for every fuel. -/
def minify [DecidableEq S] [DecidableEq I] [DecidableEq V] [DecidableEq G] (c : Cfg S I V G O E) :
    Nat → List (Rule S I V G O) → List E → List (Rule S I V G O) × List E × Bool
  | 0, rs, ex => (rs, ex, true)
  | fuel + 1, rs, ex =>
    let st := rs.foldl (fun st r => doRule (minify c fuel) c r st) ⟨[], [], ex, true⟩
    (st.rules, st.ex, st.good)

end Verif.Rules
