import Verif.Selectors.MatchingProps
/-!
# Selectors: removal of unused symbols (C44)
-/
namespace Verif.Selectors.Unused

variable {E : Type}

/-! ## Model -/

mutual
/-- The body of the loop of `is_unused` over the components (src/selector.rs:2199-2216). The recursive
call `is_unused` is `listUnused` below, written out. -/
def componentUnused (U : List Str) (p : Bool) : Component → Bool
  | .cls n | .id n => U.contains n
  | .is l | .where l | .any l => !U.isEmpty && allUnused U p l
  | .nesting => p
  | _ => false
/-- `selectors.all(…)` (src/selector.rs:2197). -/
def allUnused (U : List Str) (p : Bool) : List Selector → Bool
  | [] => true
  | s :: ss => selectorUnused U p s && allUnused U p ss
/-- The loop over the components of one selector (src/selector.rs:2198-2219). -/
def selectorUnused (U : List Str) (p : Bool) : Selector → Bool
  | .mk _ cs => anyUnused U p cs
/-- The loop (src/selector.rs:2198-2219). -/
def anyUnused (U : List Str) (p : Bool) : List Component → Bool
  | [] => false
  | c :: cs => componentUnused U p c || anyUnused U p cs
end

/-- `is_unused` (src/selector.rs:2188-2221): `U` is the set of unused symbols, `p` is
`parent_is_unused`. -/
def listUnused (U : List Str) (p : Bool) (l : List Selector) : Bool :=
  if U.isEmpty then false else allUnused U p l

/-- A rule, as far as the removal of unused symbols is concerned. `style` and `nest` (`@nest`) have
selectors, declarations `D` and nested rules; `group` is `@media`, `@supports`, `@container` or
`@starting-style`; `scope` is `@scope`; `nested` is a nested declarations rule; `other` any rule with
neither selectors nor such rules inside. -/
inductive Rule (D : Type)
  | style (sels : List Selector) (decls : List D) (rules : List (Rule D))
  | nest (sels : List Selector) (decls : List D) (rules : List (Rule D))
  | group (cond : Nat) (rules : List (Rule D))
  | scope (root : Nat) (rules : List (Rule D))
  | nested (decls : List D)
  | other (n : Nat)

variable {D : Type}

mutual
/-- One round of the loop of `CssRuleList::minify` (src/rules/mod.rs:546-900), restricted to what
depends on unused symbols: style rules (668 and src/rules/style.rs:56-107), `@nest` (838-842,
src/rules/nesting.rs:33-41), conditional group rules (595-635, src/rules/media.rs:30-45,
src/rules/supports.rs:40-60, src/rules/container.rs:462-471, src/rules/starting_style.rs:27-36),
`@scope` (837, src/rules/scope.rs:62) and nested declarations (843-847, src/rules/nesting.rs:72-84).
Merging of rules, and the minification of declarations and conditions, are modelled elsewhere. -/
def Rule.minify (U : List Str) (p : Bool) : Rule D → List (Rule D)
  | .style sels decls rules =>
      if p then [] else
      if !U.isEmpty && listUnused U p sels then
        (if rules.isEmpty then [] else
          let rs := minifyList U true rules
          if rs.isEmpty then [] else [.style sels [] rs])
      else [.style sels decls (minifyList U false rules)]
  | .nest sels decls rules =>
      if !U.isEmpty && listUnused U p sels then
        (if rules.isEmpty then [] else
          let rs := minifyList U true rules
          if rs.isEmpty then [] else [.nest sels [] rs])
      else [.nest sels decls (minifyList U false rules)]
  | .group c rules =>
      let rs := minifyList U p rules
      if rs.isEmpty then [] else [.group c rs]
  | .scope r rules => [.scope r (minifyList U false rules)]
  | .nested decls => if p then [] else [.nested decls]
  | .other n => [.other n]
/-- `CssRuleList::minify` (src/rules/mod.rs:534-960). -/
def minifyList (U : List Str) (p : Bool) : List (Rule D) → List (Rule D)
  | [] => []
  | r :: rs => r.minify U p ++ minifyList U p rs
end

/-! ## Specification: which declarations apply to an element -/

/-- What the world gives: the document, the meaning of the simple selectors without selector
arguments except `&`, and which elements are scoping roots of the `@scope` rules. -/
structure World (E : Type) where
  dom : Dom E
  atom : Component → E → Bool
  scopeRoot : Nat → E → Bool

/-- `&` matches the elements the parent rule matches. -/
def World.atomIn (w : World E) (P : E → Bool) : Component → E → Bool
  | .nesting, e => P e
  | c, e => w.atom c e

/-- The elements a rule matches inside a rule that matches `P`. -/
def World.matched (w : World E) (P : E → Bool) (sels : List Selector) (e : E) : Bool :=
  matchesAny w.dom (w.atomIn P) sels e

mutual
/-- The declarations that apply to an element, in order, each with the conditions it is under. -/
def Rule.effects (w : World E) (P : E → Bool) (path : List Nat) (e : E) :
    Rule D → List (List Nat × D)
  | .style sels decls rules =>
      (if w.matched P sels e then decls.map (path, ·) else []) ++
        effectsList w (w.matched P sels) path e rules
  | .nest sels decls rules =>
      (if w.matched P sels e then decls.map (path, ·) else []) ++
        effectsList w (w.matched P sels) path e rules
  | .group c rules => effectsList w P (c :: path) e rules
  | .scope r rules => effectsList w (w.scopeRoot r) (r :: path) e rules
  | .nested decls => if P e then decls.map (path, ·) else []
  | .other _ => []
def effectsList (w : World E) (P : E → Bool) (path : List Nat) (e : E) :
    List (Rule D) → List (List Nat × D)
  | [] => []
  | r :: rs => r.effects w P path e ++ effectsList w P path e rs
end

/-- No element of the document has one of the symbols as a class or an id. -/
def World.Lacks (w : World E) (U : List Str) : Prop :=
  ∀ n ∈ U, ∀ x, w.atom (.cls n) x = false ∧ w.atom (.id n) x = false

/-- A selector that has `&` in one of its compounds (not inside a functional pseudo-class). A nested
selector without any `&` gets one by parsing. -/
def UsesParent (s : Selector) : Prop := Component.nesting ∈ s.comps

mutual
/-- Every rule inside uses its parent in each selector, and there is no `@scope`. -/
def Rule.AllDirect : Rule D → Prop
  | .style sels _ rules | .nest sels _ rules => (∀ s ∈ sels, UsesParent s) ∧ AllDirectList rules
  | .group _ rules => AllDirectList rules
  | .scope _ _ => False
  | .nested _ | .other _ => True
def AllDirectList : List (Rule D) → Prop
  | [] => True
  | r :: rs => r.AllDirect ∧ AllDirectList rs
end

mutual
/-- Style rules inside an unused rule use their parents. Nothing is asked of other rules. -/
def Rule.Direct (U : List Str) (p : Bool) : Rule D → Prop
  | .style sels decls rules =>
      if p then (∀ s ∈ sels, UsesParent s) ∧ AllDirectList rules
      else DirectList U (!U.isEmpty && listUnused U p sels) rules
  | .nest sels _ rules => DirectList U (!U.isEmpty && listUnused U p sels) rules
  | .group _ rules => DirectList U p rules
  | .scope _ rules => DirectList U false rules
  | .nested _ | .other _ => True
def DirectList (U : List Str) (p : Bool) : List (Rule D) → Prop
  | [] => True
  | r :: rs => r.Direct U p ∧ DirectList U p rs
end

/-! ## Proofs -/

/-- What the atoms satisfy when no element has an unused symbol and, if `p`, `&` matches nothing. -/
def Dead (U : List Str) (p : Bool) (atom : Component → E → Bool) : Prop :=
  (∀ n ∈ U, ∀ x, atom (.cls n) x = false ∧ atom (.id n) x = false) ∧
  (p = true → ∀ x, atom .nesting x = false)

mutual
theorem componentUnused_sound (d : Dom E) (U : List Str) (p : Bool) (atom : Component → E → Bool)
    (hd : Dead U p atom) : ∀ (c : Component), componentUnused U p c = true → ∀ x,
    ¬ c.Sem d (fun c e => atom c e = true) x
  | .cls n, h, x => by
    simp only [componentUnused, List.contains_iff_mem] at h
    simp [Component.Sem, (hd.1 n h x).1]
  | .id n, h, x => by
    simp only [componentUnused, List.contains_iff_mem] at h
    simp [Component.Sem, (hd.1 n h x).2]
  | .nesting, h, x => by
    simp only [componentUnused] at h
    simp [Component.Sem, hd.2 h x]
  | .is l, h, x => by
    simp only [componentUnused, Bool.and_eq_true] at h
    simp only [Component.Sem]; exact allUnused_sound d U p atom hd l h.2 x
  | .where l, h, x => by
    simp only [componentUnused, Bool.and_eq_true] at h
    simp only [Component.Sem]; exact allUnused_sound d U p atom hd l h.2 x
  | .any l, h, x => by
    simp only [componentUnused, Bool.and_eq_true] at h
    simp only [Component.Sem]; exact allUnused_sound d U p atom hd l h.2 x
  | .combinator _, h, x | .anyNamespace, h, x | .noNamespace, h, x | .defaultNamespace _, h, x
  | .namespace _ _, h, x | .universal, h, x | .localName _ _, h, x
  | .attrExists _, h, x | .attr _, h, x | .attrOther _, h, x | .negation _, h, x | .root, h, x
  | .empty, h, x | .scope, h, x | .nth _, h, x
  | .nthOf _ _, h, x | .pseudoClass _, h, x | .local _, h, x | .global _, h, x | .slotted _, h, x
  | .part _, h, x
  | .host, h, x | .hostFn _, h, x | .has _, h, x | .pseudoElement _, h, x
  | .viewTransitionAny _, h, x => by simp [componentUnused] at h
theorem allUnused_sound (d : Dom E) (U : List Str) (p : Bool) (atom : Component → E → Bool)
    (hd : Dead U p atom) : ∀ (l : List Selector), allUnused U p l = true → ∀ x,
    ¬ AnySem d (fun c e => atom c e = true) l x
  | [], _, x => by simp [AnySem]
  | s :: ss, h, x => by
    simp only [allUnused, Bool.and_eq_true] at h
    simp only [AnySem, not_or]
    exact ⟨selectorUnused_sound d U p atom hd s h.1 x, allUnused_sound d U p atom hd ss h.2 x⟩
theorem selectorUnused_sound (d : Dom E) (U : List Str) (p : Bool) (atom : Component → E → Bool)
    (hd : Dead U p atom) : ∀ (s : Selector), selectorUnused U p s = true → ∀ x,
    ¬ s.Sem d (fun c e => atom c e = true) x
  | .mk _ cs, h, x => by
    simp only [selectorUnused] at h
    simp only [Selector.Sem]
    exact anyUnused_sound d U p atom hd cs h x
theorem anyUnused_sound (d : Dom E) (U : List Str) (p : Bool) (atom : Component → E → Bool)
    (hd : Dead U p atom) : ∀ (cs : List Component), anyUnused U p cs = true → ∀ x,
    ¬ ComplexSem d (fun c e => atom c e = true) cs x
  | [], h, x => by simp [anyUnused] at h
  | c :: cs, h, x => by
    simp only [anyUnused, Bool.or_eq_true] at h
    by_cases hc : ∃ k, c = .combinator k
    · obtain ⟨k, rfl⟩ := hc
      rcases h with h | h
      · simp [componentUnused] at h
      · simp only [ComplexSem]
        rintro ⟨y, _, hy⟩
        exact anyUnused_sound d U p atom hd cs h y hy
    · rw [ComplexSem]
      · rintro ⟨h1, h2⟩
        rcases h with h | h
        · exact componentUnused_sound d U p atom hd c h x h1
        · exact anyUnused_sound d U p atom hd cs h x h2
      · intro k hk; exact hc ⟨k, hk⟩
end

theorem listUnused_sound (d : Dom E) (U : List Str) (p : Bool) (atom : Component → E → Bool)
    (hd : Dead U p atom) (l : List Selector) (h : listUnused U p l = true) (x : E) :
    ¬ AnySem d (fun c e => atom c e = true) l x := by
  simp only [listUnused] at h
  split at h
  · cases h
  · exact allUnused_sound d U p atom hd l h x

theorem dead_in {w : World E} {U : List Str} (hl : w.Lacks U) {p : Bool} {P : E → Bool}
    (hp : p = true → ∀ x, P x = false) : Dead U p (w.atomIn P) :=
  ⟨hl, hp⟩

theorem matched_false_of_not {w : World E} {P : E → Bool} {sels : List Selector}
    (h : ∀ x, ¬ AnySem w.dom (fun c e => w.atomIn P c e = true) sels x) (x : E) :
    w.matched P sels x = false := by
  unfold World.matched
  rw [Bool.eq_false_iff]
  intro hm
  exact h x ((matchesAny_iff _ _ _ _).1 hm)

theorem usesParent_not (d : Dom E) (atom : Component → E → Bool) (hd : ∀ x, atom .nesting x = false) :
    ∀ (cs : List Component), Component.nesting ∈ cs → ∀ x,
      ¬ ComplexSem d (fun c e => atom c e = true) cs x
  | [], h, x => by simp at h
  | c :: cs, h, x => by
    by_cases hc : ∃ k, c = .combinator k
    · obtain ⟨k, rfl⟩ := hc
      simp only [ComplexSem]
      rintro ⟨y, _, hy⟩
      exact usesParent_not d atom hd cs (by simpa using h) y hy
    · rw [ComplexSem]
      · rintro ⟨h1, h2⟩
        rcases List.mem_cons.1 h with h | h
        · subst h
          simp [Component.Sem, hd] at h1
        · exact usesParent_not d atom hd cs h x h2
      · intro k hk; exact hc ⟨k, hk⟩

theorem usesParent_any (d : Dom E) (atom : Component → E → Bool) (hd : ∀ x, atom .nesting x = false) :
    ∀ (l : List Selector), (∀ s ∈ l, UsesParent s) → ∀ x,
      ¬ AnySem d (fun c e => atom c e = true) l x
  | [], _, x => by simp [AnySem]
  | .mk n cs :: ss, h, x => by
    simp only [AnySem, Selector.Sem, not_or]
    exact ⟨usesParent_not d atom hd cs (h (.mk n cs) (by simp)) x,
      usesParent_any d atom hd ss (fun s hs => h s (by simp [hs])) x⟩

theorem matched_direct (w : World E) (P : E → Bool) (hp : ∀ x, P x = false) (sels : List Selector)
    (h : ∀ s ∈ sels, UsesParent s) (x : E) : w.matched P sels x = false :=
  matched_false_of_not (usesParent_any w.dom (w.atomIn P) hp sels h) x

mutual
theorem effects_silent (w : World E) (path : List Nat) (e : E)
    (P : E → Bool) (hp : ∀ x, P x = false) : ∀ (r : Rule D), r.AllDirect →
    r.effects w P path e = []
  | .style sels decls rules, h => by
    simp only [Rule.AllDirect] at h
    have hm := matched_direct w P hp sels h.1
    simp only [Rule.effects, hm e]
    simpa using effectsList_silent w path e _ hm rules h.2
  | .nest sels decls rules, h => by
    simp only [Rule.AllDirect] at h
    have hm := matched_direct w P hp sels h.1
    simp only [Rule.effects, hm e]
    simpa using effectsList_silent w path e _ hm rules h.2
  | .group c rules, h => by
    simp only [Rule.AllDirect] at h
    simp only [Rule.effects]
    exact effectsList_silent w _ e P hp rules h
  | .scope _ _, h => by simp [Rule.AllDirect] at h
  | .nested decls, _ => by simp [Rule.effects, hp e]
  | .other n, _ => by simp [Rule.effects]
/-- Inside a rule that matches nothing, rules that use their parents have no effect. -/
theorem effectsList_silent (w : World E) (path : List Nat) (e : E)
    (P : E → Bool) (hp : ∀ x, P x = false) : ∀ (rs : List (Rule D)), AllDirectList rs →
    effectsList w P path e rs = []
  | [], _ => by simp [effectsList]
  | r :: rs, h => by
    simp only [AllDirectList] at h
    simp only [effectsList, effects_silent w path e P hp r h.1,
      effectsList_silent w path e P hp rs h.2, List.append_nil]
end

theorem effectsList_append (w : World E) (P : E → Bool) (path : List Nat) (e : E)
    (a b : List (Rule D)) :
    effectsList w P path e (a ++ b) = effectsList w P path e a ++ effectsList w P path e b := by
  induction a with
  | nil => simp [effectsList]
  | cons r rs ih => simp [effectsList, ih]

theorem effectsList_one (w : World E) (P : E → Bool) (path : List Nat) (e : E) (r : Rule D) :
    effectsList w P path e [r] = r.effects w P path e := by simp [effectsList]

mutual
theorem minify_effects (w : World E) (U : List Str) (hl : w.Lacks U) (e : E) : ∀ (p : Bool)
    (P : E → Bool) (_ : p = true → ∀ x, P x = false) (path : List Nat) (r : Rule D), r.Direct U p →
    effectsList w P path e (r.minify U p) = r.effects w P path e
  | p, P, hp, path, .style sels decls rules, hd => by
    cases p with
    | true =>
      simp only [Rule.Direct, if_true] at hd
      simp only [Rule.minify, if_true, effectsList]
      exact (effects_silent w path e P (hp rfl) (.style sels decls rules)
        (by simp only [Rule.AllDirect]; exact hd)).symm
    | false =>
      simp only [Rule.Direct, Bool.false_eq_true, if_false] at hd
      simp only [Rule.minify, Bool.false_eq_true, if_false]
      split
      · rename_i hu
        rw [hu] at hd
        simp only [Bool.and_eq_true] at hu
        have hm : ∀ x, w.matched P sels x = false :=
          matched_false_of_not (listUnused_sound w.dom U false _ (dead_in hl hp) sels hu.2)
        have ih := minifyList_effects w U hl e true (w.matched P sels) (fun _ => hm) path rules hd
        split
        · rename_i hr
          rw [List.isEmpty_iff] at hr
          subst hr
          simp [effectsList, Rule.effects, hm e]
        · split
          · rename_i hr
            rw [List.isEmpty_iff] at hr
            rw [hr] at ih
            simp only [effectsList] at ih
            simp [Rule.effects, hm e, effectsList, ← ih]
          · rw [effectsList_one]
            simp [Rule.effects, hm e, ih]
      · rename_i hu
        rw [Bool.not_eq_true] at hu
        rw [hu] at hd
        have ih := minifyList_effects w U hl e false (w.matched P sels) (by simp) path rules hd
        rw [effectsList_one]
        simp only [Rule.effects, ih]
  | p, P, hp, path, .nest sels decls rules, hd => by
    simp only [Rule.Direct] at hd
    simp only [Rule.minify]
    split
    · rename_i hu
      rw [hu] at hd
      simp only [Bool.and_eq_true] at hu
      have hm : ∀ x, w.matched P sels x = false :=
        matched_false_of_not (listUnused_sound w.dom U p _ (dead_in hl hp) sels hu.2)
      have ih := minifyList_effects w U hl e true (w.matched P sels) (fun _ => hm) path rules hd
      split
      · rename_i hr
        rw [List.isEmpty_iff] at hr
        subst hr
        simp [effectsList, Rule.effects, hm e]
      · split
        · rename_i hr
          rw [List.isEmpty_iff] at hr
          rw [hr] at ih
          simp only [effectsList] at ih
          simp [Rule.effects, hm e, effectsList, ← ih]
        · rw [effectsList_one]
          simp [Rule.effects, hm e, ih]
    · rename_i hu
      rw [Bool.not_eq_true] at hu
      rw [hu] at hd
      have ih := minifyList_effects w U hl e false (w.matched P sels) (by simp) path rules hd
      rw [effectsList_one]
      simp only [Rule.effects, ih]
  | p, P, hp, path, .group c rules, hd => by
    simp only [Rule.Direct] at hd
    have ih := minifyList_effects w U hl e p P hp (c :: path) rules hd
    simp only [Rule.minify]
    split
    · rename_i hr
      rw [List.isEmpty_iff] at hr
      rw [hr] at ih
      simp only [effectsList] at ih
      simp [Rule.effects, effectsList, ← ih]
    · rw [effectsList_one]
      simp only [Rule.effects, ih]
  | p, P, hp, path, .scope r rules, hd => by
    simp only [Rule.Direct] at hd
    have ih := minifyList_effects w U hl e false (w.scopeRoot r) (by simp) (r :: path) rules hd
    simp only [Rule.minify]
    rw [effectsList_one]
    simp only [Rule.effects, ih]
  | p, P, hp, path, .nested decls, _ => by
    cases p with
    | true => simp [Rule.minify, effectsList, Rule.effects, hp rfl e]
    | false => simp [Rule.minify, effectsList, Rule.effects]
  | p, P, hp, path, .other n, _ => by simp [Rule.minify, effectsList]
theorem minifyList_effects (w : World E) (U : List Str) (hl : w.Lacks U) (e : E) : ∀ (p : Bool)
    (P : E → Bool) (_ : p = true → ∀ x, P x = false) (path : List Nat) (rs : List (Rule D)),
    DirectList U p rs →
    effectsList w P path e (minifyList U p rs) = effectsList w P path e rs
  | p, P, hp, path, [], _ => by simp [minifyList]
  | p, P, hp, path, r :: rs, hd => by
    simp only [DirectList] at hd
    simp only [minifyList, effectsList_append, effectsList,
      minify_effects w U hl e p P hp path r hd.1, minifyList_effects w U hl e p P hp path rs hd.2]
end

/-! ## Properties -/

/-- C44. A selector list is called unused only if it matches no element of any document in which the
unused symbols do not occur as classes or ids. -/
theorem is_unused_sound (d : Dom E) (atom : Component → E → Bool) (U : List Str) (l : List Selector)
    (hu : listUnused U false l = true)
    (hl : ∀ n ∈ U, ∀ x, atom (.cls n) x = false ∧ atom (.id n) x = false) (e : E) :
    ¬ ∃ s ∈ l, s.Sem d (fun c e => atom c e = true) e := by
  rw [← matching_list_correct, matchesAny_iff]
  exact listUnused_sound d U false atom ⟨hl, by simp⟩ l hu e

/-- C44, for the whole style sheet. In a document whose elements have none of the unused symbols as
class or id, each element gets the same declarations in the same order, under the same conditions,
before and after removal; provided style rules nested in unused rules use their parents in the plain
way (see `unused_negated_parent_wrong`). -/
theorem unused_removal_correct_partial (w : World E) (U : List Str) (hl : w.Lacks U) (P : E → Bool)
    (rs : List (Rule D)) (hd : DirectList U false rs) (e : E) :
    effectsList w P [] e (minifyList U false rs) = effectsList w P [] e rs :=
  minifyList_effects w U hl e false P (by simp) [] rs hd

/-- C44. With no unused symbols every rule with selectors stays, and only empty conditional rules are
dropped: the declarations that apply are the same with no condition at all. -/
theorem unused_removal_none (w : World E) (P : E → Bool) (rs : List (Rule D))
    (hd : DirectList [] false rs) (e : E) :
    effectsList w P [] e (minifyList [] false rs) = effectsList w P [] e rs :=
  minifyList_effects w [] (by intro n hn; simp at hn) e false P (by simp) [] rs hd

/-- Disagreement with C44: `.u { :not(&) { D } }` with `.u` unused applies D to every element, but the
inner rule is dropped with its parent. -/
theorem unused_negated_parent_wrong :
    let w : World Nat := ⟨exampleDom, fun _ _ => false, fun _ _ => false⟩
    let rs : List (Rule Nat) := [.style [.mk 0 [.cls ['u']]] []
      [.style [.mk 0 [.negation [.mk 0 [.nesting]]]] [7] []]]
    w.Lacks [['u']] ∧ effectsList w (fun _ => false) [] 3 rs = [([], 7)] ∧
    effectsList w (fun _ => false) [] 3 (minifyList [['u']] false rs) = [] := by
  refine ⟨?_, ?_, ?_⟩
  · intro n _ x; exact ⟨rfl, rfl⟩
  · decide
  · decide

/-! ### Non-vacuity -/

/-- `.u { a; .b & { c } @media { d } } .v:is(.u, .w) { f } :is(.u) .v { g }`: the first rule and the
last are removed. -/
example :
    let u : Selector := .mk 0 [.cls ['u']]
    let rs : List (Rule Nat) := [
      .style [u] [1] [.style [.mk 0 [.nesting, .combinator .descendant, .cls ['b']]] [2] [],
        .group 0 [.nested [3]]],
      .style [.mk 0 [.cls ['v'], .is [u, .mk 0 [.cls ['w']]]]] [4] [],
      .style [.mk 0 [.cls ['v'], .combinator .descendant, .is [u]]] [5] []]
    DirectList [['u']] false rs ∧ (minifyList [['u']] false rs).length = 1 := by
  simp [DirectList, Rule.Direct, listUnused, allUnused, selectorUnused, anyUnused, componentUnused,
    UsesParent, Selector.comps, AllDirectList, minifyList, Rule.minify, List.isEmpty]

end Verif.Selectors.Unused
