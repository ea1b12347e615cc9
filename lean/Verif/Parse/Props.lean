import Verif.Parse.Spec
namespace Verif.Parse
open Spec

theorem readRules_append (imp : Bool) (path : List (Bool × Nat)) (a b : List Rule) : readRules imp path (a ++ b) = readRules imp path a ++ readRules imp path b := by
  induction a with
  | nil => rfl
  | cons r a ih => show readRule imp path r ++ readRules imp path (a ++ b) = _; rw [ih, ← List.append_assoc]; rfl

theorem readRules_one (imp : Bool) (path : List (Bool × Nat)) (r : Rule) : readRules imp path [r] = readRule imp path r := by
  show readRule imp path r ++ [] = _; rw [List.append_nil]

theorem readRule_nested (imp : Bool) (path : List (Bool × Nat)) (ds is : List Nat) : readRule imp path (.nested ds is) = (if imp then is else ds).map (Entry.decl path) := by unfold readRule; rfl

/-- What a state says. -/
def says (imp : Bool) (path : List (Bool × Nat)) (s : St) : List Entry := (if imp then s.imps else s.decls).map (Entry.decl path) ++ readRules imp path s.rules

theorem says_push (imp : Bool) (path : List (Bool × Nat)) (s : St) (r : Rule) : says imp path (s.push r) = says imp path s ++ readRule imp path r := by
  show _ ++ readRules imp path (s.rules ++ [r]) = _
  rw [readRules_append, readRules_one, ← List.append_assoc]
  rfl

theorem addTo_read (imp : Bool) (path : List (Bool × Nat)) (d : Nat) (i : Bool) (ds is : List Nat) :
    (if imp then (addTo d i ds is).2 else (addTo d i ds is).1).map (Entry.decl path) = (if imp then is else ds).map (Entry.decl path) ++ (if i = imp then [Entry.decl path d] else []) := by
  unfold addTo
  cases imp <;> cases i <;> simp

theorem says_decl (imp : Bool) (path : List (Bool × Nat)) (s : St) (d : Nat) (i : Bool) : says imp path (addDecl s d i) = says imp path s ++ if i = imp then [.decl path d] else [] := by
  unfold addDecl
  by_cases hr : s.rules.isEmpty = true
  · rw [if_pos hr]
    unfold says
    simp only
    have : s.rules = [] := by simpa using hr
    rw [addTo_read, this]
    show _ ++ [] = (_ ++ []) ++ _
    rw [List.append_nil, List.append_nil]
  · rw [if_neg hr]
    have hp : says imp path (s.push (.nested (addTo d i [] []).1 (addTo d i [] []).2)) = says imp path s ++ if i = imp then [.decl path d] else [] := by
      rw [says_push, readRule_nested, addTo_read]
      cases imp <;> rfl
    cases hl : s.rules.getLast? with
    | none => exact hp
    | some r =>
      cases r with
      | nested ds is =>
        have e : s.rules = s.rules.dropLast ++ [.nested ds is] := by
          obtain ⟨ys, hy⟩ := List.getLast?_eq_some_iff.1 hl
          rw [hy, List.dropLast_concat]
        show says imp path { s with rules := s.rules.dropLast ++ [.nested (addTo d i ds is).1 (addTo d i ds is).2] } = _
        unfold says
        simp only
        conv => rhs; rw [e]
        rw [readRules_append, readRules_append, readRules_one, readRules_one, readRule_nested, readRule_nested, addTo_read, List.append_assoc, List.append_assoc]
      | style _ _ _ _ => exact hp
      | group _ _ => exact hp
      | leaf _ => exact hp
      | parts _ _ => exact hp
      | layer _ => exact hp
      | unknown _ => exact hp

theorem says_styleBlock (imp : Bool) (path : List (Bool × Nat)) (s : St) : readRules imp path (styleBlock s) = says imp path s := by
  unfold styleBlock says
  by_cases h : (s.decls.isEmpty && s.imps.isEmpty) = true
  · rw [if_pos h]
    simp only [Bool.and_eq_true, List.isEmpty_iff] at h
    rw [h.1, h.2]
    cases imp <;> rfl
  · rw [if_neg h]; rfl

/-- Whether the state has no leading declarations. -/
def St.bare (s : St) : Prop := s.decls = [] ∧ s.imps = []

theorem fail_recover (allow : Bool) (s : St) : ∃ t, fail true allow s = some t := by
  unfold fail; cases allow <;> simp

theorem finish_recover (allow : Bool) (s : St) : finish true allow s = some s := by
  unfold finish; simp

theorem ite_recover (c allow : Bool) (s t : St) : ∃ u, (if c then fail true allow s else some t) = some u := by
  cases c
  · exact ⟨t, rfl⟩
  · exact fail_recover allow s

mutual
theorem item_recover (inStyle allow : Bool) (s : St) : ∀ i : Item, ∃ t, parseItem true inStyle allow s i = some t
  | .decl d i => by
    unfold parseItem
    by_cases h : allow = true
    · rw [if_pos h]; exact ⟨_, rfl⟩
    · rw [if_neg h]; exact fail_recover _ s
  | .bad => by unfold parseItem; exact fail_recover _ s
  | .style sel body => by
    unfold parseItem
    obtain ⟨b, hb⟩ := body_recover true true {} body
    rw [hb]; simp only; rw [finish_recover]; exact ⟨_, rfl⟩
  | .group g body => by
    unfold parseItem
    obtain ⟨b, hb⟩ := body_recover inStyle (allow || inStyle) {} body
    rw [hb]; simp only; rw [finish_recover]; exact ⟨_, rfl⟩
  | .leaf n => by unfold parseItem; exact ite_recover _ _ _ _
  | .parts n ps => by unfold parseItem; exact ite_recover _ _ _ _
  | .layer n => by unfold parseItem; exact ite_recover _ _ _ _
  | .unknown n => ⟨_, by unfold parseItem; rfl⟩
  | .property n => ⟨_, by unfold parseItem; rfl⟩

theorem body_recover (inStyle allow : Bool) (s : St) : ∀ is : List Item, ∃ t, parseBody true inStyle allow s is = some t
  | [] => ⟨s, by unfold parseBody; rfl⟩
  | i :: is => by
    obtain ⟨t, ht⟩ := item_recover inStyle allow s i
    obtain ⟨u, hu⟩ := body_recover inStyle allow t is
    exact ⟨u, by unfold parseBody; rw [ht]; exact hu⟩
end

/-- **C164** With error recovery, parsing never fails, whatever the items. -/
theorem C164_never_fails (items : List Item) : ∃ rules, parseSheet true items = some rules := by
  obtain ⟨t, ht⟩ := body_recover false false {} items
  exact ⟨t.rules, by unfold parseSheet; rw [ht]; rfl⟩


theorem fail_says (allow : Bool) (s t : St) (h : fail true allow s = some t) (hb : allow = true → s.bare) : (∀ imp path, says imp path t = says imp path s) ∧ (allow = true → t.bare) := by
  unfold fail at h
  cases allow with
  | false => cases h; exact ⟨fun _ _ => rfl, fun h => nomatch h⟩
  | true =>
    simp only [if_true, Option.some.injEq] at h
    subst h
    refine ⟨fun imp path => ?_, fun _ => ⟨rfl, rfl⟩⟩
    obtain ⟨h1, h2⟩ := hb rfl
    unfold says
    simp only
    rw [h1, h2]

/-- Invalid items to come do no harm. -/
def Harmless (inStyle allow : Bool) (s : St) (is : List Item) : Prop := allow = true → s.bare ∨ ∀ j ∈ is, invalid inStyle allow j = false

mutual
theorem item_says (inStyle allow : Bool) (s t : St) : ∀ (i : Item), parseItem true inStyle allow s i = some t → EarlyErrors inStyle allow i → noProperty inStyle i = true →
    (invalid inStyle allow i = true → allow = true → s.bare) → (∀ imp path, says imp path t = says imp path s ++ readItem imp inStyle allow path i) ∧ (isDecl i = false → s.bare → t.bare)
  | .decl d i, h, _, _, hb => by
    unfold parseItem at h
    refine ⟨fun imp path => ?_, fun h => nomatch h⟩
    unfold readItem
    by_cases ha : allow = true
    · rw [if_pos ha] at h
      cases h
      rw [says_decl]
      simp only [ha, true_and]
    · rw [if_neg ha] at h
      rw [(fail_says allow s t h (fun h => absurd h ha)).1, if_neg (fun h => ha h.1), List.append_nil]
  | .bad, h, _, _, hb => by
    unfold parseItem at h
    have := fail_says allow s t h (hb rfl)
    refine ⟨fun imp path => ?_, fun _ hs => ?_⟩
    · unfold readItem; rw [this.1, List.append_nil]
    · by_cases ha : allow = true
      · exact this.2 ha
      · unfold fail at h; rw [if_neg ha] at h; cases h; exact hs
  | .style sel body, h, he, hp, _ => by
    unfold parseItem at h
    obtain ⟨b, hb⟩ := body_recover true true {} body
    rw [hb] at h
    simp only [finish_recover, Option.some.injEq] at h
    subst h
    unfold EarlyErrors at he
    unfold noProperty at hp
    have ih := body_says true true {} b body hb he hp (fun _ => .inl ⟨rfl, rfl⟩)
    refine ⟨fun imp path => ?_, fun _ hs => hs⟩
    rw [says_push]
    unfold readItem readRule
    have := ih imp (path ++ [(true, sel)])
    unfold says at this
    rw [this]
    cases imp <;> rfl
  | .group g body, h, he, hp, _ => by
    unfold parseItem at h
    obtain ⟨b, hb⟩ := body_recover inStyle (allow || inStyle) {} body
    rw [hb] at h
    simp only [finish_recover, Option.some.injEq] at h
    subst h
    unfold EarlyErrors at he
    unfold noProperty at hp
    have ih := body_says inStyle (allow || inStyle) {} b body hb he hp (fun _ => .inl ⟨rfl, rfl⟩)
    refine ⟨fun imp path => ?_, fun _ hs => hs⟩
    rw [says_push]
    unfold readItem readRule
    rw [says_styleBlock, ih imp (path ++ [(false, g)])]
    cases imp <;> rfl
  | .leaf n, h, _, _, hb => by
    unfold parseItem at h
    by_cases hi : inStyle = true
    · rw [if_pos hi] at h
      have := fail_says allow s t h (hb hi)
      refine ⟨fun imp path => ?_, fun _ hs => ?_⟩
      · unfold readItem; rw [if_pos hi, this.1, List.append_nil]
      · by_cases ha : allow = true
        · exact this.2 ha
        · unfold fail at h; rw [if_neg ha] at h; cases h; exact hs
    · rw [if_neg hi] at h
      cases h
      refine ⟨fun imp path => ?_, fun _ hs => hs⟩
      rw [says_push]; unfold readItem readRule; rw [if_neg hi]
  | .parts n ps, h, _, _, hb => by
    unfold parseItem at h
    by_cases hi : inStyle = true
    · rw [if_pos hi] at h
      have := fail_says allow s t h (hb hi)
      refine ⟨fun imp path => ?_, fun _ hs => ?_⟩
      · unfold readItem; rw [if_pos hi, this.1, List.append_nil]
      · by_cases ha : allow = true
        · exact this.2 ha
        · unfold fail at h; rw [if_neg ha] at h; cases h; exact hs
    · rw [if_neg hi] at h
      cases h
      refine ⟨fun imp path => ?_, fun _ hs => hs⟩
      rw [says_push]; unfold readItem readRule; rw [if_neg hi]
  | .layer n, h, _, _, hb => by
    unfold parseItem at h
    by_cases hi : inStyle = true
    · rw [if_pos hi] at h
      have := fail_says allow s t h (hb hi)
      refine ⟨fun imp path => ?_, fun _ hs => ?_⟩
      · unfold readItem; rw [if_pos hi, this.1, List.append_nil]
      · by_cases ha : allow = true
        · exact this.2 ha
        · unfold fail at h; rw [if_neg ha] at h; cases h; exact hs
    · rw [if_neg hi] at h
      cases h
      refine ⟨fun imp path => ?_, fun _ hs => hs⟩
      rw [says_push]; unfold readItem readRule; rw [if_neg hi]
  | .unknown n, h, _, _, _ => by
    unfold parseItem at h
    cases h
    refine ⟨fun imp path => ?_, fun _ hs => hs⟩
    rw [says_push]; unfold readItem readRule; rfl
  | .property n, h, _, hp, _ => by
    unfold parseItem at h
    cases h
    unfold noProperty at hp
    have hi : ¬ inStyle = true := by simpa using hp
    refine ⟨fun imp path => ?_, fun _ hs => hs⟩
    rw [says_push]; unfold readItem readRule; rw [if_neg hi]

theorem body_says (inStyle allow : Bool) (s t : St) : ∀ (is : List Item), parseBody true inStyle allow s is = some t → EarlyErrorsAll inStyle allow is → noPropertyAll inStyle is = true →
    Harmless inStyle allow s is → ∀ imp path, says imp path t = says imp path s ++ readItems imp inStyle allow path is
  | [], h, _, _, _ => by
    unfold parseBody at h
    cases h
    intro imp path
    unfold readItems
    rw [List.append_nil]
  | i :: is, h, he, hp, hh => by
    intro imp path
    unfold parseBody at h
    obtain ⟨u, hu⟩ := item_recover inStyle allow s i
    rw [hu] at h
    unfold EarlyErrorsAll at he
    unfold noPropertyAll at hp
    simp only [Bool.and_eq_true] at hp
    have h1 := item_says inStyle allow s u i hu he.1 hp.1 (by
      intro hi ha
      rcases hh ha with h | h
      · exact h
      · rw [h i List.mem_cons_self] at hi; cases hi)
    have h2 := body_says inStyle allow u t is h he.2.2 hp.2 (by
      intro ha
      by_cases hd : isDecl i = true
      · exact .inr (he.2.1 hd ha)
      · rcases hh ha with h | h
        · exact .inl (h1.2 (by simpa using hd) h)
        · exact .inr fun j hj => h j (List.mem_cons_of_mem _ hj))
    rw [h2, h1.1, List.append_assoc]
    conv => rhs; rw [readItems]
end

/-- **C165 (partial)** With error recovery, the parsed sheet says what browsers read of the source: all that is valid, in the order of the source, at every depth; if in every block no invalid item comes after a declaration and no `@property` is in a style rule. What is missing: `C165_lost` (an invalid item deletes the declarations before it), `C165_property`. -/
theorem C165_recovery_partial (items : List Item) (he : EarlyErrorsAll false false items) (hp : noPropertyAll false items = true) :
    ∃ rules, parseSheet true items = some rules ∧ ∀ imp, readRules imp [] rules = readItems imp false false [] items := by
  obtain ⟨t, ht⟩ := body_recover false false {} items
  refine ⟨t.rules, by unfold parseSheet; rw [ht]; rfl, fun imp => ?_⟩
  have h := body_says false false {} t items ht he hp (fun h => nomatch h) imp []
  have hd : ∀ (is : List Item) (s u : St), parseBody true false false s is = some u → s.bare → u.bare := by
    intro is
    induction is with
    | nil => intro s u h hs; unfold parseBody at h; cases h; exact hs
    | cons i is ih =>
      intro s u h hs
      unfold parseBody at h
      cases hi : parseItem true false false s i with
      | none => rw [hi] at h; cases h
      | some v =>
        rw [hi] at h
        refine ih v u h ?_
        cases i with
        | decl d k => unfold parseItem fail at hi; cases hi; exact hs
        | bad => unfold parseItem fail at hi; cases hi; exact hs
        | style sel body =>
          unfold parseItem at hi
          obtain ⟨b, hb⟩ := body_recover true true {} body
          rw [hb] at hi; simp only [finish_recover, Option.some.injEq] at hi; subst hi; exact hs
        | group g body =>
          unfold parseItem at hi
          obtain ⟨b, hb⟩ := body_recover false (false || false) {} body
          rw [hb] at hi; simp only [finish_recover, Option.some.injEq] at hi; subst hi; exact hs
        | leaf n => unfold parseItem at hi; cases hi; exact hs
        | parts n ps => unfold parseItem at hi; cases hi; exact hs
        | layer n => unfold parseItem at hi; cases hi; exact hs
        | unknown n => unfold parseItem at hi; cases hi; exact hs
        | property n => unfold parseItem at hi; cases hi; exact hs
  have hb := hd items {} t ht ⟨rfl, rfl⟩
  unfold says at h
  rw [hb.1, hb.2] at h
  cases imp <;> exact h


/-! ### Without error recovery -/

theorem addDecl_errors (s : St) (d : Nat) (i : Bool) : (addDecl s d i).errors = s.errors := by
  unfold addDecl
  by_cases hr : s.rules.isEmpty = true
  · rw [if_pos hr]
  · rw [if_neg hr]
    cases s.rules.getLast? with
    | none => rfl
    | some r => cases r <;> rfl

theorem finish_ok (r allow : Bool) (s : St) (h : s.errors = false) : finish r allow s = some s := by
  unfold finish; rw [h]; simp

mutual
theorem item_same (inStyle allow : Bool) (s : St) : ∀ i : Item, cleanItem inStyle allow i = true → ∃ t, parseItem true inStyle allow s i = some t ∧ parseItem false inStyle allow s i = some t ∧ t.errors = s.errors
  | .decl d i, h => by
    unfold cleanItem at h
    exact ⟨addDecl s d i, by unfold parseItem; rw [if_pos h], by unfold parseItem; rw [if_pos h], addDecl_errors s d i⟩
  | .bad, h => by unfold cleanItem at h; cases h
  | .style sel body, h => by
    unfold cleanItem at h
    obtain ⟨b, h1, h2, h3⟩ := body_same true true {} body h
    have h3 : b.errors = false := h3
    refine ⟨s.push (.style sel b.decls b.imps b.rules), ?_, ?_, rfl⟩
    · unfold parseItem; rw [h1]; simp only [finish_ok _ _ b h3]
    · unfold parseItem; rw [h2]; simp only [finish_ok _ _ b h3]
  | .group g body, h => by
    unfold cleanItem at h
    obtain ⟨b, h1, h2, h3⟩ := body_same inStyle (allow || inStyle) {} body h
    have h3 : b.errors = false := h3
    refine ⟨s.push (.group g (styleBlock b)), ?_, ?_, rfl⟩
    · unfold parseItem; rw [h1]; simp only [finish_ok _ _ b h3]
    · unfold parseItem; rw [h2]; simp only [finish_ok _ _ b h3]
  | .leaf n, h => by
    unfold cleanItem at h
    have hi : ¬ inStyle = true := by simpa using h
    exact ⟨s.push (.leaf n), by unfold parseItem; rw [if_neg hi], by unfold parseItem; rw [if_neg hi], rfl⟩
  | .parts n ps, h => by
    unfold cleanItem at h
    have hi : ¬ inStyle = true := by intro e; rw [e] at h; cases h
    exact ⟨s.push (.parts n (ps.filterMap id)), by unfold parseItem; rw [if_neg hi], by unfold parseItem; rw [if_neg hi], rfl⟩
  | .layer n, h => by
    unfold cleanItem at h
    have hi : ¬ inStyle = true := by simpa using h
    exact ⟨s.push (.layer n), by unfold parseItem; rw [if_neg hi], by unfold parseItem; rw [if_neg hi], rfl⟩
  | .unknown n, _ => ⟨s.push (.unknown n), by unfold parseItem; rfl, by unfold parseItem; rfl, rfl⟩
  | .property n, _ => ⟨s.push (.leaf n), by unfold parseItem; rfl, by unfold parseItem; rfl, rfl⟩

theorem body_same (inStyle allow : Bool) (s : St) : ∀ is : List Item, cleanItems inStyle allow is = true → ∃ t, parseBody true inStyle allow s is = some t ∧ parseBody false inStyle allow s is = some t ∧ t.errors = s.errors
  | [], _ => ⟨s, by unfold parseBody; rfl, by unfold parseBody; rfl, rfl⟩
  | i :: is, h => by
    unfold cleanItems at h
    simp only [Bool.and_eq_true] at h
    obtain ⟨t, h1, h2, h3⟩ := item_same inStyle allow s i h.1
    obtain ⟨u, k1, k2, k3⟩ := body_same inStyle allow t is h.2
    exact ⟨u, by unfold parseBody; rw [h1]; exact k1, by unfold parseBody; rw [h2]; exact k2, k3.trans h3⟩
end

theorem clean_invalid (inStyle allow : Bool) : ∀ i : Item, cleanItem inStyle allow i = true → invalid inStyle allow i = false
  | .decl _ _, h => by unfold cleanItem at h; simp [invalid, h]
  | .bad, h => by unfold cleanItem at h; cases h
  | .style _ _, _ => rfl
  | .group _ _, _ => rfl
  | .leaf _, h => by unfold cleanItem at h; simpa [invalid] using h
  | .parts _ _, h => by unfold cleanItem at h; simp only [Bool.and_eq_true] at h; simpa [invalid] using h.1
  | .layer _, h => by unfold cleanItem at h; simpa [invalid] using h
  | .unknown _, _ => rfl
  | .property _, _ => rfl

theorem clean_all_invalid (inStyle allow : Bool) : ∀ is : List Item, cleanItems inStyle allow is = true → ∀ j ∈ is, invalid inStyle allow j = false
  | [], _, _, hj => by cases hj
  | i :: is, h, j, hj => by
    unfold cleanItems at h
    simp only [Bool.and_eq_true] at h
    rcases List.mem_cons.1 hj with rfl | hj
    · exact clean_invalid _ _ _ h.1
    · exact clean_all_invalid _ _ is h.2 j hj

mutual
theorem clean_item (inStyle allow : Bool) : ∀ i : Item, cleanItem inStyle allow i = true → EarlyErrors inStyle allow i ∧ noProperty inStyle i = true
  | .decl _ _, _ => by unfold EarlyErrors noProperty; exact ⟨trivial, rfl⟩
  | .bad, _ => by unfold EarlyErrors noProperty; exact ⟨trivial, rfl⟩
  | .style _ body, h => by
    unfold cleanItem at h; unfold EarlyErrors noProperty; exact clean_items true true body h
  | .group _ body, h => by
    unfold cleanItem at h; unfold EarlyErrors noProperty; exact clean_items _ _ body h
  | .leaf _, _ => by unfold EarlyErrors noProperty; exact ⟨trivial, rfl⟩
  | .parts _ _, _ => by unfold EarlyErrors noProperty; exact ⟨trivial, rfl⟩
  | .layer _, _ => by unfold EarlyErrors noProperty; exact ⟨trivial, rfl⟩
  | .unknown _, _ => by unfold EarlyErrors noProperty; exact ⟨trivial, rfl⟩
  | .property _, h => by unfold cleanItem at h; unfold EarlyErrors noProperty; exact ⟨trivial, h⟩

theorem clean_items (inStyle allow : Bool) : ∀ is : List Item, cleanItems inStyle allow is = true → EarlyErrorsAll inStyle allow is ∧ noPropertyAll inStyle is = true
  | [], _ => by unfold EarlyErrorsAll noPropertyAll; exact ⟨trivial, rfl⟩
  | i :: is, h => by
    unfold cleanItems at h
    simp only [Bool.and_eq_true] at h
    have h1 := clean_item inStyle allow i h.1
    have h2 := clean_items inStyle allow is h.2
    unfold EarlyErrorsAll noPropertyAll
    exact ⟨⟨h1.1, fun _ _ => clean_all_invalid _ _ is h.2, h2.1⟩, by rw [h1.2, h2.2]; rfl⟩
end

/-- **C166** A valid sheet is parsed, with or without error recovery, to rules that say the same: every declaration and rule is kept, in the order of the source, at every depth. -/
theorem C166_valid (recover : Bool) (items : List Item) (h : cleanItems false false items = true) :
    ∃ rules, parseSheet recover items = some rules ∧ ∀ imp, readRules imp [] rules = readItems imp false false [] items := by
  obtain ⟨t, h1, h2, _⟩ := body_same false false {} items h
  have hc := clean_items false false items h
  obtain ⟨rules, hr, hs⟩ := C165_recovery_partial items hc.1 hc.2
  refine ⟨rules, ?_, hs⟩
  cases recover
  · unfold parseSheet at hr ⊢; rw [h2]; rw [h1] at hr; exact hr
  · exact hr

theorem fail_strict (allow : Bool) (s t : St) (h : fail false allow s = some t) : allow = true ∧ t.errors = true := by
  unfold fail at h
  cases allow with
  | false => cases h
  | true => simp only [if_true, Option.some.injEq] at h; subst h; exact ⟨rfl, rfl⟩

mutual
theorem item_errors (inStyle allow : Bool) (s t : St) : ∀ i : Item, parseItem false inStyle allow s i = some t → s.errors = true → t.errors = true
  | .decl d i, h, hs => by
    unfold parseItem at h
    by_cases ha : allow = true
    · rw [if_pos ha] at h; cases h; rw [addDecl_errors]; exact hs
    · rw [if_neg ha] at h; exact (fail_strict _ _ _ h).2
  | .bad, h, _ => by unfold parseItem at h; exact (fail_strict _ _ _ h).2
  | .style sel body, h, hs => by
    unfold parseItem at h
    cases hb : parseBody false true true {} body with
    | none => rw [hb] at h; exact (fail_strict _ _ _ h).2
    | some b =>
      rw [hb] at h
      simp only at h
      cases hf : finish false true b with
      | none => rw [hf] at h; exact (fail_strict _ _ _ h).2
      | some c => rw [hf] at h; cases h; exact hs
  | .group g body, h, hs => by
    unfold parseItem at h
    cases hb : parseBody false inStyle (allow || inStyle) {} body with
    | none => rw [hb] at h; exact (fail_strict _ _ _ h).2
    | some b =>
      rw [hb] at h
      simp only at h
      cases hf : finish false (allow || inStyle) b with
      | none => rw [hf] at h; exact (fail_strict _ _ _ h).2
      | some c => rw [hf] at h; cases h; exact hs
  | .leaf n, h, hs => by
    unfold parseItem at h
    by_cases hi : inStyle = true
    · rw [if_pos hi] at h; exact (fail_strict _ _ _ h).2
    · rw [if_neg hi] at h; cases h; exact hs
  | .parts n ps, h, hs => by
    unfold parseItem at h
    by_cases hi : inStyle = true
    · rw [if_pos hi] at h; exact (fail_strict _ _ _ h).2
    · rw [if_neg hi] at h; cases h; exact hs
  | .layer n, h, hs => by
    unfold parseItem at h
    by_cases hi : inStyle = true
    · rw [if_pos hi] at h; exact (fail_strict _ _ _ h).2
    · rw [if_neg hi] at h; cases h; exact hs
  | .unknown n, h, hs => by unfold parseItem at h; cases h; exact hs
  | .property n, h, hs => by unfold parseItem at h; cases h; exact hs
end

theorem body_errors (inStyle allow : Bool) : ∀ (is : List Item) (s t : St), parseBody false inStyle allow s is = some t → s.errors = true → t.errors = true
  | [], s, t, h, hs => by unfold parseBody at h; cases h; exact hs
  | i :: is, s, t, h, hs => by
    unfold parseBody at h
    cases hi : parseItem false inStyle allow s i with
    | none => rw [hi] at h; cases h
    | some u => rw [hi] at h; exact body_errors inStyle allow is u t h (item_errors _ _ _ _ i hi hs)

theorem finish_strict (allow : Bool) (b c : St) (h : finish false allow b = some c) : allow = true → b.errors = false := by
  unfold finish at h
  intro ha
  rw [ha] at h
  cases he : b.errors with
  | false => rfl
  | true => rw [he] at h; cases h

mutual
theorem item_clean (inStyle allow : Bool) (s t : St) : ∀ i : Item, parseItem false inStyle allow s i = some t → (allow = true → t.errors = false) → noProperty inStyle i = true → wholeParts i = true → cleanItem inStyle allow i = true
  | .decl d i, h, he, _, _ => by
    unfold parseItem at h; unfold cleanItem
    by_cases ha : allow = true
    · exact ha
    · rw [if_neg ha] at h; exact (fail_strict _ _ _ h).1
  | .bad, h, he, _, _ => by
    unfold parseItem at h
    have := fail_strict _ _ _ h
    rw [he this.1] at this; cases this.2
  | .style sel body, h, he, hp, hw => by
    unfold parseItem at h; unfold cleanItem; unfold noProperty at hp; unfold wholeParts at hw
    cases hb : parseBody false true true {} body with
    | none => rw [hb] at h; have := fail_strict _ _ _ h; rw [he this.1] at this; cases this.2
    | some b =>
      rw [hb] at h
      simp only at h
      cases hf : finish false true b with
      | none => rw [hf] at h; have := fail_strict _ _ _ h; rw [he this.1] at this; cases this.2
      | some c => exact body_clean true true {} b body hb (finish_strict _ _ _ hf) hp hw
  | .group g body, h, he, hp, hw => by
    unfold parseItem at h; unfold cleanItem; unfold noProperty at hp; unfold wholeParts at hw
    cases hb : parseBody false inStyle (allow || inStyle) {} body with
    | none => rw [hb] at h; have := fail_strict _ _ _ h; rw [he this.1] at this; cases this.2
    | some b =>
      rw [hb] at h
      simp only at h
      cases hf : finish false (allow || inStyle) b with
      | none => rw [hf] at h; have := fail_strict _ _ _ h; rw [he this.1] at this; cases this.2
      | some c => exact body_clean inStyle (allow || inStyle) {} b body hb (finish_strict _ _ _ hf) hp hw
  | .leaf n, h, he, _, _ => by
    unfold parseItem at h; unfold cleanItem
    by_cases hi : inStyle = true
    · rw [if_pos hi] at h; have := fail_strict _ _ _ h; rw [he this.1] at this; cases this.2
    · simpa using hi
  | .parts n ps, h, he, _, hw => by
    unfold parseItem at h; unfold cleanItem; unfold wholeParts at hw
    by_cases hi : inStyle = true
    · rw [if_pos hi] at h; have := fail_strict _ _ _ h; rw [he this.1] at this; cases this.2
    · rw [hw]; simpa using hi
  | .layer n, h, he, _, _ => by
    unfold parseItem at h; unfold cleanItem
    by_cases hi : inStyle = true
    · rw [if_pos hi] at h; have := fail_strict _ _ _ h; rw [he this.1] at this; cases this.2
    · simpa using hi
  | .unknown n, _, _, _, _ => by unfold cleanItem; rfl
  | .property n, _, _, hp, _ => by unfold noProperty at hp; unfold cleanItem; exact hp

theorem body_clean (inStyle allow : Bool) (s t : St) : ∀ is : List Item, parseBody false inStyle allow s is = some t → (allow = true → t.errors = false) → noPropertyAll inStyle is = true → wholePartsAll is = true → cleanItems inStyle allow is = true
  | [], _, _, _, _ => by unfold cleanItems; rfl
  | i :: is, h, he, hp, hw => by
    unfold parseBody at h
    unfold noPropertyAll at hp
    unfold wholePartsAll at hw
    simp only [Bool.and_eq_true] at hp hw
    cases hi : parseItem false inStyle allow s i with
    | none => rw [hi] at h; cases h
    | some u =>
      rw [hi] at h
      have hu : allow = true → u.errors = false := by
        intro ha
        cases hue : u.errors with
        | false => rfl
        | true => have := body_errors inStyle allow is u t h hue; rw [he ha] at this; cases this
      unfold cleanItems
      rw [item_clean inStyle allow s u i hi hu hp.1 hw.1, body_clean inStyle allow u t is h he hp.2 hw.2]
      rfl
end

/-- **C167 (partial)** Without error recovery, a sheet is parsed if and only if every item at every depth is valid: no error goes unnoticed; apart from errors inside `@font-face` and `@keyframes` (`C167_parts`) and from `@property` in style rules (`C167_property`). -/
theorem C167_strict_partial (items : List Item) (hp : noPropertyAll false items = true) (hw : wholePartsAll items = true) :
    (∃ rules, parseSheet false items = some rules) ↔ cleanItems false false items = true := by
  constructor
  · rintro ⟨rules, h⟩
    unfold parseSheet at h
    cases hb : parseBody false false false {} items with
    | none => rw [hb] at h; cases h
    | some t => exact body_clean false false {} t items hb (fun h => nomatch h) hp hw
  · intro h
    obtain ⟨rules, hr, _⟩ := C166_valid false items h
    exact ⟨rules, hr⟩

/-! ### Counterexamples and examples -/

/-- **C165** is false in general: in `.a { color: red; *zoom: 1; width: 1px }` the invalid item deletes the declaration before it. -/
theorem C165_lost : parseSheet true [.style 0 [.decl 1 false, .bad, .decl 2 false]] = some [.style 0 [2] [] []] ∧
    readItems false false false [] [.style 0 [.decl 1 false, .bad, .decl 2 false]] = [.start [(true, 0)], .decl [(true, 0)] 1, .decl [(true, 0)] 2] := ⟨rfl, rfl⟩

/-- **C165** is false for `@property` in a style rule: browsers ignore it there, but it is kept. -/
theorem C165_property : parseSheet true [.style 0 [.property 1]] = some [.style 0 [] [] [.leaf 1]] ∧ readItems false false false [] [.style 0 [.property 1]] = [.start [(true, 0)]] := ⟨rfl, rfl⟩

/-- **C167** is false for errors in `@font-face` and `@keyframes`: they are dropped without a word. -/
theorem C167_parts : parseSheet false [.parts 0 [some 1, none]] = some [.parts 0 [1]] ∧ cleanItems false false [.parts 0 [some 1, none]] = false := ⟨rfl, rfl⟩

/-- **C167** is false for `@property` in style rules. -/
theorem C167_property : parseSheet false [.style 0 [.property 1]] = some [.style 0 [] [] [.leaf 1]] ∧ cleanItems false false [.style 0 [.property 1]] = false := ⟨rfl, rfl⟩

/-- A sheet with nesting, interleaved declarations and importance. -/
def sample : List Item := [.layer 9, .style 0 [.decl 1 false, .decl 2 true, .group 5 [.decl 3 false, .style 6 [.decl 4 false], .decl 7 true], .decl 8 false, .decl 9 false], .group 5 [.style 1 []]]

example : cleanItems false false sample = true := by decide
example : parseSheet false sample = some [.layer 9, .style 0 [1] [2] [.group 5 [.nested [3] [], .style 6 [4] [] [], .nested [] [7]], .nested [8, 9] []], .group 5 [.style 1 [] [] []]] := rfl
example : EarlyErrorsAll false false [.bad, .style 0 [.bad, .leaf 3, .decl 1 false, .style 1 [.bad]]] ∧ parseSheet false [.bad] = none := by
  refine ⟨?_, rfl⟩
  simp [EarlyErrorsAll, EarlyErrors, isDecl, invalid]

end Verif.Parse
