import Verif.Selectors.Matching
import Mathlib.Tactic.Common
/-!
# Selectors: the matching algorithm is correct (C56)
-/
namespace Verif.Selectors

variable {E : Type}

/-- The elements reachable by going to the parent or the previous sibling. -/
def Dom.Closure (d : Dom E) (e x : E) : Prop :=
  Relation.ReflTransGen (fun a b => d.parent a = some b ∨ d.prev a = some b) e x

/-- What a result promises about the elements that satisfy `P`. -/
def Meaning (d : Dom E) (P : E → Prop) (e : E) : Res → Prop
  | .matched => P e
  | .restartFromClosestLaterSibling => ¬ P e
  | .restartFromClosestDescendant => ¬ P e ∧ ∀ x, d.Before e x → ¬ P x
  | .notMatchedGlobally => ∀ x, d.Closure e x → ¬ P x

theorem Meaning.not {d : Dom E} {P : E → Prop} {e : E} {r : Res} (h : Meaning d P e r)
    (hr : r ≠ .matched) : ¬ P e := by
  cases r with
  | matched => exact absurd rfl hr
  | restartFromClosestLaterSibling => exact h
  | restartFromClosestDescendant => exact h.1
  | notMatchedGlobally => exact h e .refl

theorem Meaning.matched_iff {d : Dom E} {P : E → Prop} {e : E} {r : Res} (h : Meaning d P e r) :
    r = .matched ↔ P e := by
  constructor
  · rintro rfl; exact h
  · intro hp
    by_contra hr
    exact h.not hr hp

theorem ancestor_iff (d : Dom E) (e x : E) :
    d.Ancestor e x ↔ ∃ p, d.parent e = some p ∧ (x = p ∨ d.Ancestor p x) := by
  constructor
  · intro h
    rcases Relation.TransGen.head'_iff.1 h with ⟨p, hp, h⟩
    refine ⟨p, hp, ?_⟩
    rcases Relation.reflTransGen_iff_eq_or_transGen.1 h with h | h
    · exact .inl h
    · exact .inr h
  · rintro ⟨p, hp, rfl | h⟩
    · exact .single hp
    · exact .head hp h

theorem before_iff (d : Dom E) (e x : E) :
    d.Before e x ↔ ∃ p, d.prev e = some p ∧ (x = p ∨ d.Before p x) := by
  constructor
  · intro h
    rcases Relation.TransGen.head'_iff.1 h with ⟨p, hp, h⟩
    refine ⟨p, hp, ?_⟩
    rcases Relation.reflTransGen_iff_eq_or_transGen.1 h with h | h
    · exact .inl h
    · exact .inr h
  · rintro ⟨p, hp, rfl | h⟩
    · exact .single hp
    · exact .head hp h

theorem Dom.Before.closure {d : Dom E} {e x : E} (h : d.Before e x) : d.Closure e x :=
  Relation.ReflTransGen.mono (fun _ _ h => Or.inr h) _ _ h.to_reflTransGen

theorem Dom.Ancestor.closure {d : Dom E} {e x : E} (h : d.Ancestor e x) : d.Closure e x :=
  Relation.ReflTransGen.mono (fun _ _ h => Or.inl h) _ _ h.to_reflTransGen

theorem before_parent {d : Dom E} {e x : E} (h : d.Before e x) : d.parent x = d.parent e := by
  induction h with
  | single h => exact d.parent_prev _ _ h
  | tail _ h ih => rw [d.parent_prev _ _ h, ih]

/-- Going up or left does not add ancestors. -/
theorem closure_ancestor {d : Dom E} {e x y : E} (h : d.Closure e x) (ha : d.Ancestor x y) :
    d.Ancestor e y := by
  induction h with
  | refl => exact ha
  | tail _ hs ih =>
    apply ih
    rcases hs with hs | hs
    · exact .head hs ha
    · rw [ancestor_iff] at ha ⊢
      rwa [d.parent_prev _ _ hs] at ha

theorem closure_cases {d : Dom E} {e p x : E} (hp : d.prev e = some p) (h : d.Closure e x) :
    x = e ∨ d.Closure p x := by
  rcases Relation.ReflTransGen.cases_head h with h | ⟨z, hz, h⟩
  · exact .inl h.symm
  · right
    rcases hz with hz | hz
    · rw [← d.parent_prev _ _ hp] at hz
      exact .head (.inl hz) h
    · rw [hp] at hz
      cases hz
      exact h

/-! ### The loop, for each kind of combinator -/

theorem loop_descendant (d : Dom E) (P : E → Prop) (f : E → Res) (k : Combinator)
    (hk : k = .descendant ∨ k = .deep ∨ k = .deepDescendant)
    (hf : ∀ x, Meaning d P x (f x)) (n : Nat) (e : E) (hn : d.rank e ≤ n) :
    (loop f k (chain d.parent n e) = .matched ∧ ∃ x, d.Ancestor e x ∧ P x) ∨
    (loop f k (chain d.parent n e) = .notMatchedGlobally ∧ ∀ x, d.Ancestor e x → ¬ P x) := by
  induction n generalizing e with
  | zero =>
    right
    have hnone : d.parent e = none := by
      cases h : d.parent e with
      | none => rfl
      | some p => exact absurd (d.rank_parent e p h) (by omega)
    refine ⟨by rcases hk with rfl | rfl | rfl <;> rfl, ?_⟩
    intro x hx
    rw [ancestor_iff, hnone] at hx
    simp at hx
  | succ n ih =>
    cases h : d.parent e with
    | none =>
      right
      refine ⟨by rcases hk with rfl | rfl | rfl <;> simp [chain, h, loop, notFound], ?_⟩
      intro x hx
      rw [ancestor_iff, h] at hx
      simp at hx
    | some p =>
      have hc : chain d.parent (n + 1) e = p :: chain d.parent n p := by simp [chain, h]
      rw [hc]
      have ihp := ih p (by have := d.rank_parent e p h; omega)
      have hfp := hf p
      have key : f p ≠ .matched → f p ≠ .notMatchedGlobally →
          loop f k (p :: chain d.parent n p) = loop f k (chain d.parent n p) := by
        intro h1 h2
        rcases hk with rfl | rfl | rfl <;> cases hr : f p <;> simp_all [loop]
      cases hr : f p with
      | matched =>
        left
        rw [hr] at hfp
        exact ⟨by simp [loop, hr], p, (ancestor_iff d e p).2 ⟨p, h, .inl rfl⟩, hfp⟩
      | notMatchedGlobally =>
        right
        rw [hr] at hfp
        refine ⟨by simp [loop, hr], ?_⟩
        intro x hx
        rw [ancestor_iff, h] at hx
        obtain ⟨p', hp', hx⟩ := hx
        cases hp'
        rcases hx with rfl | hx
        · exact hfp _ .refl
        · exact hfp _ hx.closure
      | restartFromClosestLaterSibling =>
        rw [key (by simp [hr]) (by simp [hr])]
        have hnp := hfp.not (by simp [hr])
        rcases ihp with ⟨h1, x, hx, hpx⟩ | ⟨h1, h2⟩
        · exact .inl ⟨h1, x, (ancestor_iff d e x).2 ⟨p, h, .inr hx⟩, hpx⟩
        · refine .inr ⟨h1, ?_⟩
          intro x hx
          rw [ancestor_iff, h] at hx
          obtain ⟨p', hp', hx⟩ := hx
          cases hp'
          rcases hx with rfl | hx
          · exact hnp
          · exact h2 x hx
      | restartFromClosestDescendant =>
        rw [key (by simp [hr]) (by simp [hr])]
        have hnp := hfp.not (by simp [hr])
        rcases ihp with ⟨h1, x, hx, hpx⟩ | ⟨h1, h2⟩
        · exact .inl ⟨h1, x, (ancestor_iff d e x).2 ⟨p, h, .inr hx⟩, hpx⟩
        · refine .inr ⟨h1, ?_⟩
          intro x hx
          rw [ancestor_iff, h] at hx
          obtain ⟨p', hp', hx⟩ := hx
          cases hp'
          rcases hx with rfl | hx
          · exact hnp
          · exact h2 x hx

theorem loop_laterSibling (d : Dom E) (P : E → Prop) (f : E → Res)
    (hf : ∀ x, Meaning d P x (f x)) (n : Nat) (e : E) (hn : d.rank e ≤ n) :
    (loop f .laterSibling (chain d.prev n e) = .matched ∧ ∃ x, d.Before e x ∧ P x) ∨
    (loop f .laterSibling (chain d.prev n e) = .restartFromClosestDescendant ∧
      ∀ x, d.Before e x → ¬ P x) ∨
    (loop f .laterSibling (chain d.prev n e) = .notMatchedGlobally ∧
      ∀ x, d.Closure e x → ∀ y, d.Before x y → ¬ P y) := by
  induction n generalizing e with
  | zero =>
    right; left
    have hnone : d.prev e = none := by
      cases h : d.prev e with
      | none => rfl
      | some p => exact absurd (d.rank_prev e p h) (by omega)
    refine ⟨rfl, ?_⟩
    intro x hx
    rw [before_iff, hnone] at hx
    simp at hx
  | succ n ih =>
    cases h : d.prev e with
    | none =>
      right; left
      refine ⟨by simp [chain, h, loop, notFound], ?_⟩
      intro x hx
      rw [before_iff, h] at hx
      simp at hx
    | some p =>
      have hc : chain d.prev (n + 1) e = p :: chain d.prev n p := by simp [chain, h]
      rw [hc]
      have ihp := ih p (by have := d.rank_prev e p h; omega)
      have hfp := hf p
      have hbe : ∀ x, d.Before e x → x = p ∨ d.Before p x := by
        intro x hx
        rw [before_iff, h] at hx
        obtain ⟨p', hp', hx⟩ := hx
        cases hp'
        exact hx
      cases hr : f p with
      | matched =>
        left
        rw [hr] at hfp
        exact ⟨by simp [loop, hr], p, (before_iff d e p).2 ⟨p, h, .inl rfl⟩, hfp⟩
      | notMatchedGlobally =>
        right; right
        rw [hr] at hfp
        refine ⟨by simp [loop, hr], ?_⟩
        intro x hx y hy
        apply hfp
        rcases closure_cases h hx with rfl | hx
        · rcases hbe y hy with rfl | hy
          · exact .refl
          · exact hy.closure
        · exact hx.trans hy.closure
      | restartFromClosestDescendant =>
        right; left
        rw [hr] at hfp
        refine ⟨by simp [loop, hr], ?_⟩
        intro x hx
        rcases hbe x hx with rfl | hx
        · exact hfp.1
        · exact hfp.2 x hx
      | restartFromClosestLaterSibling =>
        have hnp := hfp.not (by simp [hr])
        have key : loop f .laterSibling (p :: chain d.prev n p)
            = loop f .laterSibling (chain d.prev n p) := by
          simp [loop, hr]
        rw [key]
        rcases ihp with ⟨h1, x, hx, hpx⟩ | ⟨h1, h2⟩ | ⟨h1, h2⟩
        · exact .inl ⟨h1, x, (before_iff d e x).2 ⟨p, h, .inr hx⟩, hpx⟩
        · refine .inr (.inl ⟨h1, ?_⟩)
          intro x hx
          rcases hbe x hx with rfl | hx
          · exact hnp
          · exact h2 x hx
        · refine .inr (.inr ⟨h1, ?_⟩)
          intro x hx y hy
          rcases closure_cases h hx with rfl | hx
          · rcases hbe y hy with rfl | hy
            · exact hnp
            · exact h2 p .refl y hy
          · exact h2 x hx y hy

theorem candidates_step {d : Dom E} {next : E → Option E} (hr : ∀ e e', next e = some e' → d.rank e' < d.rank e)
    (e : E) : (next e = none ∧ chain next (d.rank e) e = []) ∨
      ∃ p rest, next e = some p ∧ chain next (d.rank e) e = p :: rest := by
  cases h : next e with
  | none =>
    left
    refine ⟨rfl, ?_⟩
    cases d.rank e <;> simp [chain, h]
  | some p =>
    right
    have := hr e p h
    obtain ⟨m, hm⟩ : ∃ m, d.rank e = m + 1 := ⟨d.rank e - 1, by omega⟩
    exact ⟨p, _, rfl, by rw [hm]; simp [chain, h]; rfl⟩

/-- What the loop over the candidates promises. -/
theorem loop_meaning (d : Dom E) (P : E → Prop) (f : E → Res) (hf : ∀ x, Meaning d P x (f x))
    (k : Combinator) (e : E) :
    Meaning d (fun e => ∃ x, d.Rel k e x ∧ P x) e (loop f k (d.candidates k e)) := by
  have hdesc : ∀ k, (k = .descendant ∨ k = .deep ∨ k = .deepDescendant) →
      (∀ e x, d.Rel k e x ↔ d.Ancestor e x) → d.candidates k e = chain d.parent (d.rank e) e →
      Meaning d (fun e => ∃ x, d.Rel k e x ∧ P x) e (loop f k (d.candidates k e)) := by
    intro k hk hrel hcand
    rw [hcand]
    rcases loop_descendant d P f k hk hf (d.rank e) e (Nat.le_refl _) with ⟨h, x, hx, hp⟩ | ⟨h, hx⟩
    · rw [h]; exact ⟨x, (hrel e x).2 hx, hp⟩
    · rw [h]
      rintro y hy ⟨x, hr, hp⟩
      exact hx x (closure_ancestor hy ((hrel y x).1 hr)) hp
  cases k with
  | descendant => exact hdesc _ (by simp) (fun _ _ => Iff.rfl) rfl
  | deep => exact hdesc _ (by simp) (fun _ _ => Iff.rfl) rfl
  | deepDescendant => exact hdesc _ (by simp) (fun _ _ => Iff.rfl) rfl
  | pseudoElement => simp only [Dom.candidates, loop, notFound]; rintro x _ ⟨y, h, _⟩; exact h
  | slotAssignment => simp only [Dom.candidates, loop, notFound]; rintro x _ ⟨y, h, _⟩; exact h
  | part => simp only [Dom.candidates, loop, notFound]; rintro x _ ⟨y, h, _⟩; exact h
  | laterSibling =>
    simp only [Dom.candidates]
    rcases loop_laterSibling d P f hf (d.rank e) e (Nat.le_refl _) with
      ⟨h, x, hx, hp⟩ | ⟨h, hx⟩ | ⟨h, hx⟩
    · rw [h]; exact ⟨x, hx, hp⟩
    · rw [h]
      refine ⟨?_, ?_⟩
      · rintro ⟨x, hr, hp⟩; exact hx x hr hp
      · rintro y hy ⟨x, hr, hp⟩; exact hx x (hy.trans hr) hp
    · rw [h]
      rintro y hy ⟨x, hr, hp⟩
      exact hx y hy x hr hp
  | child =>
    simp only [Dom.candidates]
    rcases candidates_step (next := d.parent) d.rank_parent e with ⟨hn, hc⟩ | ⟨p, rest, hp, hc⟩
    · rw [hc]
      simp only [loop, notFound]
      rintro y hy ⟨x, hr, _⟩
      have ha : d.Ancestor y x := .single hr
      have := closure_ancestor hy ha
      rw [ancestor_iff, hn] at this
      simp at this
    · rw [hc]
      have hfp := hf p
      have hno : f p ≠ .matched → f p ≠ .notMatchedGlobally →
          loop f .child (p :: rest) = .restartFromClosestDescendant := by
        intro h1 h2
        cases hr : f p <;> simp_all [loop]
      have hsib : ∀ y x, d.parent y = d.parent e → d.Rel .child y x → x = p := by
        intro y x hy hr
        have hr' : d.parent y = some x := hr
        rw [hy, hp] at hr'
        exact (Option.some.inj hr').symm
      cases hr : f p with
      | matched => rw [hr] at hfp; simp only [loop, hr]; exact ⟨p, hp, hfp⟩
      | notMatchedGlobally =>
        rw [hr] at hfp
        simp only [loop, hr]
        rintro y hy ⟨x, hrx, hpx⟩
        have ha : d.Ancestor y x := .single hrx
        have := closure_ancestor hy ha
        rw [ancestor_iff, hp] at this
        obtain ⟨p', hp', h⟩ := this
        cases hp'
        rcases h with rfl | h
        · exact hfp _ .refl hpx
        · exact hfp _ h.closure hpx
      | restartFromClosestLaterSibling =>
        have hnp := hfp.not (by simp [hr])
        rw [hno (by simp [hr]) (by simp [hr])]
        refine ⟨?_, ?_⟩
        · rintro ⟨x, hrx, hpx⟩
          have := hsib e x rfl hrx
          subst this; exact hnp hpx
        · rintro y hy ⟨x, hrx, hpx⟩
          have := hsib y x (before_parent hy) hrx
          subst this; exact hnp hpx
      | restartFromClosestDescendant =>
        have hnp := hfp.not (by simp [hr])
        rw [hno (by simp [hr]) (by simp [hr])]
        refine ⟨?_, ?_⟩
        · rintro ⟨x, hrx, hpx⟩
          have := hsib e x rfl hrx
          subst this; exact hnp hpx
        · rintro y hy ⟨x, hrx, hpx⟩
          have := hsib y x (before_parent hy) hrx
          subst this; exact hnp hpx
  | nextSibling =>
    simp only [Dom.candidates]
    rcases candidates_step (next := d.prev) d.rank_prev e with ⟨hn, hc⟩ | ⟨p, rest, hp, hc⟩
    · rw [hc]
      simp only [loop, notFound]
      refine ⟨?_, ?_⟩
      · rintro ⟨x, hr, _⟩
        have hr' : d.prev e = some x := hr
        rw [hn] at hr'; cases hr'
      · intro y hy
        rw [before_iff, hn] at hy
        simp at hy
    · rw [hc]
      have hfp := hf p
      have hl : loop f .nextSibling (p :: rest) = f p := by
        cases hr : f p <;> simp [loop, hr]
      rw [hl]
      have hself : ∀ x, d.Rel .nextSibling e x → x = p := by
        intro x hr
        have hr' : d.prev e = some x := hr
        rw [hp] at hr'
        exact (Option.some.inj hr').symm
      cases hr : f p with
      | matched => rw [hr] at hfp; exact ⟨p, hp, hfp⟩
      | restartFromClosestLaterSibling =>
        have hnp := hfp.not (by simp [hr])
        rintro ⟨x, hrx, hpx⟩
        have := hself x hrx
        subst this; exact hnp hpx
      | restartFromClosestDescendant =>
        rw [hr] at hfp
        refine ⟨?_, ?_⟩
        · rintro ⟨x, hrx, hpx⟩
          have := hself x hrx
          subst this; exact hfp.1 hpx
        · rintro y hy ⟨x, hrx, hpx⟩
          have hrx' : d.prev y = some x := hrx
          rw [before_iff, hp] at hy
          obtain ⟨p', hp', hy⟩ := hy
          cases hp'
          rcases hy with rfl | hy
          · exact hfp.2 x (.single hrx') hpx
          · exact hfp.2 x (hy.tail hrx') hpx
      | notMatchedGlobally =>
        rw [hr] at hfp
        rintro y hy ⟨x, hrx, hpx⟩
        have hrx' : d.prev y = some x := hrx
        rcases closure_cases hp hy with rfl | hy
        · have := hself x hrx
          subst this; exact hfp _ .refl hpx
        · exact hfp x (hy.tail (.inr hrx')) hpx

mutual
theorem matchesSimple_iff (d : Dom E) (atom : Component → E → Bool) :
    ∀ (c : Component) (e : E), matchesSimple d atom c e = true ↔
      c.Sem d (fun c e => atom c e = true) e
  | .is l, e => by simp only [matchesSimple, Component.Sem]; exact matchesAny_iff d atom l e
  | .where l, e => by simp only [matchesSimple, Component.Sem]; exact matchesAny_iff d atom l e
  | .any l, e => by simp only [matchesSimple, Component.Sem]; exact matchesAny_iff d atom l e
  | .negation l, e => by
    simp only [matchesSimple, Component.Sem, Bool.not_eq_true', ← matchesAny_iff d atom l e,
      Bool.not_eq_true]
  | .combinator _, _ | .anyNamespace, _ | .noNamespace, _ | .defaultNamespace _, _
  | .namespace _ _, _ | .universal, _ | .localName _ _, _ | .id _, _ | .cls _, _
  | .attrExists _, _ | .attr _, _ | .attrOther _, _ | .root, _ | .empty, _ | .scope, _ | .nth _, _
  | .nthOf _ _, _ | .pseudoClass _, _ | .local _, _ | .global _, _ | .slotted _, _ | .part _, _
  | .host, _ | .hostFn _, _ | .has _, _ | .pseudoElement _, _ | .viewTransitionAny _, _
  | .nesting, _ => by simp only [matchesSimple, Component.Sem]
theorem matchesAny_iff (d : Dom E) (atom : Component → E → Bool) :
    ∀ (l : List Selector) (e : E), matchesAny d atom l e = true ↔
      AnySem d (fun c e => atom c e = true) l e
  | [], e => by simp [matchesAny, AnySem]
  | s :: ss, e => by
    have h1 := matchesSelector_iff d atom s e
    have h2 := matchesAny_iff d atom ss e
    simp only [matchesAny, AnySem]
    rw [← h1, ← h2]
    cases matchesSelector d atom s e <;> simp
theorem matchesSelector_iff (d : Dom E) (atom : Component → E → Bool) :
    ∀ (s : Selector) (e : E), matchesSelector d atom s e = true ↔
      s.Sem d (fun c e => atom c e = true) e
  | .mk n cs, e => by
    simp only [matchesSelector, Selector.Sem, beq_iff_eq]
    exact (matchesInternal_meaning d atom cs e).matched_iff
theorem matchesInternal_meaning (d : Dom E) (atom : Component → E → Bool) :
    ∀ (cs : List Component) (e : E),
      Meaning d (ComplexSem d (fun c e => atom c e = true) cs) e (matchesInternal d atom cs e)
  | [], e => by simp only [matchesInternal]; simp [Meaning, ComplexSem]
  | c :: rest, e => by
    by_cases hc : ∃ k, c = .combinator k
    · obtain ⟨k, rfl⟩ := hc
      have ih := matchesInternal_meaning d atom rest
      have := loop_meaning d _ _ ih k e
      simp only [matchesInternal]
      have hs : ComplexSem d (fun c e => atom c e = true) (.combinator k :: rest)
          = fun e => ∃ x, d.Rel k e x ∧ ComplexSem d (fun c e => atom c e = true) rest x := by
        funext e; simp only [ComplexSem]
      rw [hs]
      exact this
    · have hne : ∀ k, c ≠ .combinator k := fun k h => hc ⟨k, h⟩
      have ih := matchesInternal_meaning d atom rest e
      have h1 := matchesSimple_iff d atom c
      have hm : matchesInternal d atom (c :: rest) e
          = if matchesSimple d atom c e then matchesInternal d atom rest e
            else .restartFromClosestLaterSibling := by
        cases c <;> simp_all [matchesInternal]
      have hs : ComplexSem d (fun c e => atom c e = true) (c :: rest)
          = fun e => c.Sem d (fun c e => atom c e = true) e ∧
              ComplexSem d (fun c e => atom c e = true) rest e := by
        funext e; cases c <;> simp_all [ComplexSem]
      rw [hm, hs]
      split
      · rename_i ht
        have hce := (h1 e).1 ht
        cases hr : matchesInternal d atom rest e with
        | matched => rw [hr] at ih; exact ⟨hce, ih⟩
        | restartFromClosestLaterSibling => rw [hr] at ih; exact fun h => ih h.2
        | restartFromClosestDescendant =>
          rw [hr] at ih; exact ⟨fun h => ih.1 h.2, fun x hx h => ih.2 x hx h.2⟩
        | notMatchedGlobally => rw [hr] at ih; exact fun x hx h => ih x hx h.2
      · rename_i ht
        exact fun h => ht ((h1 e).2 h.1)
end

/-- C56. For every document, every selector (of any length, with any combinators and any nesting of
`:is()`, `:where()`, `:not()`) and every element, the matching algorithm with its early exits answers
exactly whether the element matches by the definition. -/
theorem matching_correct (d : Dom E) (atom : Component → E → Bool) (s : Selector) (e : E) :
    matchesSelector d atom s e = true ↔ s.Sem d (fun c e => atom c e = true) e :=
  matchesSelector_iff d atom s e

/-- C56, for selector lists. -/
theorem matching_list_correct (d : Dom E) (atom : Component → E → Bool) (l : List Selector) (e : E) :
    matchesAny d atom l e = true ↔ ∃ s ∈ l, s.Sem d (fun c e => atom c e = true) e := by
  rw [matchesAny_iff]
  induction l with
  | nil => simp [AnySem]
  | cons s ss ih => simp [AnySem, ih]

/-! ### Non-vacuity -/

/-- A document: `0` is the root; `1 2 3` are its children; `4 5` are the children of `3`. -/
def exampleDom : Dom Nat where
  parent e := match e with | 1 | 2 | 3 => some 0 | 4 | 5 => some 3 | _ => none
  prev e := match e with | 2 => some 1 | 3 => some 2 | 5 => some 4 | _ => none
  rank e := e
  parent_prev := by
    intro e e' h
    split at h <;> simp at h <;> subst h <;> rfl
  rank_parent := by
    intro e e' h
    split at h <;> simp at h <;> subst h <;> decide
  rank_prev := by
    intro e e' h
    split at h <;> simp at h <;> subst h <;> decide

/-- `.a ~ .b > .c + .d` matches element 5 by backtracking over siblings, `.a + .b > .c + .d` does
not. -/
example :
    let atom : Component → Nat → Bool := fun c e => match c with
      | .cls ['a'] => e == 1 | .cls ['b'] => e == 3 | .cls ['c'] => e == 4 | .cls ['d'] => e == 5
      | _ => false
    matchesSelector exampleDom atom (.mk 0 [.cls ['d'], .combinator .nextSibling, .cls ['c'],
      .combinator .child, .cls ['b'], .combinator .laterSibling, .cls ['a']]) 5 = true ∧
    matchesSelector exampleDom atom (.mk 0 [.cls ['d'], .combinator .nextSibling, .cls ['c'],
      .combinator .child, .cls ['b'], .combinator .nextSibling, .cls ['a']]) 5 = false := by
  decide

end Verif.Selectors
