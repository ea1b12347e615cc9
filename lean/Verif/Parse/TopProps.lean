import Verif.Parse.Spec
import Mathlib.Data.List.Induction
namespace Verif.Parse
open Spec

theorem stateAfter_append (ts : List Top) (t : Top) : stateAfter (ts ++ [t]) = (step (stateAfter ts) t).1 := by
  unfold stateAfter; rw [List.foldl_append]; rfl

theorem step_mono (st : State) (t : Top) : st.num ≤ (step st t).1.num := by
  cases t with
  | charset ok => exact Nat.le_refl _
  | «import» n ok => cases st <;> cases ok <;> simp [step, State.num]
  | «namespace» n ok => cases st <;> cases ok <;> simp [step, State.num]
  | customMedia n ok => cases st <;> cases ok <;> simp [step, State.num]
  | layer n p k => cases st <;> cases p <;> cases k <;> simp [step, State.num]
  | unknown n => exact Nat.le_refl _
  | custom n p k => cases st <;> cases p <;> cases k <;> simp [step, State.num]
  | block n p k => cases st <;> cases p <;> cases k <;> simp [step, State.num]
  | unknownBlock n => cases st <;> simp [step, State.num]
  | style n p k => cases st <;> simp [step, State.num]

theorem step_less (a b : State) (h : a.num ≤ b.num) (t : Top) (hb : (step b t).2 = true) : (step a t).2 = true ∧ (step a t).1.num ≤ (step b t).1.num := by
  cases t with
  | charset ok => cases hb
  | «import» n ok => cases ok <;> cases a <;> cases b <;> simp_all [step, State.num]
  | «namespace» n ok => cases ok <;> cases a <;> cases b <;> simp_all [step, State.num]
  | customMedia n ok => cases ok <;> cases a <;> cases b <;> simp_all [step, State.num]
  | layer n p k => cases p <;> cases k <;> cases a <;> cases b <;> simp_all [step, State.num]
  | unknown n => exact ⟨rfl, h⟩
  | custom n p k => cases p <;> cases k <;> simp_all [step, State.num]
  | block n p k => cases p <;> cases k <;> simp_all [step, State.num]
  | unknownBlock n => exact ⟨rfl, Nat.le_refl _⟩
  | style n p k => cases p <;> cases k <;> simp_all [step, State.num]

theorem topRules_again (ts : List Top) : ∀ a b : State, a.num ≤ b.num → topRules a (topRules b ts) = topRules b ts := by
  induction ts with
  | nil => intro a b _; rfl
  | cons t ts ih =>
    intro a b h
    by_cases hs : (step b t).2 = true
    · have e : topRules b (t :: ts) = t :: topRules (step b t).1 ts := by rw [topRules, if_pos hs]
      have := step_less a b h t hs
      rw [e, topRules, if_pos this.1, ih _ _ this.2]
    · have e : topRules b (t :: ts) = topRules (step b t).1 ts := by rw [topRules, if_neg hs]
      rw [e]
      exact ih _ _ (Nat.le_trans h (step_mono b t))

/-- **C168** The rules that the parser accepts are accepted again, all of them: printing a parsed sheet never makes an `@import` or `@namespace` invalid by its place. -/
theorem C168_again (ts : List Top) : topRules .start (topRules .start ts) = topRules .start ts := topRules_again ts _ _ (Nat.le_refl _)

theorem place_append (ts : List Top) (t : Top) (h : importPlace ts) (h1 : valid t = true → isImport t = true ∨ isLayer t = true) (h2 : valid t = true → isLayer t = true → ∀ u ∈ ts, ¬ (valid u = true ∧ isImport u = true)) : importPlace (ts ++ [t]) := by
  refine ⟨fun u hu hv => ?_, List.pairwise_append.2 ⟨h.2, List.pairwise_singleton _ _, fun u hu v hv => ?_⟩⟩
  · rcases List.mem_append.1 hu with hu | hu
    · exact h.1 u hu hv
    · rw [List.mem_singleton.1 hu] at hv ⊢; exact h1 hv
  · rw [List.mem_singleton.1 hv]
    exact fun ⟨a, b, c, d⟩ => h2 c d u hu ⟨a, b⟩

theorem place_of_append (ts : List Top) (t : Top) (h : importPlace (ts ++ [t])) : importPlace ts ∧ (valid t = true → isImport t = true ∨ isLayer t = true) ∧ (valid t = true → isLayer t = true → ∀ u ∈ ts, ¬ (valid u = true ∧ isImport u = true)) := by
  have hp := List.pairwise_append.1 h.2
  exact ⟨⟨fun u hu => h.1 u (List.mem_append_left _ hu), hp.1⟩, h.1 t (List.mem_append_right _ List.mem_cons_self), fun a b u hu ⟨c, d⟩ => hp.2.2 u hu t List.mem_cons_self ⟨c, d, a, b⟩⟩

theorem place_sound (ts : List Top) : ((stateAfter ts).num ≤ State.imports.num → importPlace ts) ∧ ((stateAfter ts).num ≤ State.layers.num → ∀ u ∈ ts, ¬ (valid u = true ∧ isImport u = true)) := by
  induction ts using List.reverseRecOn with
  | nil => exact ⟨fun _ => ⟨(by intro _ h; cases h), List.Pairwise.nil⟩, fun _ _ h => nomatch h⟩
  | append_singleton ts t ih =>
    rw [stateAfter_append]
    have hm := step_mono (stateAfter ts) t
    constructor
    · intro h
      refine place_append ts t (ih.1 (Nat.le_trans hm h)) ?_ ?_
      · intro hv
        cases t with
        | charset ok => cases hv
        | «import» n ok => exact .inl rfl
        | «namespace» n ok =>
          have : ok = true := hv
          subst this
          generalize stateAfter ts = st at h hm
          cases st <;> simp [step, State.num] at h
        | customMedia n ok =>
          have : ok = true := hv
          subst this
          simp [step, State.num] at h
        | layer n p k => exact .inr rfl
        | unknown n => cases hv
        | custom n p k =>
          have hv : (p && k) = true := hv
          simp only [Bool.and_eq_true] at hv
          simp [step, State.num, hv.1] at h
        | block n p k =>
          have hv : (p && k) = true := hv
          simp only [Bool.and_eq_true] at hv
          simp [step, State.num, hv.1] at h
        | unknownBlock n => cases hv
        | style n p k => simp [step, State.num] at h
      · intro hv hl
        cases t with
        | layer n p k =>
          have hv : (p && k) = true := hv
          simp only [Bool.and_eq_true] at hv
          apply ih.2
          generalize stateAfter ts = st at h hm
          cases st <;> simp_all [step, State.num]
        | _ => cases hl
    · intro h u hu
      rcases List.mem_append.1 hu with hu | hu
      · exact ih.2 (Nat.le_trans hm h) u hu
      · rw [List.mem_singleton.1 hu]
        rintro ⟨h1, h2⟩
        cases t with
        | «import» n ok =>
          have : ok = true := h1
          subst this
          generalize stateAfter ts = st at h hm
          cases st <;> simp [step, State.num] at h
        | _ => cases h2

/-- **C169 (first part)** An `@import` that is accepted is where CSS allows one: no valid rule but imports and layer statements before it, and no layer statement between imports. -/
theorem C169_import_sound (ts : List Top) (n : Nat) (ok : Bool) (h : (step (stateAfter ts) (.import n ok)).2 = true) : importPlace ts := by
  apply (place_sound ts).1
  by_cases hs : (stateAfter ts).num > State.imports.num
  · simp [step, hs] at h
  · exact Nat.le_of_not_lt hs

theorem place_complete (ts : List Top) (hr : ∀ t ∈ ts, allRight t = true) (hp : importPlace ts) : (stateAfter ts).num ≤ State.imports.num ∧ ((∀ u ∈ ts, ¬ (valid u = true ∧ isImport u = true)) → (stateAfter ts).num ≤ State.layers.num) := by
  induction ts using List.reverseRecOn with
  | nil => exact ⟨(by decide), fun _ => (by decide)⟩
  | append_singleton ts t ih =>
    have ⟨h1, h2, h3⟩ := place_of_append ts t hp
    have ⟨i1, i2⟩ := ih (fun u hu => hr u (List.mem_append_left _ hu)) h1
    have ht := hr t (List.mem_append_right _ List.mem_cons_self)
    rw [stateAfter_append]
    generalize hst : stateAfter ts = st at i1 i2
    cases t with
    | charset ok => exact ⟨i1, fun h => i2 fun u hu => h u (List.mem_append_left _ hu)⟩
    | unknown n => exact ⟨i1, fun h => i2 fun u hu => h u (List.mem_append_left _ hu)⟩
    | «import» n ok =>
      have : ok = true := ht
      subst this
      constructor
      · cases st <;> simp_all [step, State.num]
      · intro h; exact absurd ⟨rfl, rfl⟩ (h _ (List.mem_append_right _ List.mem_cons_self))
    | layer n p k =>
      have hv : (p && k) = true := ht
      have hpk := hv
      simp only [Bool.and_eq_true] at hpk
      have hl := i2 (h3 hv rfl)
      have e : (step st (.layer n p k)).1 = .layers := by simp [step, hpk.1, hl]
      rw [e]
      exact ⟨(by decide), fun _ => (by decide)⟩
    | «namespace» n ok => rcases h2 ht with h | h <;> cases h
    | customMedia n ok => rcases h2 ht with h | h <;> cases h
    | custom n p k => rcases h2 ht with h | h <;> cases h
    | block n p k => rcases h2 ht with h | h <;> cases h
    | unknownBlock n => cases ht
    | style n p k => rcases h2 ht with h | h <;> cases h

/-- **C169 (partial)** If the syntax of the rules before it is right (and there are no unknown rules with a block), an `@import` is accepted exactly where CSS allows one. What is missing: after wrong rules, which CSS ignores, it can be rejected (`C169_after_error`). -/
theorem C169_import_partial (ts : List Top) (hr : ∀ t ∈ ts, allRight t = true) (n : Nat) : (step (stateAfter ts) (.import n true)).2 = true ↔ importPlace ts := by
  refine ⟨C169_import_sound ts n true, fun h => ?_⟩
  have h1 := (place_complete ts hr h).1
  have : ¬ (stateAfter ts).num > State.imports.num := Nat.not_lt.2 h1
  simp [step, this]

/-- **C169** is false in general: an `@import` after a style rule with a wrong selector, after an unknown rule with a block, or after an empty `@layer;` that follows an import is rejected, although CSS ignores these. -/
theorem C169_after_error : (∀ ts ∈ [[Top.style 0 false true], [.unknownBlock 0], [.import 0 true, .layer 0 true false]], importPlace ts ∧ (step (stateAfter ts) (.import 1 true)).2 = false) := by
  intro ts hts
  simp only [List.mem_cons, List.not_mem_nil, or_false] at hts
  rcases hts with rfl | rfl | rfl <;> (constructor; unfold importPlace; decide; decide)

example : topRules .start [.layer 0 true true, .import 1 true, .layer 2 true true, .import 3 true, .style 4 true true, .namespace 5 true] = [.layer 0 true true, .import 1 true, .layer 2 true true, .style 4 true true] := by decide
example : importPlace [.charset true, .layer 0 true true, .import 1 true, .unknown 2] ∧ (∀ t ∈ [Top.charset true, .layer 0 true true, .import 1 true, .unknown 2], allRight t = true) := by
  constructor
  · unfold importPlace; decide
  · decide

end Verif.Parse
