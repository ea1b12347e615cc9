import Verif.SelPrint.WF
/-!
# The loop over the compounds prints all components but some `*`
-/
namespace Verif.SelPrint
open Verif.SelParse

/-- Some universal selectors are left out, but never all of a compound selector. -/
inductive Keeps : Bool → List Comp → List Comp → Prop
  | nil : Keeps true [] []
  | comb {k : Comb} {s t : List Comp} : Keeps false s t → Keeps true (.comb k :: s) (.comb k :: t)
  | keep {b : Bool} {c : Comp} {s t : List Comp} : c.isComb = false → Keeps true s t → Keeps b (c :: s) (c :: t)
  | drop {b : Bool} {s t : List Comp} : Keeps b s t → Keeps b (.type .implicit none :: s) t

variable {v : Opts} {p : Style}

theorem items_map (s : List Comp) : items p s = s.map fun c => (c, prC p c) := by
  induction s with
  | nil => simp [items]
  | cons c s ih => simp [items, ih]

theorem items_append (a b : List Comp) : items p (a ++ b) = items p a ++ items p b := by simp [items_map]

theorem items_text (s : List Comp) : (items p s).flatMap (·.2) = s.flatMap (prC p) := by
  rw [items_map, List.flatMap_map]

theorem noType_mid {cx : Cx} (cp : List Comp) : ∀ {g : Sig} {rest : List Comp}, WFS v cx g .mid (cp ++ rest) → (∀ c ∈ cp, c.isComb = false) →
    ∀ c ∈ cp, isType c = false := by
  induction cp with
  | nil => simp
  | cons c cp ih =>
    intro g rest h hc
    simp only [List.cons_append, WFS] at h
    obtain ⟨_, h2, _, h4⟩ := h
    have hn : next .mid c = .mid := by
      have := hc c (by simp)
      cases c <;> simp_all [next, Comp.isComb]
    rw [hn] at h4
    intro x hx
    simp at hx
    rcases hx with rfl | hx
    · cases x <;> simp_all [isType, placeOK]
    · exact ih h4 (fun y hy => hc y (by simp [hy])) x hx

theorem step2_text {b : Bool} {c : Comp} (h : isType c = false) : step2 b (c, prC p c) = prC p c := by
  cases c <;> simp_all [isType, step2]

theorem step2_all {b : Bool} (cp : List Comp) (h : ∀ c ∈ cp, isType c = false) : (items p cp).flatMap (step2 b) = cp.flatMap (prC p) := by
  rw [items_map, List.flatMap_map]
  induction cp with
  | nil => rfl
  | cons c cp ih =>
    rw [List.flatMap_cons, List.flatMap_cons, ih fun x hx => h x (by simp [hx]), step2_text (h c (by simp))]

theorem compound_noType (first : Bool) (cp : List Comp) (n : Option PComb) (h : ∀ c ∈ cp, isType c = false) :
    compoundToks first (items p cp) n = cp.flatMap (prC p) := by
  have hr : ∀ l : List Item, (∀ x ∈ l, isType x.1 = false) → ∀ t ns, l ≠ [(.type ns none, t)] := by
    rintro l hl t ns rfl
    have := hl (.type ns none, t) (by simp)
    simp [isType] at this
  have hi : ∀ x ∈ items p cp, isType x.1 = false := by
    intro x hx
    rw [items_map] at hx
    simp at hx
    obtain ⟨c, hc, rfl⟩ := hx
    exact h c hc
  unfold compoundToks
  simp only
  split
  · next ns t heq =>
    exfalso
    have hd : ∀ b : Bool, ∀ x ∈ (if b = true then (items p cp).drop 1 else items p cp), isType x.1 = false := by
      intro b
      cases b
      · exact hi
      · exact fun x hx => hi x (List.mem_of_mem_drop hx)
    exact hr _ (hd _) t ns heq
  · exact step2_all cp h

theorem keeps_append {cp : List Comp} (hc : ∀ c ∈ cp, c.isComb = false) {rest rest' : List Comp} (h : Keeps true rest rest') {b : Bool} (hb : b = true ∨ cp ≠ []) :
    Keeps b (cp ++ rest) (cp ++ rest') := by
  induction cp generalizing b with
  | nil =>
    have : b = true := by simpa using hb
    subst this; exact h
  | cons c cp ih =>
    exact .keep (hc c (by simp)) (ih (fun x hx => hc x (by simp [hx])) (.inl rfl))

/-- One compound selector. -/
theorem compound_keeps {cx : Cx} {g : Sig} (cp rest : List Comp) (hw : WFS v cx g .start (cp ++ rest)) (hc : ∀ c ∈ cp, c.isComb = false) (first : Bool)
    (hf : first = true ∨ ∀ ns b, cp ≠ .nesting :: .type ns none :: b ∨ ns = .implicit) (n : Option PComb) :
    ∃ cp', compoundToks first (items p cp) n = cp'.flatMap (prC p) ∧ ∀ rest rest', (cp ≠ [] → Keeps true rest rest') → (n = some .pseudo → Keeps false rest rest') →
      cp ≠ [] → Keeps false (cp ++ rest) (cp' ++ rest') := by
  have hall : (∀ c ∈ cp, isType c = false) → ∃ cp', compoundToks first (items p cp) n = cp'.flatMap (prC p) ∧ ∀ rest rest', (cp ≠ [] → Keeps true rest rest') →
      (n = some .pseudo → Keeps false rest rest') → cp ≠ [] → Keeps false (cp ++ rest) (cp' ++ rest') := fun h =>
    ⟨cp, compound_noType first cp n h, fun rest rest' h1 _ hne => keeps_append hc (h1 hne) (.inr hne)⟩
  cases cp with
  | nil => exact hall (by simp)
  | cons c r =>
    simp only [List.cons_append, WFS] at hw
    obtain ⟨_, _, _, hw⟩ := hw
    have hcr : ∀ x ∈ r, x.isComb = false := fun x hx => hc x (by simp [hx])
    by_cases hct : ∃ ns m, c = .type ns m
    · obtain ⟨ns, m, rfl⟩ := hct
      have hr := noType_mid r hw hcr
      have hsame : compoundToks first (items p (.type ns m :: r)) n = (Comp.type ns m :: r).flatMap (prC p) →
          ∃ cp', compoundToks first (items p (.type ns m :: r)) n = cp'.flatMap (prC p) ∧ ∀ rest rest', (Comp.type ns m :: r ≠ [] → Keeps true rest rest') →
          (n = some .pseudo → Keeps false rest rest') → Comp.type ns m :: r ≠ [] → Keeps false (Comp.type ns m :: r ++ rest) (cp' ++ rest') := fun h =>
        ⟨_, h, fun rest rest' h1 _ hne => keeps_append hc (h1 hne) (.inr hne)⟩
      cases m with
      | some m =>
        apply hsame
        simp only [compoundToks, items, Bool.and_false, Bool.false_eq_true, if_false]
        rw [List.flatMap_cons, List.flatMap_cons, step2_all r hr]
        rfl
      | none =>
        by_cases hns : ns = .implicit
        · subst hns
          cases r with
          | nil =>
            by_cases hn : n = some .pseudo
            · refine ⟨[], by simp [compoundToks, items, hn, step2, Ns.toks], fun rest rest' h1 h2 _ => .drop (h2 hn)⟩
            · apply hsame
              simp [compoundToks, items, hn]
          | cons d r =>
            refine ⟨d :: r, ?_, fun rest rest' h1 _ hne => .drop (keeps_append hcr (h1 hne) (.inr (by simp)))⟩
            rw [← step2_all (p := p) (b := true) (d :: r) hr]
            simp [compoundToks, items, step2, Ns.toks]
        · apply hsame
          have : (items p (.type ns none :: r)).flatMap (step2 false) = (Comp.type ns none :: r).flatMap (prC p) := by
            rw [items, List.flatMap_cons, step2_all r hr, List.flatMap_cons]
            simp [step2, prC, nameTok]
          simp only [compoundToks, items, Bool.and_false, Bool.false_eq_true, if_false, hns, decide_false] at this ⊢
          cases r with
          | nil =>
            simp only [items]
            split
            · exact this
            · simp
          | cons d r => exact this
    · by_cases hn : c = .nesting
      · subst hn
        simp only [next, if_true] at hw
        cases r with
        | nil => exact hall (by simp [isType])
        | cons d r =>
          simp only [List.cons_append, WFS] at hw
          obtain ⟨_, _, _, hw⟩ := hw
          have hcr' : ∀ x ∈ r, x.isComb = false := fun x hx => hcr x (by simp [hx])
          have hr := noType_mid r (by
            have : next .nest d = .mid := by
              have := hcr d (by simp)
              cases d <;> simp_all [next, Comp.isComb]
            rwa [this] at hw) hcr'
          by_cases hdt : ∃ ns m, d = .type ns m
          · obtain ⟨ns, m, rfl⟩ := hdt
            have hsame : compoundToks first (items p (.nesting :: .type ns m :: r)) n = (Comp.nesting :: Comp.type ns m :: r).flatMap (prC p) →
                ∃ cp', compoundToks first (items p (.nesting :: .type ns m :: r)) n = cp'.flatMap (prC p) ∧
                ∀ rest rest', (Comp.nesting :: Comp.type ns m :: r ≠ [] → Keeps true rest rest') →
                (n = some .pseudo → Keeps false rest rest') → Comp.nesting :: Comp.type ns m :: r ≠ [] →
                Keeps false (Comp.nesting :: Comp.type ns m :: r ++ rest) (cp' ++ rest') := fun h =>
              ⟨_, h, fun rest rest' h1 _ hne => keeps_append hc (h1 hne) (.inr hne)⟩
            have hdrop : ns = .implicit → m = none → compoundToks first (items p (.nesting :: .type ns m :: r)) n = (Comp.nesting :: r).flatMap (prC p) →
                ∃ cp', compoundToks first (items p (.nesting :: .type ns m :: r)) n = cp'.flatMap (prC p) ∧
                ∀ rest rest', (Comp.nesting :: Comp.type ns m :: r ≠ [] → Keeps true rest rest') →
                (n = some .pseudo → Keeps false rest rest') → Comp.nesting :: Comp.type ns m :: r ≠ [] →
                Keeps false (Comp.nesting :: Comp.type ns m :: r ++ rest) (cp' ++ rest') := by
              rintro rfl rfl h
              exact ⟨_, h, fun rest rest' h1 _ hne => .keep rfl (.drop (keeps_append hcr' (h1 hne) (.inl rfl)))⟩
            have htxt : ∀ b, m ≠ none ∨ b = false → (items p (.nesting :: .type ns m :: r)).flatMap (step2 b) = (Comp.nesting :: Comp.type ns m :: r).flatMap (prC p) := by
              intro b hb
              rw [items, items, List.flatMap_cons, List.flatMap_cons, step2_all r hr, List.flatMap_cons, List.flatMap_cons]
              cases m with
              | none => simp only [ne_eq, not_true_eq_false, false_or] at hb; subst hb; simp [step2, prC, nameTok]
              | some m => simp [step2, prC, nameTok]
            have htxt2 : m = none → ns = .implicit → (items p (.nesting :: .type ns m :: r)).flatMap (step2 true) = (Comp.nesting :: r).flatMap (prC p) := by
              rintro rfl rfl
              rw [items, items, List.flatMap_cons, List.flatMap_cons, step2_all r hr, List.flatMap_cons]
              simp [step2, prC, Ns.toks]
            cases m with
            | some m =>
              apply hsame
              have := htxt (decide (ns = .implicit)) (.inl (by simp))
              have h2 := htxt true (.inl (by simp))
              simp only [items] at this h2
              cases first <;> simp only [compoundToks, items, Bool.and_true, Bool.false_and, Bool.false_eq_true, if_false, if_true, List.drop_one, List.tail_cons]
              · exact h2
              · exact this
            | none =>
              by_cases hns : ns = .implicit
              · have h2 := htxt2 rfl hns
                cases first with
                | false =>
                  refine hdrop hns rfl ?_
                  simp only [items] at h2
                  simp only [compoundToks, items, Bool.and_true, Bool.false_and, Bool.false_eq_true, if_false]
                  exact h2
                | true =>
                  cases r with
                  | nil =>
                    by_cases hn : n = some .pseudo
                    · refine hdrop hns rfl ?_
                      simp only [items] at h2
                      simp only [compoundToks, items, Bool.and_true, if_true, List.drop_one, List.tail_cons, hn, hns, decide_true]
                      rw [hns] at h2
                      exact h2
                    · apply hsame
                      simp only [compoundToks, items, Bool.and_true, if_true, List.drop_one, List.tail_cons, hn, if_false]
                      simp
                  | cons e r =>
                    refine hdrop hns rfl ?_
                    simp only [items] at h2
                    simp only [compoundToks, items, Bool.and_true, if_true, List.drop_one, List.tail_cons, hns, decide_true]
                    rw [hns] at h2
                    exact h2
              · rcases hf with rfl | hf
                · apply hsame
                  have h2 := htxt false (.inr rfl)
                  simp only [items] at h2
                  simp only [compoundToks, items, Bool.and_true, if_true, List.drop_one, List.tail_cons, hns, decide_false]
                  cases r with
                  | nil =>
                    simp only [items] at h2 ⊢
                    split
                    · exact h2
                    · simp
                  | cons e r => exact h2
                · exfalso
                  rcases hf ns r with h | h
                  · exact h rfl
                  · exact hns h
          · apply hall
            intro x hx
            simp at hx
            rcases hx with rfl | rfl | hx
            · rfl
            · cases x <;> simp_all [isType]
            · exact hr x hx
      · apply hall
        have hm : next .start c = .mid := by
          have := hc c (by simp)
          cases c <;> simp_all [next, Comp.isComb]
        rw [hm] at hw
        have hr := noType_mid r hw hcr
        intro x hx
        simp at hx
        rcases hx with rfl | hx
        · cases x <;> simp_all [isType]
        · exact hr x hx

end Verif.SelPrint
