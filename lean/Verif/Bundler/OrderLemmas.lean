import Verif.Bundler.Spec
import Mathlib.Tactic.Common
/-! Lemmas on the order phase. -/
namespace Verif.Bundler
variable {P U M S B : Type} [DecidableEq P]

/-- `(u, i)` is the place of a use of `q`. -/
def IsEdgeAt (fs : P → File P U M S B) (e : P × Nat) (q : P) : Prop :=
  (fs e.1).css[e.2]? = some q ∨ ((fs e.1).css.length ≤ e.2 ∧ (fs e.1).files[e.2 - (fs e.1).css.length]? = some q)

/-- Invariant of the order phase. -/
structure OInv (fs : P → File P U M S B) (entry : P) (st : OSt P) : Prop where
  nodup : st.visited.Nodup
  edge : ∀ q ∈ st.visited, q ≠ entry → IsEdgeAt fs (st.parent q) q
  older : ∀ d ∈ st.visited, ∀ s i, (fs s).css[i]? = some d → st.parent d = (s, i) → ∃ a b, st.visited = a ++ d :: b ∧ s ∈ b
  reach : ∀ q ∈ st.visited, Reach fs entry q
  par : ∀ q ∈ st.visited, q ≠ entry → (st.parent q).1 ∈ st.visited

/-- What holds when a stylesheet is visited. -/
structure OPre (fs : P → File P U M S B) (entry : P) (st : OSt P) (s : P) : Prop where
  edge : s ≠ entry → IsEdgeAt fs (st.parent s) s
  older : ∀ t i, (fs t).css[i]? = some s → st.parent s = (t, i) → t ∈ st.visited
  reach : Reach fs entry s
  par : s ≠ entry → (st.parent s).1 ∈ st.visited

omit [DecidableEq P] in
theorem uses_css {fs : P → File P U M S B} {s d : P} {i : Nat} (h : (fs s).css[i]? = some d) : Uses fs s d :=
  .inl (List.mem_of_getElem? h)

omit [DecidableEq P] in
theorem uses_file {fs : P → File P U M S B} {s d : P} {i : Nat} (h : (fs s).files[i]? = some d) : Uses fs s d :=
  .inr (List.mem_of_getElem? h)

theorem OInv.set {fs : P → File P U M S B} {entry : P} {st : OSt P} (h : OInv fs entry st) {s d : P} {i : Nat} (hs : s ∈ st.visited)
    (he : IsEdgeAt fs (s, i) d) (hd : (fs s).css.length ≤ i ∨ d ∉ st.visited) :
    OInv fs entry (st.setParent d (s, i)) ∧ OPre fs entry (st.setParent d (s, i)) d := by
  have hr : Reach fs entry d := by
    refine .step s d (h.reach s hs) ?_
    rcases he with he | ⟨-, he⟩
    · exact uses_css he
    · exact uses_file he
  refine ⟨⟨h.nodup, ?_, ?_, h.reach, ?_⟩, ⟨?_, ?_, hr, ?_⟩⟩
  · intro q hq hne
    simp only [OSt.setParent]
    split
    · subst_vars; exact he
    · exact h.edge q hq hne
  · intro q hq t j hc hp
    simp only [OSt.setParent] at hp hq ⊢
    split at hp
    · subst_vars
      simp only [Prod.mk.injEq] at hp
      obtain ⟨rfl, rfl⟩ := hp
      rcases hd with hd | hd
      · rw [List.getElem?_eq_none hd] at hc; simp at hc
      · exact absurd hq hd
    · exact h.older q hq t j hc hp
  · intro q hq hne
    simp only [OSt.setParent]
    split
    · exact hs
    · exact h.par q hq hne
  · intro _; simpa [OSt.setParent] using he
  · intro t j hc hp
    simp only [OSt.setParent, if_true, Prod.mk.injEq] at hp
    rw [← hp.1]; exact hs
  · intro _; simpa [OSt.setParent] using hs

theorem orderCss_inv {fs : P → File P U M S B} {entry : P} {rec : P → OSt P → OSt P} {s : P}
    (hrec : ∀ st d, OInv fs entry st → OPre fs entry st d → OInv fs entry (rec d st) ∧ st.visited ⊆ (rec d st).visited)
    (l : List P) : ∀ i st, (∀ j d, l[j]? = some d → (fs s).css[i + j]? = some d) → OInv fs entry st → s ∈ st.visited →
    OInv fs entry (orderCss rec s i l st) ∧ st.visited ⊆ (orderCss rec s i l st).visited := by
  induction l with
  | nil => intro i st _ h _; exact ⟨h, fun _ => id⟩
  | cons d l ih =>
    intro i st hl h hs
    have hl' : ∀ j d, l[j]? = some d → (fs s).css[i + 1 + j]? = some d := by
      intro j x hx
      rw [Nat.add_assoc, Nat.add_comm 1 j]
      exact hl (j + 1) x (by simpa using hx)
    simp only [orderCss]
    by_cases hd : d ∈ st.visited
    · simp only [hd, if_true]; exact ih _ _ hl' h hs
    · simp only [hd, if_false]
      obtain ⟨h1, h2⟩ := h.set hs (i := i) (d := d) (.inl (hl 0 d (by simp))) (.inr hd)
      obtain ⟨h3, h4⟩ := hrec _ _ h1 h2
      obtain ⟨h5, h6⟩ := ih (i + 1) _ hl' h3 (h4 hs)
      exact ⟨h5, fun x hx => h6 (h4 hx)⟩

theorem orderImports_inv {fs : P → File P U M S B} {entry : P} {rec : P → OSt P → OSt P} {s : P}
    (hrec : ∀ st d, OInv fs entry st → OPre fs entry st d → OInv fs entry (rec d st) ∧ st.visited ⊆ (rec d st).visited)
    (l : List P) : ∀ i st, (fs s).css.length ≤ i → (∀ j d, l[j]? = some d → (fs s).files[i - (fs s).css.length + j]? = some d) →
    OInv fs entry st → s ∈ st.visited →
    OInv fs entry (orderImports rec s i l st) ∧ st.visited ⊆ (orderImports rec s i l st).visited := by
  induction l with
  | nil => intro i st _ _ h _; exact ⟨h, fun _ => id⟩
  | cons d l ih =>
    intro i st hi hl h hs
    have hl' : ∀ j d, l[j]? = some d → (fs s).files[i + 1 - (fs s).css.length + j]? = some d := by
      intro j x hx
      rw [show i + 1 - (fs s).css.length + j = i - (fs s).css.length + (j + 1) by omega]
      exact hl (j + 1) x (by simpa using hx)
    simp only [orderImports]
    obtain ⟨h1, h2⟩ := h.set hs (i := i) (d := d) (.inr ⟨hi, hl 0 d (by simp)⟩) (.inl hi)
    obtain ⟨h3, h4⟩ := hrec _ _ h1 h2
    obtain ⟨h5, h6⟩ := ih (i + 1) _ (by omega) hl' h3 (h4 hs)
    exact ⟨h5, fun x hx => h6 (h4 hx)⟩

theorem order_inv (fs : P → File P U M S B) (entry : P) (fuel : Nat) : ∀ st s, OInv fs entry st → OPre fs entry st s →
    OInv fs entry (order fs fuel s st) ∧ st.visited ⊆ (order fs fuel s st).visited := by
  induction fuel with
  | zero => intro st s h _; exact ⟨h, fun _ => id⟩
  | succ fuel ih =>
    intro st s h hp
    simp only [order]
    by_cases hs : s ∈ st.visited
    · simp only [hs, if_true]; exact ⟨h, fun _ => id⟩
    · simp only [hs, if_false]
      have h0 : OInv fs entry { st with visited := s :: st.visited } := by
        refine ⟨List.nodup_cons.2 ⟨hs, h.nodup⟩, ?_, ?_, ?_, ?_⟩
        · intro q hq hne
          rcases List.mem_cons.1 hq with rfl | hq
          · exact hp.edge hne
          · exact h.edge q hq hne
        · intro d hd t i hc he
          rcases List.mem_cons.1 hd with rfl | hd
          · exact ⟨[], st.visited, rfl, hp.older t i hc he⟩
          · obtain ⟨a, b, e, hb⟩ := h.older d hd t i hc he
            exact ⟨s :: a, b, by simp [e], hb⟩
        · intro q hq
          rcases List.mem_cons.1 hq with rfl | hq
          · exact hp.reach
          · exact h.reach q hq
        · intro q hq hne
          rcases List.mem_cons.1 hq with rfl | hq
          · exact List.mem_cons_of_mem _ (hp.par hne)
          · exact List.mem_cons_of_mem _ (h.par q hq hne)
      obtain ⟨h1, h2⟩ := orderCss_inv ih (fs s).css 0 _ (by simp) h0 (List.mem_cons_self ..)
      obtain ⟨h3, h4⟩ := orderImports_inv ih (fs s).files (fs s).css.length _ (Nat.le_refl _) (by simp) h1 (h2 (List.mem_cons_self ..))
      exact ⟨h3, fun x hx => h4 (h2 (List.mem_cons_of_mem _ hx))⟩

/-- The files not visited yet. -/
def unseen (all : List P) (v : List P) : Nat := (all.filter (· ∉ v)).length

theorem unseen_mono {all v w : List P} (h : v ⊆ w) : unseen all w ≤ unseen all v := by
  unfold unseen
  induction all with
  | nil => simp
  | cons a all ih =>
    by_cases ha : a ∈ v
    · have := h ha
      simpa [List.filter_cons, ha, this] using ih
    · by_cases hw : a ∈ w
      · simp only [List.filter_cons, ha, hw, not_true, not_false_iff, decide_true, decide_false, if_true, List.length_cons]
        simp only [Bool.false_eq_true, if_false]; omega
      · simp only [List.filter_cons, ha, hw, not_false_iff, decide_true, if_true, List.length_cons]; omega

theorem unseen_cons {all v : List P} {s : P} (h : s ∈ all) (hs : s ∉ v) : unseen all (s :: v) < unseen all v := by
  unfold unseen
  induction all with
  | nil => simp at h
  | cons a all ih =>
    have hle : (all.filter (· ∉ s :: v)).length ≤ (all.filter (· ∉ v)).length :=
      unseen_mono (all := all) (List.subset_cons_self s v)
    by_cases ha : a = s
    · subst ha
      simp only [List.mem_cons, true_or, not_true, decide_false, List.filter_cons, hs, not_false_iff, decide_true, if_true, List.length_cons]
      simp only [List.mem_cons] at hle
      simp only [Bool.false_eq_true, if_false]
      omega
    · have := ih ((List.mem_cons.1 h).resolve_left (Ne.symm ha))
      by_cases hv : a ∈ v
      · simp only [List.filter_cons, List.mem_cons, ha, hv, or_true, not_true, decide_false] at this ⊢
        simpa using this
      · simp only [List.filter_cons, List.mem_cons, ha, hv, false_or, not_false_iff, decide_true, if_true, List.length_cons] at this ⊢
        omega

/-- The new stylesheets' uses have been visited. -/
def Closes (fs : P → File P U M S B) (st st' : OSt P) : Prop :=
  st.visited ⊆ st'.visited ∧ ∀ q ∈ st'.visited, q ∉ st.visited → ∀ v, Uses fs q v → v ∈ st'.visited

theorem Closes.trans {fs : P → File P U M S B} {a b c : OSt P} (h : Closes fs a b) (h' : Closes fs b c) : Closes fs a c := by
  refine ⟨fun x hx => h'.1 (h.1 hx), fun q hq hn v hv => ?_⟩
  by_cases hb : q ∈ b.visited
  · exact h'.1 (h.2 q hb hn v hv)
  · exact h'.2 q hq hb v hv

theorem orderCss_closes {fs : P → File P U M S B} {all : List P} {rec : P → OSt P → OSt P} {s : P} {n : Nat}
    (hrec : ∀ st d, d ∈ all → unseen all st.visited ≤ n → Closes fs st (rec d st) ∧ d ∈ (rec d st).visited)
    (l : List P) : ∀ i st, (∀ d ∈ l, d ∈ all) → unseen all st.visited ≤ n →
    Closes fs st (orderCss rec s i l st) ∧ l ⊆ (orderCss rec s i l st).visited := by
  induction l with
  | nil => intro i st _ _; exact ⟨⟨fun _ => id, fun q hq hn => absurd hq hn⟩, fun _ h => absurd h List.not_mem_nil⟩
  | cons d l ih =>
    intro i st hl hn
    simp only [orderCss]
    have hl' : ∀ d ∈ l, d ∈ all := fun x hx => hl x (List.mem_cons_of_mem _ hx)
    by_cases hd : d ∈ st.visited
    · simp only [hd, if_true]
      obtain ⟨h1, h2⟩ := ih (i + 1) st hl' hn
      refine ⟨h1, fun x hx => ?_⟩
      rcases List.mem_cons.1 hx with rfl | hx
      · exact h1.1 hd
      · exact h2 hx
    · simp only [hd, if_false]
      obtain ⟨h1, h2⟩ := hrec (st.setParent d (s, i)) d (hl d (List.mem_cons_self ..)) hn
      obtain ⟨h3, h4⟩ := ih (i + 1) (rec d (st.setParent d (s, i))) hl' (Nat.le_trans (unseen_mono h1.1) hn)
      refine ⟨Closes.trans h1 h3, fun x hx => ?_⟩
      rcases List.mem_cons.1 hx with rfl | hx
      · exact h3.1 h2
      · exact h4 hx

theorem orderImports_closes {fs : P → File P U M S B} {all : List P} {rec : P → OSt P → OSt P} {s : P} {n : Nat}
    (hrec : ∀ st d, d ∈ all → unseen all st.visited ≤ n → Closes fs st (rec d st) ∧ d ∈ (rec d st).visited)
    (l : List P) : ∀ i st, (∀ d ∈ l, d ∈ all) → unseen all st.visited ≤ n →
    Closes fs st (orderImports rec s i l st) ∧ l ⊆ (orderImports rec s i l st).visited := by
  induction l with
  | nil => intro i st _ _; exact ⟨⟨fun _ => id, fun q hq hn => absurd hq hn⟩, fun _ h => absurd h List.not_mem_nil⟩
  | cons d l ih =>
    intro i st hl hn
    simp only [orderImports]
    have hl' : ∀ d ∈ l, d ∈ all := fun x hx => hl x (List.mem_cons_of_mem _ hx)
    obtain ⟨h1, h2⟩ := hrec (st.setParent d (s, i)) d (hl d (List.mem_cons_self ..)) hn
    obtain ⟨h3, h4⟩ := ih (i + 1) (rec d (st.setParent d (s, i))) hl' (Nat.le_trans (unseen_mono h1.1) hn)
    refine ⟨Closes.trans h1 h3, fun x hx => ?_⟩
    rcases List.mem_cons.1 hx with rfl | hx
    · exact h3.1 h2
    · exact h4 hx

theorem order_closes (fs : P → File P U M S B) (all : List P) (hall : ∀ u ∈ all, ∀ v, Uses fs u v → v ∈ all) (fuel : Nat) :
    ∀ st s, s ∈ all → unseen all st.visited < fuel → Closes fs st (order fs fuel s st) ∧ s ∈ (order fs fuel s st).visited := by
  induction fuel with
  | zero => intro st s _ h; omega
  | succ fuel ih =>
    intro st s hs hn
    simp only [order]
    by_cases hv : s ∈ st.visited
    · simp only [hv, if_true]
      exact ⟨⟨fun _ => id, fun q hq hn => absurd hq hn⟩, trivial⟩
    · simp only [hv, if_false]
      have hlt : unseen all (s :: st.visited) < fuel := by
        have := unseen_cons hs hv; omega
      have hrec : ∀ st' d, d ∈ all → unseen all st'.visited ≤ unseen all (s :: st.visited) →
          Closes fs st' (order fs fuel d st') ∧ d ∈ (order fs fuel d st').visited := fun st' d hd h => ih st' d hd (by omega)
      obtain ⟨h1, h2⟩ := orderCss_closes (s := s) hrec (fs s).css 0 { st with visited := s :: st.visited }
        (fun d hd => hall s hs d (.inl hd)) (Nat.le_refl _)
      obtain ⟨h3, h4⟩ := orderImports_closes (s := s) hrec (fs s).files (fs s).css.length _
        (fun d hd => hall s hs d (.inr hd)) (unseen_mono h1.1)
      have h5 := Closes.trans h1 h3
      refine ⟨⟨fun x hx => h5.1 (List.mem_cons_of_mem _ hx), fun q hq hqn v hu => ?_⟩, h5.1 (List.mem_cons_self ..)⟩
      by_cases hqs : q = s
      · subst hqs
        rcases hu with hv | hv
        · exact h3.1 (h2 hv)
        · exact h4 hv
      · exact h5.2 q hq (by simp [hqs, hqn]) v hu

theorem order_visits (fs : P → File P U M S B) (entry : P) (all : List P) (hc : Closed fs entry all) (fuel : Nat) (hf : all.length < fuel) (p : P)
    (hp : Reach fs entry p) : p ∈ (order fs fuel entry (initO entry)).visited := by
  have hle : unseen all (initO entry : OSt P).visited ≤ all.length := List.length_filter_le ..
  obtain ⟨h1, h2⟩ := order_closes fs all hc.2 fuel (initO entry) entry hc.1 (by omega)
  induction hp with
  | entry => exact h2
  | step u v _ hu ih => exact h1.2 u ih (by simp [initO]) v hu
end Verif.Bundler
