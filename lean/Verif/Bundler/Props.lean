import Verif.Bundler.InlineLemmas
/-! C27: a bundle contains every file once, and bundling terminates. -/
namespace Verif.Bundler
variable {P U M S B : Type} [DecidableEq P]

/-! ### Termination -/

theorem orderCss_congr {fs : P → File P U M S B} {all : List P} {rec rec' : P → OSt P → OSt P} {s : P} {n : Nat}
    (hrec : ∀ st d, d ∈ all → unseen all st.visited ≤ n → rec d st = rec' d st ∧ Closes fs st (rec' d st))
    (l : List P) : ∀ i st, (∀ d ∈ l, d ∈ all) → unseen all st.visited ≤ n →
    orderCss rec s i l st = orderCss rec' s i l st := by
  induction l with
  | nil => intro i st _ _; rfl
  | cons d l ih =>
    intro i st hl hn
    have hl' : ∀ d ∈ l, d ∈ all := fun x hx => hl x (List.mem_cons_of_mem _ hx)
    simp only [orderCss]
    by_cases hd : d ∈ st.visited
    · simp only [hd, if_true]; exact ih _ _ hl' hn
    · simp only [hd, if_false]
      obtain ⟨h1, h2⟩ := hrec (st.setParent d (s, i)) d (hl d (List.mem_cons_self ..)) hn
      rw [h1]
      exact ih _ _ hl' (Nat.le_trans (unseen_mono h2.1) hn)

theorem orderImports_congr {fs : P → File P U M S B} {all : List P} {rec rec' : P → OSt P → OSt P} {s : P} {n : Nat}
    (hrec : ∀ st d, d ∈ all → unseen all st.visited ≤ n → rec d st = rec' d st ∧ Closes fs st (rec' d st))
    (l : List P) : ∀ i st, (∀ d ∈ l, d ∈ all) → unseen all st.visited ≤ n →
    orderImports rec s i l st = orderImports rec' s i l st := by
  induction l with
  | nil => intro i st _ _; rfl
  | cons d l ih =>
    intro i st hl hn
    have hl' : ∀ d ∈ l, d ∈ all := fun x hx => hl x (List.mem_cons_of_mem _ hx)
    simp only [orderImports]
    obtain ⟨h1, h2⟩ := hrec (st.setParent d (s, i)) d (hl d (List.mem_cons_self ..)) hn
    rw [h1]
    exact ih _ _ hl' (Nat.le_trans (unseen_mono h2.1) hn)

theorem order_fuel (fs : P → File P U M S B) (all : List P) (hall : ∀ u ∈ all, ∀ v, Uses fs u v → v ∈ all) (fuel : Nat) :
    ∀ fuel' st s, s ∈ all → unseen all st.visited < fuel → unseen all st.visited < fuel' → order fs fuel s st = order fs fuel' s st := by
  induction fuel with
  | zero => intro _ st s _ h; omega
  | succ fuel ih =>
    intro fuel' st s hs hn hn'
    cases fuel' with
    | zero => omega
    | succ fuel' =>
      simp only [order]
      by_cases hv : s ∈ st.visited
      · simp only [hv, if_true]
      · simp only [hv, if_false]
        have hlt := unseen_cons hs hv
        have hrec : ∀ st' d, d ∈ all → unseen all st'.visited ≤ unseen all (s :: st.visited) →
            order fs fuel d st' = order fs fuel' d st' ∧ Closes fs st' (order fs fuel' d st') := fun st' d hd h =>
          ⟨ih fuel' st' d hd (by omega) (by omega), (order_closes fs all hall fuel' st' d hd (by omega)).1⟩
        have h1 := orderCss_congr (s := s) hrec (fs s).css 0 { st with visited := s :: st.visited }
          (fun d hd => hall s hs d (.inl hd)) (Nat.le_refl _)
        rw [h1]
        exact orderImports_congr (s := s) hrec (fs s).files _ _ (fun d hd => hall s hs d (.inr hd)) (unseen_mono
          (orderCss_closes (s := s) (fun st' d hd h => order_closes fs all hall fuel' st' d hd (by have h : unseen all st'.visited ≤ unseen all (s :: st.visited) := h; omega)) (fs s).css 0 { st with visited := s :: st.visited }
            (fun d hd => hall s hs d (.inl hd)) (Nat.le_refl _)).1.1)

/-- **C27** The order phase terminates: with a depth of recursion of the number of files, more is not needed. -/
theorem C27_order_terminates (fs : P → File P U M S B) (entry : P) (all : List P) (hc : Closed fs entry all) (fuel : Nat) (hf : all.length < fuel) :
    order fs fuel entry (initO entry) = order fs (all.length + 1) entry (initO entry) := by
  have hle : unseen all (initO entry : OSt P).visited ≤ all.length := List.length_filter_le ..
  exact order_fuel fs all hc.2 fuel _ _ entry hc.1 (by omega) (by omega)

theorem order_init (fs : P → File P U M S B) (entry : P) (hself : (fs entry).css[0]? ≠ some entry) (fuel : Nat) :
    OInv fs entry (order fs fuel entry (initO entry)) := by
  refine (order_inv fs entry fuel _ _ ⟨by simp [initO], by simp [initO], by simp [initO], by simp [initO], by simp [initO]⟩ ⟨fun h => absurd rfl h, ?_, .entry, fun h => absurd rfl h⟩).1
  intro t i h1 h2
  simp only [initO, Prod.mk.injEq] at h2
  obtain ⟨rfl, rfl⟩ := h2
  exact absurd h1 hself

theorem length_le_of_nodup_subset {l m : List P} (hn : l.Nodup) (hs : l ⊆ m) : l.length ≤ m.length := by
  induction l generalizing m with
  | nil => simp
  | cons a l ih =>
    obtain ⟨h1, h2⟩ := List.nodup_cons.1 hn
    have ha : a ∈ m := hs (List.mem_cons_self ..)
    have := ih (m := m.erase a) h2 (fun x hx => by
      rw [List.mem_erase_of_ne (by rintro rfl; exact h1 hx)]
      exact hs (List.mem_cons_of_mem _ hx))
    rw [List.length_erase_of_mem ha] at this
    have := List.length_pos_of_mem ha
    simp only [List.length_cons]; omega

/-- The number of stylesheets visited before. -/
def age (v : List P) (p : P) : Nat := v.length - v.idxOf p

theorem age_lt {v a b : List P} {d s : P} (hn : v.Nodup) (e : v = a ++ d :: b) (hs : s ∈ b) : age v s < age v d := by
  subst e
  have hd : d ∉ a := by
    intro h; have := (List.nodup_append.1 hn).2.2 d h d (List.mem_cons_self ..); exact this rfl
  have hsa : s ∉ a := by
    intro h; exact (List.nodup_append.1 hn).2.2 s h s (List.mem_cons_of_mem _ hs) rfl
  have hsd : s ≠ d := by
    rintro rfl; exact (List.nodup_cons.1 (List.nodup_append.1 hn).2.1).1 hs
  unfold age
  have h1 : List.idxOf s (d :: b) = List.idxOf s b + 1 := by
    have : (d == s) = false := by simp [Ne.symm hsd]
    rw [List.idxOf_cons, this]; rfl
  rw [List.idxOf_append, List.idxOf_append, if_neg hd, if_neg hsa, List.idxOf_cons_self, h1]
  have := List.idxOf_lt_length_of_mem hs
  simp only [List.length_append, List.length_cons]
  omega

/-- **C27** Bundling terminates for every graph of imports and compositions, cyclic or not, if the entry does not compose from itself. -/
theorem C27_terminates (fs : P → File P U M S B) (first : P → Layer) (cond : P → Cond M S) (entry : P) (all : List P) (hc : Closed fs entry all)
    (hself : (fs entry).css[0]? ≠ some entry) (fuel₁ fuel₂ : Nat) (h₁ : all.length < fuel₁) (h₂ : (all.length + 1) * (all.length + 1) ≤ fuel₂) :
    bundle fs first cond entry fuel₁ fuel₂ ≠ .error .overflow := by
  have hinv := order_init fs entry hself fuel₁
  have hvis := order_visits fs entry all hc fuel₁ h₁
  generalize hst : order fs fuel₁ entry (initO entry) = st at hinv hvis
  have hsub : st.visited ⊆ all := by
    intro q hq
    have := hinv.reach q hq
    clear hq
    induction this with
    | entry => exact hc.1
    | step u v _ hu ih => exact hc.2 u ih v hu
  have hlen := length_le_of_nodup_subset hinv.nodup hsub
  have hclosed : ∀ u ∈ st.visited, ∀ v, Uses fs u v → v ∈ st.visited := fun u hu v huv => hvis v (.step u v (hinv.reach u hu) huv)
  have h := inline_ends fs first cond st.parent st.visited st.visited.length (fun p => st.visited.length - age st.visited p)
    hclosed (fun p => Nat.sub_le _ _)
    (by
      intro s hs i d hd hp
      have hdv := hclosed s hs d (uses_css hd)
      obtain ⟨a, b, e, hb⟩ := hinv.older d hdv s i hd hp
      have := age_lt hinv.nodup e hb
      have h2 : age st.visited d ≤ st.visited.length := Nat.sub_le _ _
      omega) fuel₂ entry (hvis entry .entry) ⟨[], [], []⟩
    (by
      have h1 : unseen st.visited ([] : List P) ≤ st.visited.length := List.length_filter_le ..
      have h3 : unseen st.visited ([] : List P) * (st.visited.length + 1) ≤ all.length * (all.length + 1) :=
        Nat.mul_le_mul (by omega) (by omega)
      rw [Nat.add_mul, Nat.one_mul] at h₂
      have h4 : st.visited.length - age st.visited entry ≤ st.visited.length := Nat.sub_le _ _
      simp only
      omega)
  intro he
  unfold bundle at he
  rw [hst] at he
  cases hi : inline fs first cond st.parent fuel₂ entry ⟨[], [], []⟩ with
  | ok x => rw [hi] at he; simp [Except.map] at he
  | error e =>
    rw [hi] at he
    simp only [Except.map, Except.error.injEq] at he
    subst he
    exact h hi

/-! ### Every file once -/

theorem bundle_ok {fs : P → File P U M S B} {first : P → Layer} {cond : P → Cond M S} {entry : P} {fuel₁ fuel₂ : Nat} {out : List (Out P U M S)}
    (h : bundle fs first cond entry fuel₁ fuel₂ = .ok out) : ∃ st, inline fs first cond (order fs fuel₁ entry (initO entry)).parent fuel₂ entry ⟨[], [], []⟩ = .ok st ∧
      st.dest = out := by
  unfold bundle at h
  cases hi : inline fs first cond (order fs fuel₁ entry (initO entry)).parent fuel₂ entry ⟨[], [], []⟩ with
  | ok x => rw [hi] at h; simp only [Except.map, Except.ok.injEq] at h; exact ⟨x, rfl, h⟩
  | error e => rw [hi] at h; simp [Except.map] at h

/-- **C27** No file is twice in a bundle, and only files the entry uses (directly or not) are in it: for every graph. -/
theorem C27_at_most_once (fs : P → File P U M S B) (first : P → Layer) (cond : P → Cond M S) (entry : P) (fuel₁ fuel₂ : Nat) (out : List (Out P U M S))
    (h : bundle fs first cond entry fuel₁ fuel₂ = .ok out) : (bodies out).Nodup ∧ ∀ p ∈ bodies out, Reach fs entry p := by
  obtain ⟨st, hi, rfl⟩ := bundle_ok h
  obtain ⟨h1, -⟩ := inline_res fs first cond _ (Reach fs entry) (fun u v => .step u v) fuel₂ entry _ st .entry hi
  obtain ⟨l, e, hn, hl⟩ := h1.out
  simp only [bodies, List.nil_append] at e
  rw [e]
  exact ⟨hn, fun p hp => h1.reach p ((hl p).1 hp).1 ((hl p).1 hp).2⟩

/-- **C27** If every cycle of uses goes through the entry, every file the entry uses (directly or not) is in the bundle. Acyclic graphs are
a special case. -/
theorem C27_complete_partial (fs : P → File P U M S B) (first : P → Layer) (cond : P → Cond M S) (entry : P) (all : List P) (hc : Closed fs entry all)
    (rank : P → Nat) (hrank : ∀ u v, Uses fs u v → v ≠ entry → rank v < rank u)
    (hself : (fs entry).css[0]? ≠ some entry) (fuel₁ fuel₂ : Nat) (h₁ : all.length < fuel₁) (out : List (Out P U M S))
    (h : bundle fs first cond entry fuel₁ fuel₂ = .ok out) (p : P) (hp : Reach fs entry p) : p ∈ bodies out := by
  obtain ⟨st, hi, rfl⟩ := bundle_ok h
  have hinv := order_init fs entry hself fuel₁
  have hvis := order_visits fs entry all hc fuel₁ h₁
  obtain ⟨h1, h2⟩ := inline_res fs first cond _ (Reach fs entry) (fun u v => .step u v) fuel₂ entry _ st .entry hi
  obtain ⟨l, e, hn, hl⟩ := h1.out
  simp only [bodies, List.nil_append] at e
  rw [e, hl]
  refine ⟨?_, List.not_mem_nil⟩
  have hall : ∀ p, Reach fs entry p → p ∈ all := by
    intro p hp
    induction hp with
    | entry => exact hc.1
    | step u v _ hu ih => exact hc.2 u ih v hu
  obtain ⟨K, hK⟩ : ∃ K, ∀ u ∈ all, rank u ≤ K := by
    clear hall h₁ hc hvis
    induction all with
    | nil => exact ⟨0, by simp⟩
    | cons a all ih =>
      obtain ⟨K, hK⟩ := ih
      refine ⟨rank a + K, fun u hu => ?_⟩
      rcases List.mem_cons.1 hu with rfl | hu
      · omega
      · have := hK u hu; omega
  have key : ∀ k p, Reach fs entry p → K < k + rank p → p ∈ st.taken := by
    intro k
    induction k with
    | zero => intro p hp hk; have := hK p (hall p hp); omega
    | succ k ih =>
      intro p hp hk
      by_cases hpe : p = entry
      · rw [hpe]; exact h2
      · have he := hinv.edge p (hvis p hp) hpe
        have hpv := hinv.par p (hvis p hp) hpe
        generalize hpar : (order fs fuel₁ entry (initO entry)).parent p = e at he hpv
        obtain ⟨u, i⟩ := e
        have hu : Uses fs u p := by
          rcases he with he | ⟨-, he⟩
          · exact uses_css he
          · exact uses_file he
        have hut := ih u (hinv.reach u hpv) (by have := hrank u p hu hpe; omega)
        exact h1.closes u hut List.not_mem_nil p i he hpar
  exact key (K + 1) p hp (by omega)

/-! ### Loading -/

omit [DecidableEq P] in
theorem spawnImports_mem {o : Ops M S} {rule : Cond M S} (l : List (Import P U M S)) : ∀ new, spawnImports o rule l = some new → ∀ t : P × Cond M S,
    t ∈ new → ∃ i ∈ l, i.dep = .file t.1 ∧ nest o rule i = some t.2 := by
  induction l with
  | nil => intro new h t ht; simp only [spawnImports, Option.some.injEq] at h; subst h; exact absurd ht List.not_mem_nil
  | cons i l ih =>
    intro new h t ht
    simp only [spawnImports] at h
    split at h
    · rename_i c l' hc hl
      simp only [Option.some.injEq] at h
      subst h
      have : t ∈ l' → ∃ x ∈ i :: l, x.dep = .file t.1 ∧ nest o rule x = some t.2 := by
        intro ht
        obtain ⟨x, h1, h2⟩ := ih l' hl t ht
        exact ⟨x, List.mem_cons_of_mem _ h1, h2⟩
      cases hd : i.dep with
      | ext u => rw [hd] at ht; exact this ht
      | file p =>
        rw [hd] at ht
        rcases List.mem_cons.1 ht with rfl | ht
        · exact ⟨i, List.mem_cons_self .., hd, hc⟩
        · exact this ht
    · exact absurd h (by simp)

omit [DecidableEq P] in
theorem spawn_mem {o : Ops M S} {f : File P U M S B} {rule : Cond M S} {new : List (P × Cond M S)} (h : spawn o f rule = some new) (t : P × Cond M S) (ht : t ∈ new) :
    (∃ i ∈ f.imports, i.dep = .file t.1 ∧ nest o rule i = some t.2) ∨ (t.1 ∈ f.css ∧ t.2 = rule) := by
  unfold spawn at h
  simp only [Option.map_eq_some_iff] at h
  obtain ⟨l, hl, rfl⟩ := h
  rcases List.mem_append.1 ht with ht | ht
  · exact .inl (spawnImports_mem _ _ hl t ht)
  · right
    simp only [List.mem_map] at ht
    obtain ⟨p, hp, rfl⟩ := ht
    exact ⟨hp, rfl⟩

omit [DecidableEq P] in
theorem spawn_uses {o : Ops M S} {fs : P → File P U M S B} {u : P} {rule : Cond M S} {new : List (P × Cond M S)} (h : spawn o (fs u) rule = some new)
    (t : P × Cond M S) (ht : t ∈ new) : Uses fs u t.1 := by
  rcases spawn_mem h t ht with ⟨i, hi, hd, -⟩ | ⟨hc, -⟩
  · right
    exact List.mem_filterMap.2 ⟨i, hi, by simp [hd]⟩
  · exact .inl hc

theorem find_none {p : P} {l : List (P × Cond M S)} : find p l = none ↔ p ∉ l.map (·.1) := by
  induction l with
  | nil => simp [find]
  | cons x l ih =>
    obtain ⟨q, c⟩ := x
    simp only [find, List.map_cons, List.mem_cons, not_or]
    split
    · rename_i h; subst h; simp
    · rename_i h; rw [ih]; exact ⟨fun h' => ⟨Ne.symm h, h'⟩, fun h' => h'.2⟩

theorem put_map {p : P} {c : Cond M S} {l : List (P × Cond M S)} : (put p c l).map (·.1) = l.map (·.1) := by
  induction l with
  | nil => rfl
  | cons x l ih =>
    obtain ⟨q, c'⟩ := x
    simp only [put]
    split <;> simp [ih]

theorem step_decreases {o : Ops M S} {fs : P → File P U M S B} {all : List P} (hall : ∀ u ∈ all, ∀ v, Uses fs u v → v ∈ all) {a b : LSt P M S}
    (ha : ∀ t ∈ a.pending, t.1 ∈ all) (h : Step o fs a b) : (∀ t ∈ b.pending, t.1 ∈ all) ∧
    (unseen all (b.loaded.map (·.1)) < unseen all (a.loaded.map (·.1)) ∨
      (unseen all (b.loaded.map (·.1)) = unseen all (a.loaded.map (·.1)) ∧ b.pending.length < a.pending.length)) := by
  cases h with
  | run l pre post p rule st' h =>
    have hp : p ∈ all := ha (p, rule) (by simp)
    have hrest : ∀ t ∈ pre ++ post, t.1 ∈ all := fun t ht => ha t (by
      rcases List.mem_append.1 ht with h | h
      · exact List.mem_append_left _ h
      · exact List.mem_append_right _ (List.mem_cons_of_mem _ h))
    unfold loadFile at h
    split at h
    · simp only [Option.map_eq_some_iff] at h
      obtain ⟨c, -, rfl⟩ := h
      refine ⟨hrest, .inr ⟨by simp [put_map], by simp⟩⟩
    · rename_i hn
      simp only [Option.map_eq_some_iff] at h
      obtain ⟨new, hnew, rfl⟩ := h
      refine ⟨?_, .inl ?_⟩
      · intro t ht
        rcases List.mem_append.1 ht with ht | ht
        · exact hrest t ht
        · exact hall p hp _ (spawn_uses hnew t ht)
      · have h1 : unseen all (p :: l.map (·.1)) < unseen all (l.map (·.1)) := unseen_cons hp (find_none.1 hn)
        have h2 : unseen all ((l ++ [(p, rule)]).map (·.1)) ≤ unseen all (p :: l.map (·.1)) :=
          unseen_mono (fun x hx => by
            rcases List.mem_cons.1 hx with rfl | hx
            · simp
            · simp only [List.map_append, List.mem_append]; exact .inl hx)
        simp only
        omega

/-- **C27** Loading terminates under every schedule: there is no infinite sequence of loads. -/
theorem C27_load_terminates (o : Ops M S) (fs : P → File P U M S B) (entry : P) (all : List P) (hc : Closed fs entry all) :
    ¬ ∃ f : Nat → LSt P M S, f 0 = initL o entry ∧ ∀ n, Step o fs (f n) (f (n + 1)) := by
  rintro ⟨f, h0, hf⟩
  have hin : ∀ n, ∀ t ∈ (f n).pending, t.1 ∈ all := by
    intro n
    induction n with
    | zero => rw [h0]; intro t ht; simp only [initL, List.mem_singleton] at ht; subst ht; exact hc.1
    | succ n ih => exact (step_decreases hc.2 ih (hf n)).1
  have key : ∀ a b n, unseen all ((f n).loaded.map (·.1)) ≤ a → (unseen all ((f n).loaded.map (·.1)) = a → (f n).pending.length ≤ b) → False := by
    intro a
    induction a with
    | zero =>
      intro b
      induction b with
      | zero => intro n h1 h2; have := (step_decreases hc.2 (hin n) (hf n)).2; omega
      | succ b ih =>
        intro n h1 h2
        have := (step_decreases hc.2 (hin n) (hf n)).2
        exact ih (n + 1) (by omega) (by omega)
    | succ a iha =>
      intro b
      induction b with
      | zero =>
        intro n h1 h2
        have := (step_decreases hc.2 (hin n) (hf n)).2
        exact iha _ (n + 1) (by omega) (fun _ => Nat.le_refl _)
      | succ b ih =>
        intro n h1 h2
        have := (step_decreases hc.2 (hin n) (hf n)).2
        exact ih (n + 1) (by omega) (by omega)
  exact key _ _ 0 (Nat.le_refl _) (fun _ => Nat.le_refl _)
end Verif.Bundler
