import Verif.Bundler.EvalProps
/-! C29, C30: the conditions and layers of the files of a bundle, for every schedule of the loads. -/
namespace Verif.Bundler
variable {P U M S B : Type}

/-- The files a file uses, with repetitions. -/
def File.uses (f : File P U M S B) : List P := f.files ++ f.css

/-- The conditions with which a use of a file loaded with `c` is loaded. -/
def Next (o : Ops M S) (fs : P → File P U M S B) (u : P) (c : Cond M S) (v : P) (c' : Cond M S) : Prop :=
  (∃ i ∈ (fs u).imports, i.dep = .file v ∧ nest o c i = some c') ∨ (v ∈ (fs u).css ∧ c' = c)

/-- The conditions along chains of imports. -/
inductive Chain (o : Ops M S) (fs : P → File P U M S B) (entry : P) : P → Cond M S → Prop
  | entry : Chain o fs entry entry ⟨none, o.always, none⟩
  | next (u c v c') : Chain o fs entry u c → Next o fs u c v c' → Chain o fs entry v c'

theorem next_uses {o : Ops M S} {fs : P → File P U M S B} {u v : P} {c c' : Cond M S} (h : Next o fs u c v c') : v ∈ (fs u).uses := by
  rcases h with ⟨i, hi, hd, -⟩ | ⟨h, -⟩
  · exact List.mem_append_left _ (List.mem_filterMap.2 ⟨i, hi, by simp [hd]⟩)
  · exact List.mem_append_right _ h

/-- Combining conditions one after the other. -/
def absorb (o : Ops M S) : Cond M S → List (Cond M S) → Option (Cond M S)
  | e, [] => some e
  | e, c :: cs => match combine o e c with | none => none | some e' => absorb o e' cs

theorem absorb_append (o : Ops M S) (cs : List (Cond M S)) : ∀ (e e' : Cond M S) (c : Cond M S), absorb o e cs = some e' → absorb o e (cs ++ [c]) = combine o e' c := by
  induction cs with
  | nil =>
    intro e e' c h
    simp only [absorb, Option.some.injEq] at h
    subst h
    simp only [List.nil_append, absorb]
    cases combine o e c <;> rfl
  | cons x cs ih =>
    intro e e' c h
    simp only [absorb] at h
    split at h
    · exact absurd h (by simp)
    · rename_i e1 h1
      simp only [List.cons_append, absorb, h1]
      exact ih _ _ _ h

theorem spawnImports_complete {o : Ops M S} {rule : Cond M S} (l : List (Import P U M S)) : ∀ new, spawnImports o rule l = some new →
    (∀ i ∈ l, ∃ c, nest o rule i = some c ∧ ∀ p, i.dep = .file p → (p, c) ∈ new) ∧
    new.map (·.1) = l.filterMap (fun i => match i.dep with | .file p => some p | .ext _ => none) := by
  induction l with
  | nil => intro new h; simp only [spawnImports, Option.some.injEq] at h; subst h; simp
  | cons i l ih =>
    intro new h
    simp only [spawnImports] at h
    split at h
    · rename_i c l' hc hl
      simp only [Option.some.injEq] at h
      subst h
      obtain ⟨h1, h2⟩ := ih l' hl
      cases hd : i.dep with
      | ext u =>
        simp only [List.filterMap_cons, hd]
        refine ⟨fun j hj => ?_, h2⟩
        rcases List.mem_cons.1 hj with rfl | hj
        · exact ⟨c, hc, fun p hp => by rw [hd] at hp; cases hp⟩
        · exact h1 j hj
      | file q =>
        simp only [List.filterMap_cons, hd, List.map_cons, h2, and_true]
        intro j hj
        rcases List.mem_cons.1 hj with rfl | hj
        · refine ⟨c, hc, fun p hp => ?_⟩
          rw [hd] at hp
          cases hp
          exact List.mem_cons_self ..
        · obtain ⟨c', h3, h4⟩ := h1 j hj
          exact ⟨c', h3, fun p hp => List.mem_cons_of_mem _ (h4 p hp)⟩
    · exact absurd h (by simp)

theorem spawn_complete {o : Ops M S} {fs : P → File P U M S B} {u : P} {rule : Cond M S} {new : List (P × Cond M S)} (h : spawn o (fs u) rule = some new) :
    (∀ i ∈ (fs u).imports, ∃ c, nest o rule i = some c) ∧ (∀ v c', Next o fs u rule v c' → (v, c') ∈ new) ∧ new.map (·.1) = (fs u).uses := by
  unfold spawn at h
  simp only [Option.map_eq_some_iff] at h
  obtain ⟨l, hl, rfl⟩ := h
  obtain ⟨h1, h2⟩ := spawnImports_complete _ _ hl
  refine ⟨fun i hi => ?_, ?_, ?_⟩
  · obtain ⟨c, hc, -⟩ := h1 i hi; exact ⟨c, hc⟩
  · rintro v c' (⟨i, hi, hd, hn⟩ | ⟨hv, rfl⟩)
    · obtain ⟨c, hc, h3⟩ := h1 i hi
      rw [hn] at hc
      cases hc
      exact List.mem_append_left _ (h3 v hd)
    · exact List.mem_append_right _ (List.mem_map.2 ⟨v, hv, rfl⟩)
  · simp only [List.map_append, h2, List.map_map, File.uses, File.files]
    congr 1
    simp [Function.comp_def]

variable [DecidableEq P]

/-- The conditions of the loads of a file, in order. -/
def condsOf (p : P) (hist : List (P × Cond M S)) : List (Cond M S) := (hist.filter fun t => t.1 = p).map (·.2)

theorem find_put {p q : P} {c e : Cond M S} (l : List (P × Cond M S)) (h : find p l = some e) : find q (put p c l) = if q = p then some c else find q l := by
  induction l with
  | nil => simp [find] at h
  | cons x l ih =>
    obtain ⟨r, c'⟩ := x
    simp only [find] at h
    simp only [put]
    by_cases hr : r = p
    · subst hr
      simp only [if_true, find]
      by_cases hq : q = r
      · simp [hq]
      · simp [hq, Ne.symm hq]
    · simp only [hr, if_false] at h ⊢
      simp only [find, ih h]
      by_cases hq : r = q
      · subst hq; simp [hr]
      · simp [hq]

theorem find_append {q p : P} {c : Cond M S} (l : List (P × Cond M S)) (h : find p l = none) : find q (l ++ [(p, c)]) = if q = p then some c else find q l := by
  induction l with
  | nil => simp only [List.nil_append, find, eq_comm (a := q)]
  | cons x l ih =>
    obtain ⟨r, c'⟩ := x
    simp only [find] at h
    split at h
    · exact absurd h (by simp)
    · rename_i hr
      simp only [List.cons_append, find, ih h]
      by_cases hq : r = q
      · subst hq; simp [hr]
      · simp [hq]

/-- The invariant of loading; `hist` are the loads that have been done. -/
structure LInv (o : Ops M S) (fs : P → File P U M S B) (entry : P) (st : LSt P M S) (hist : List (P × Cond M S)) : Prop where
  entries : ∀ p, find p st.loaded = match condsOf p hist with | [] => none | c :: cs => absorb o c cs
  ok : ∀ p ∈ hist.map (·.1), (find p st.loaded).isSome
  chain : ∀ t ∈ hist ++ st.pending, Chain o fs entry t.1 t.2
  next : ∀ u c cs, condsOf u hist = c :: cs → (∀ i ∈ (fs u).imports, ∃ c', nest o c i = some c') ∧ ∀ v c', Next o fs u c v c' → (v, c') ∈ hist ++ st.pending
  start : (entry, ⟨none, o.always, none⟩) ∈ hist ++ st.pending
  uses : ∀ v ∈ (hist ++ st.pending).map (·.1), v = entry ∨ ∃ u ∈ hist.map (·.1), v ∈ (fs u).uses
  once : ∀ v, (∀ u u', Reach fs entry u → Reach fs entry u' → v ∈ (fs u).uses → v ∈ (fs u').uses → u = u') → (∀ u, Reach fs entry u → (fs u).uses.count v ≤ 1) →
    (v = entry → ∀ u, Reach fs entry u → v ∉ (fs u).uses) → ((hist ++ st.pending).map (·.1)).count v ≤ 1

omit [DecidableEq P] in
theorem chain_reach {o : Ops M S} {fs : P → File P U M S B} {entry p : P} {c : Cond M S} (h : Chain o fs entry p c) : Reach fs entry p := by
  induction h with
  | entry => exact .entry
  | next u c v c' _ hn ih =>
    refine .step u v ih ?_
    have := next_uses hn
    rcases List.mem_append.1 this with h | h
    · exact .inr h
    · exact .inl h

theorem condsOf_append (p : P) (hist : List (P × Cond M S)) (q : P) (c : Cond M S) : condsOf p (hist ++ [(q, c)]) = if q = p then condsOf p hist ++ [c] else condsOf p hist := by
  simp only [condsOf, List.filter_append, List.filter_cons, List.filter_nil, List.map_append]
  by_cases h : q = p <;> simp [h]

theorem condsOf_nil {p : P} {hist : List (P × Cond M S)} : condsOf p hist = [] ↔ p ∉ hist.map (·.1) := by
  simp only [condsOf, List.map_eq_nil_iff, List.filter_eq_nil_iff, decide_eq_true_eq, List.mem_map, not_exists, not_and]

theorem linv_step {o : Ops M S} {fs : P → File P U M S B} {entry : P} {a b : LSt P M S} {hist : List (P × Cond M S)} (h : LInv o fs entry a hist) (hs : Step o fs a b) :
    ∃ hist', LInv o fs entry b hist' := by
  cases hs with
  | run l pre post p rule st' hl =>
    refine ⟨hist ++ [(p, rule)], ?_⟩
    have hmem : ∀ t, t ∈ hist ++ (pre ++ (p, rule) :: post) → t ∈ (hist ++ [(p, rule)]) ++ (pre ++ post) := by
      intro t ht
      simp only [List.mem_append, List.mem_cons, List.not_mem_nil, or_false] at ht ⊢
      rcases ht with h | h | h | h
      · exact .inl (.inl h)
      · exact .inr (.inl h)
      · exact .inl (.inr h)
      · exact .inr (.inr h)
    have hmem' : ∀ t, t ∈ (hist ++ [(p, rule)]) ++ (pre ++ post) → t ∈ hist ++ (pre ++ (p, rule) :: post) := by
      intro t ht
      simp only [List.mem_append, List.mem_cons, List.not_mem_nil, or_false] at ht ⊢
      rcases ht with (h | h) | h | h
      · exact .inl h
      · exact .inr (.inr (.inl h))
      · exact .inr (.inl h)
      · exact .inr (.inr (.inr h))
    have hcount : ∀ v, (((hist ++ [(p, rule)]) ++ (pre ++ post)).map (·.1)).count v = ((hist ++ (pre ++ (p, rule) :: post)).map (·.1)).count v := by
      intro v
      simp only [List.map_append, List.map_cons, List.map_nil, List.count_append, List.count_cons, List.count_nil]
      omega
    have hpr : Chain o fs entry p rule := h.chain (p, rule) (by simp)
    have huse : ∀ v ∈ ((hist ++ [(p, rule)]) ++ (pre ++ post)).map (·.1), v = entry ∨ ∃ u ∈ (hist ++ [(p, rule)]).map (·.1), v ∈ (fs u).uses := by
      intro v hv
      obtain ⟨t, ht, rfl⟩ := List.mem_map.1 hv
      rcases h.uses t.1 (List.mem_map.2 ⟨t, hmem' t ht, rfl⟩) with h | ⟨u, hu, h⟩
      · exact .inl h
      · exact .inr ⟨u, by simp only [List.map_append, List.mem_append]; exact .inl hu, h⟩
    unfold loadFile at hl
    cases hf : find p l with
    | some e =>
      simp only [hf, Option.map_eq_some_iff] at hl
      obtain ⟨c, hc, rfl⟩ := hl
      have hent := h.entries p
      simp only [hf] at hent
      obtain ⟨c0, cs, hcs⟩ : ∃ c0 cs, condsOf p hist = c0 :: cs := by
        cases hcs : condsOf p hist with
        | nil => rw [hcs] at hent; simp at hent
        | cons c0 cs => exact ⟨c0, cs, rfl⟩
      rw [hcs] at hent
      simp only at hent
      refine ⟨?_, ?_, fun t ht => h.chain t (hmem' t ht), ?_, hmem _ h.start, huse, ?_⟩
      · intro q
        simp only
        rw [find_put l hf, condsOf_append]
        by_cases hq : q = p
        · subst hq
          simp only [if_true, hcs, List.cons_append]
          rw [absorb_append o cs c0 e rule hent.symm, hc]
        · simp only [hq, if_false, Ne.symm hq]
          exact h.entries q
      · intro q hq
        simp only
        rw [find_put l hf]
        split
        · rfl
        · rename_i hne
          simp only [List.map_append, List.map_cons, List.map_nil, List.mem_append, List.mem_cons, List.not_mem_nil, or_false, hne] at hq
          exact h.ok q hq
      · intro u c1 cs1 hc1
        rw [condsOf_append] at hc1
        by_cases hu : p = u
        · subst hu
          simp only [if_true, hcs, List.cons_append, List.cons.injEq] at hc1
          obtain ⟨rfl, -⟩ := hc1
          obtain ⟨x, y⟩ := h.next p c0 cs hcs
          exact ⟨x, fun v c' hn => hmem _ (y v c' hn)⟩
        · simp only [hu, if_false] at hc1
          obtain ⟨x, y⟩ := h.next u c1 cs1 hc1
          exact ⟨x, fun v c' hn => hmem _ (y v c' hn)⟩
      · intro v h1 h2 h3
        have := h.once v h1 h2 h3
        simp only at this ⊢
        rw [hcount]; exact this
    | none =>
      simp only [hf, Option.map_eq_some_iff] at hl
      obtain ⟨new, hnew, rfl⟩ := hl
      have hnil : condsOf p hist = [] := by
        by_contra hne
        have hp : p ∈ hist.map (·.1) := by
          by_contra hp; exact hne (condsOf_nil.2 hp)
        have := h.ok p hp
        simp only [hf] at this
        simp at this
      obtain ⟨n1, n2, n3⟩ := spawn_complete hnew
      refine ⟨?_, ?_, ?_, ?_, ?_, ?_, ?_⟩
      · intro q
        simp only
        rw [find_append l hf, condsOf_append]
        by_cases hq : q = p
        · subst hq; simp [hnil, absorb]
        · simp only [hq, if_false, Ne.symm hq]; exact h.entries q
      · intro q hq
        simp only
        rw [find_append l hf]
        split
        · rfl
        · rename_i hne
          simp only [List.map_append, List.map_cons, List.map_nil, List.mem_append, List.mem_cons, List.not_mem_nil, or_false, hne] at hq
          exact h.ok q hq
      · intro t ht
        simp only [← List.append_assoc] at ht
        rcases List.mem_append.1 ht with ht | ht
        · exact h.chain t (hmem' t (by simpa [List.append_assoc] using ht))
        · refine .next p rule t.1 t.2 hpr ?_
          rcases spawn_mem hnew t ht with ⟨i, hi, hd, hn⟩ | ⟨hc, he⟩
          · exact .inl ⟨i, hi, hd, hn⟩
          · exact .inr ⟨hc, he⟩
      · intro u c1 cs1 hc1
        rw [condsOf_append] at hc1
        by_cases hu : p = u
        · subst hu
          simp only [if_true, hnil, List.nil_append, List.cons.injEq] at hc1
          obtain ⟨rfl, -⟩ := hc1
          refine ⟨n1, fun v c' hn => ?_⟩
          simp only [← List.append_assoc]
          exact List.mem_append_right _ (n2 v c' hn)
        · simp only [hu, if_false] at hc1
          obtain ⟨x, y⟩ := h.next u c1 cs1 hc1
          refine ⟨x, fun v c' hn => ?_⟩
          have := hmem _ (y v c' hn)
          simp only [← List.append_assoc] at this ⊢
          exact List.mem_append_left _ this
      · have := hmem _ h.start
        simp only [← List.append_assoc] at this ⊢
        exact List.mem_append_left _ this
      · intro v hv
        simp only [← List.append_assoc] at hv
        rw [List.map_append] at hv
        rcases List.mem_append.1 hv with hv | hv
        · exact huse v (by simpa [List.append_assoc] using hv)
        · rw [n3] at hv
          exact .inr ⟨p, by simp, hv⟩
      · intro v h1 h2 h3
        have hold := h.once v h1 h2 h3
        have hsplit : (((hist ++ [(p, rule)]) ++ (pre ++ post ++ new)).map (·.1)).count v =
            ((hist ++ (pre ++ (p, rule) :: post)).map (·.1)).count v + (fs p).uses.count v := by
          rw [← hcount, ← List.append_assoc, List.map_append, List.count_append, n3]
        simp only at hold ⊢
        rw [hsplit]
        by_cases hv : v ∈ (fs p).uses
        · have hreach := chain_reach hpr
          have hzero : ((hist ++ (pre ++ (p, rule) :: post)).map (·.1)).count v = 0 := by
            rw [List.count_eq_zero]
            intro hm
            rcases h.uses v hm with he | ⟨u, hu, hvu⟩
            · exact h3 he p hreach hv
            · obtain ⟨t, ht, rfl⟩ := List.mem_map.1 hu
              have := h1 t.1 p (chain_reach (h.chain t (List.mem_append_left _ ht))) hreach hvu hv
              rw [this] at hu
              exact condsOf_nil.1 hnil hu
          rw [hzero]
          have := h2 p hreach
          omega
        · rw [List.count_eq_zero_of_not_mem hv]; exact hold

theorem linv_init (o : Ops M S) (fs : P → File P U M S B) (entry : P) : LInv o fs entry (initL o entry) [] where
  entries p := rfl
  ok p hp := absurd hp List.not_mem_nil
  chain t ht := by
    simp only [initL, List.nil_append, List.mem_singleton] at ht
    subst ht
    exact .entry
  next u c cs h := by simp [condsOf] at h
  start := by simp [initL]
  uses v hv := by
    simp only [initL, List.nil_append, List.map_cons, List.map_nil, List.mem_singleton] at hv
    exact .inl hv
  once v h1 h2 h3 := by
    simp only [initL, List.nil_append, List.map_cons, List.map_nil, List.count_cons, List.count_nil]
    split <;> omega

theorem linv_steps {o : Ops M S} {fs : P → File P U M S B} {entry : P} {a b : LSt P M S} (hs : Steps o fs a b) : (∃ hist, LInv o fs entry a hist) → ∃ hist, LInv o fs entry b hist := by
  induction hs with
  | refl => exact id
  | tail b c _ h ih => intro ha; obtain ⟨hist, hb⟩ := ih ha; exact linv_step hb h

/-- Files that are used in two places use no files, and neither does the entry if it is used. -/
def LeavesShared (fs : P → File P U M S B) (entry : P) : Prop :=
  ∀ v, (fs v).uses ≠ [] → (∀ u u', Reach fs entry u → Reach fs entry u' → v ∈ (fs u).uses → v ∈ (fs u').uses → u = u') ∧
    (∀ u, Reach fs entry u → (fs u).uses.count v ≤ 1) ∧ (v = entry → ∀ u, Reach fs entry u → v ∉ (fs u).uses)

/-- Every chain is loaded. -/
theorem chain_hist {o : Ops M S} {fs : P → File P U M S B} {entry : P} {loaded hist : List (P × Cond M S)} (h : LInv o fs entry ⟨loaded, []⟩ hist)
    (hl : LeavesShared fs entry) {p : P} {c : Cond M S} (hc : Chain o fs entry p c) : (p, c) ∈ hist ∧ ((fs p).uses ≠ [] → condsOf p hist = [c]) := by
  have hone : ∀ p c, (p, c) ∈ hist → (fs p).uses ≠ [] → condsOf p hist = [c] := by
    intro p c hm hne
    obtain ⟨a, b, d⟩ := hl p hne
    have := h.once p a b d
    simp only [List.append_nil] at this
    have hlen : (condsOf p hist).length = (hist.map (·.1)).count p := by
      simp only [condsOf, List.length_map, List.count, List.countP_map]
      rw [← List.countP_eq_length_filter]
      rfl
    have hmem : c ∈ condsOf p hist := List.mem_map.2 ⟨(p, c), List.mem_filter.2 ⟨hm, by simp⟩, rfl⟩
    cases hcs : condsOf p hist with
    | nil => rw [hcs] at hmem; simp at hmem
    | cons x xs =>
      rw [hcs] at hmem hlen
      simp only [List.length_cons] at hlen
      have : xs = [] := List.eq_nil_of_length_eq_zero (by omega)
      subst this
      simp only [List.mem_singleton] at hmem
      rw [hmem]
  induction hc with
  | entry =>
    have := h.start
    simp only [List.append_nil] at this
    exact ⟨this, hone _ _ this⟩
  | next u c v c' _ hn ih =>
    have hne : (fs u).uses ≠ [] := List.ne_nil_of_mem (next_uses hn)
    have hcs := ih.2 hne
    have := (h.next u c [] hcs).2 v c' hn
    simp only [List.append_nil] at this
    exact ⟨this, hone _ _ this⟩

/-! ### Conditions -/

/-- Whether conditions hold. -/
def Cond.holds {D : Type} (m : Meaning D M S) (d : D) (c : Cond M S) : Bool := m.holds d c.media c.supports

omit [DecidableEq P] in
theorem combine_holds {D : Type} {o : Ops M S} {m : Meaning D M S} (hm : o.Lawful m) (d : D) {e r c : Cond M S} (h : combine o e r = some c) :
    c.holds m d = (e.holds m d || r.holds m d) := by
  obtain ⟨el, em, es⟩ := e
  obtain ⟨rl, rm, rs⟩ := r
  unfold combine at h
  simp only at h
  split at h
  · exact absurd h (by simp)
  · rename_i hcond
    simp only [Bool.or_eq_true, Bool.and_eq_true, Bool.not_eq_true', not_or, not_and, Bool.not_eq_true] at hcond
    obtain ⟨c1, c2⟩ := hcond
    have key : Cond.holds m d ⟨c.layer, orMedia o em rm, orSupports o es rs⟩ =
        (Cond.holds m d ⟨el, em, es⟩ || Cond.holds m d ⟨rl, rm, rs⟩) := by
      simp only [Cond.holds, Meaning.holds, orMedia]
      cases hr : o.isEmpty rm with
      | true =>
        have hrm := hm.empty d rm hr
        cases he : o.isEmpty em with
        | true =>
          have hem := hm.empty d em he
          cases rs <;> cases es <;> simp [hrm, hem, orSupports, hm.always, hm.supportsOr]
        | false =>
          have hrs : rs = none := by have := c2 he; cases rs <;> simp_all
          subst hrs
          simp [hrm, orSupports, hm.always]
      | false =>
        have hes : es = none := by have := c1 hr; cases es <;> simp_all
        subst hes
        cases he : o.isEmpty em with
        | true =>
          have hem := hm.empty d em he
          cases rs <;> simp [hem, orSupports]
        | false =>
          have hrs : rs = none := by have := c2 he; cases rs <;> simp_all
          subst hrs
          simp [orSupports, hm.mediaOr d em rm he hr]
    cases rl with
    | none => simp only [Option.some.injEq] at h; subst h; exact key
    | some l =>
      simp only at h
      cases el with
      | none => simp only [Option.some.injEq] at h; subst h; exact key
      | some l' =>
        simp only at h
        split at h
        · exact absurd h (by simp)
        · simp only [Option.some.injEq] at h; subst h; exact key

omit [DecidableEq P] in
theorem absorb_holds {D : Type} {o : Ops M S} {m : Meaning D M S} (hm : o.Lawful m) (d : D) (cs : List (Cond M S)) : ∀ e e', absorb o e cs = some e' →
    (e'.holds m d = true ↔ ∃ c ∈ e :: cs, c.holds m d = true) := by
  induction cs with
  | nil => intro e e' h; simp only [absorb, Option.some.injEq] at h; subst h; simp
  | cons c cs ih =>
    intro e e' h
    simp only [absorb] at h
    split at h
    · exact absurd h (by simp)
    · rename_i e1 h1
      rw [ih e1 e' h]
      have := combine_holds hm d h1
      simp only [List.mem_cons, exists_eq_or_imp, this, Bool.or_eq_true, or_assoc]

omit [DecidableEq P] in
theorem nest_holds {D : Type} {o : Ops M S} {m : Meaning D M S} (hm : o.Lawful m) (d : D) {c c' : Cond M S} {i : Import P U M S} (h : nest o c i = some c') :
    c'.holds m d = (c.holds m d && m.holds d i.media i.supports) := by
  unfold nest at h
  split at h
  · exact absurd h (by simp)
  · rename_i x hx
    split at h
    · exact absurd h (by simp)
    · simp only [Option.some.injEq] at h
      subst h
      have := hm.mediaAnd d _ _ _ hx
      simp only [Cond.holds, Meaning.holds, this]
      cases c.supports <;> cases i.supports <;> simp [combineSupports, hm.supportsAnd, Bool.and_assoc, Bool.and_left_comm, Bool.and_comm]

omit [DecidableEq P] in
theorem chain_applies {D : Type} {o : Ops M S} {m : Meaning D M S} (hm : o.Lawful m) (d : D) {fs : P → File P U M S B} {entry p : P} {c : Cond M S}
    (h : Chain o fs entry p c) : c.holds m d = true → Applies m fs entry d p := by
  induction h with
  | entry => intro _; exact .entry
  | next u c v c' _ hn ih =>
    intro hc
    rcases hn with ⟨i, hi, hd, hn⟩ | ⟨hv, rfl⟩
    · rw [nest_holds hm d hn, Bool.and_eq_true] at hc
      exact .imp u v i (ih hc.1) hi hd hc.2
    · exact .css u v (ih hc) hv

/-- **C29** After loading under any schedule, every file the entry uses is loaded, and its conditions hold only on devices on which some chain
of imports to it applies: for every graph. -/
theorem C29_sound {D : Type} (o : Ops M S) (m : Meaning D M S) (hm : o.Lawful m) (fs : P → File P U M S B) (entry : P) (loaded : List (P × Cond M S))
    (h : Loads o fs entry loaded) (p : P) :
    (Reach fs entry p → (find p loaded).isSome) ∧ ∀ c, find p loaded = some c → ∀ d, m.holds d c.media c.supports = true → Applies m fs entry d p := by
  obtain ⟨hist, hi⟩ := linv_steps h ⟨[], linv_init o fs entry⟩
  refine ⟨fun hr => ?_, fun c hc d hd => ?_⟩
  · apply hi.ok
    induction hr with
    | entry =>
      have := hi.start
      simp only [List.append_nil] at this
      exact List.mem_map.2 ⟨_, this, rfl⟩
    | step u v _ hu ih =>
      cases hcs : condsOf u hist with
      | nil => exact absurd ih (condsOf_nil.1 hcs)
      | cons c cs =>
        obtain ⟨h1, h2⟩ := hi.next u c cs hcs
        simp only [List.append_nil] at h2
        rcases hu with hu | hu
        · exact List.mem_map.2 ⟨_, h2 v c (.inr ⟨hu, rfl⟩), rfl⟩
        · obtain ⟨i, hii, hd⟩ := List.mem_filterMap.1 hu
          obtain ⟨c', hc'⟩ := h1 i hii
          refine List.mem_map.2 ⟨_, h2 v c' (.inl ⟨i, hii, ?_, hc'⟩), rfl⟩
          cases hdep : i.dep with
          | file q => rw [hdep] at hd; simp at hd; rw [hd]
          | ext u => rw [hdep] at hd; simp at hd
  · have he := hi.entries p
    simp only [hc] at he
    cases hcs : condsOf p hist with
    | nil => rw [hcs] at he; simp at he
    | cons c0 cs =>
      rw [hcs] at he
      obtain ⟨x, hx, hxh⟩ := (absorb_holds hm d cs c0 c he.symm).1 hd
      have hx' : x ∈ condsOf p hist := by rw [hcs]; exact hx
      obtain ⟨t, ht, rfl⟩ := List.mem_map.1 hx'
      obtain ⟨ht1, ht2⟩ := List.mem_filter.1 ht
      have := chain_applies hm d (hi.chain t (List.mem_append_left _ ht1)) hxh
      rw [of_decide_eq_true ht2] at this
      exact this

theorem applies_chain {D : Type} {o : Ops M S} {m : Meaning D M S} (hm : o.Lawful m) (d : D) {fs : P → File P U M S B} {entry p : P} {loaded hist : List (P × Cond M S)}
    (h : LInv o fs entry ⟨loaded, []⟩ hist) (hl : LeavesShared fs entry) (ha : Applies m fs entry d p) : ∃ c, Chain o fs entry p c ∧ c.holds m d = true := by
  induction ha with
  | entry => exact ⟨_, .entry, by simp [Cond.holds, Meaning.holds, hm.always]⟩
  | imp u v i _ hi hd hh ih =>
    obtain ⟨c, hc, hch⟩ := ih
    have hne : (fs u).uses ≠ [] := List.ne_nil_of_mem (List.mem_append_left _ (List.mem_filterMap.2 ⟨i, hi, by simp [hd]⟩ : v ∈ (fs u).files))
    obtain ⟨c', hc'⟩ := (h.next u c [] ((chain_hist h hl hc).2 hne)).1 i hi
    exact ⟨c', .next u c v c' hc (.inl ⟨i, hi, hd, hc'⟩), by rw [nest_holds hm d hc', hch, hh]; rfl⟩
  | css u v _ hv ih =>
    obtain ⟨c, hc, hch⟩ := ih
    exact ⟨c, .next u c v c hc (.inr ⟨hv, rfl⟩), hch⟩

/-- **C29** After loading under any schedule, the conditions of a file hold on exactly the devices on which a browser applies it, if files that
are used in two places use no files themselves. -/
theorem C29_conditions_partial {D : Type} (o : Ops M S) (m : Meaning D M S) (hm : o.Lawful m) (fs : P → File P U M S B) (entry : P) (hl : LeavesShared fs entry)
    (loaded : List (P × Cond M S)) (h : Loads o fs entry loaded) (p : P) (c : Cond M S) (hc : find p loaded = some c) (d : D) :
    m.holds d c.media c.supports = true ↔ Applies m fs entry d p := by
  refine ⟨(C29_sound o m hm fs entry loaded h p).2 c hc d, fun ha => ?_⟩
  obtain ⟨hist, hi⟩ := linv_steps h ⟨[], linv_init o fs entry⟩
  obtain ⟨c', hc', hch⟩ := applies_chain hm d hi hl ha
  have hm' := (chain_hist hi hl hc').1
  have hx : c' ∈ condsOf p hist := List.mem_map.2 ⟨(p, c'), List.mem_filter.2 ⟨hm', by simp⟩, rfl⟩
  have he := hi.entries p
  simp only [hc] at he
  cases hcs : condsOf p hist with
  | nil => rw [hcs] at he; simp at he
  | cons c0 cs =>
    rw [hcs] at he hx
    exact (absorb_holds hm d cs c0 c he.symm).2 ⟨c', hx, hch⟩

/-! ### The conditions get into the bundle -/

theorem inlineCss_cond {fs : P → File P U M S B} {rec : P → ISt P U M S → Except Err (ISt P U M S)} {parent : P → P × Nat} {s : P} (I : ISt P U M S → ISt P U M S → Prop)
    (hrefl : ∀ a, I a a) (htrans : ∀ a b c, I a b → I b c → I a c) (l : List P) (hrec : ∀ d ∈ l, ∀ st st', rec d st = .ok st' → I st st') :
    ∀ i st st', inlineCss rec parent s i l st = .ok st' → I st st' := by
  induction l with
  | nil => intro i st st' h; simp only [inlineCss, Except.ok.injEq] at h; subst h; exact hrefl _
  | cons d l ih =>
    intro i st st' h
    have ih := ih fun x hx => hrec x (List.mem_cons_of_mem _ hx)
    simp only [inlineCss] at h
    split at h
    · split at h
      · rename_i st1 hr
        exact htrans _ _ _ (hrec d (List.mem_cons_self ..) _ _ hr) (ih _ _ _ h)
      · exact absurd h (by simp)
    · exact ih _ _ _ h

theorem inlinePre_cond {rec : P → ISt P U M S → Except Err (ISt P U M S)} {parent : P → P × Nat} {layer : Layer} {s : P} (I : ISt P U M S → ISt P U M S → Prop)
    (hrefl : ∀ a, I a a) (htrans : ∀ a b c, I a b → I b c → I a c) (hpush : ∀ a x, (∀ p c, x ≠ Out.body p c) → I a { a with dest := a.dest ++ [x] })
    (l : List (Pre P U M S)) (hrec : ∀ d ∈ preFiles l, ∀ st st', rec d st = .ok st' → I st st') :
    ∀ i b st st', inlinePre rec parent layer s i l b st = .ok st' → I st st' := by
  induction l with
  | nil => intro i b st st' h; simp only [inlinePre, Except.ok.injEq] at h; subst h; exact hrefl _
  | cons r l ih =>
    intro i b st st' h
    cases r with
    | layers names =>
      simp only [inlinePre] at h
      exact htrans _ _ _ (hpush st _ (by simp)) (ih hrec _ _ _ _ h)
    | imp imp =>
      simp only [inlinePre] at h
      simp only [preFiles] at hrec
      cases hd : imp.dep with
      | ext u =>
        rw [hd] at h hrec
        simp only at h hrec
        split at h
        · exact absurd h (by simp)
        · exact htrans _ _ _ (hpush st _ (by simp)) (ih hrec _ _ _ _ h)
      | file d =>
        rw [hd] at h hrec
        simp only at h hrec
        have ih := ih fun x hx => hrec x (List.mem_cons_of_mem _ hx)
        split at h
        · split at h
          · rename_i st1 hr
            exact htrans _ _ _ (hrec d (List.mem_cons_self ..) _ _ hr) (ih _ _ _ _ h)
          · exact absurd h (by simp)
        · exact ih _ _ _ _ h

theorem inline_cond (fs : P → File P U M S B) (first : P → Layer) (cond : P → Cond M S) (parent : P → P × Nat) (rank : P → Nat) (hrank : ∀ u v, Uses fs u v → rank v < rank u) (fuel : Nat) :
    ∀ s st st', inline fs first cond parent fuel s st = .ok st' → st.condTaken ⊆ st.taken → (∀ p c, .body p c ∈ st.dest → c = some (cond p)) →
      st'.condTaken ⊆ st'.taken ∧ (∀ p c, .body p c ∈ st'.dest → c = some (cond p)) ∧ ∀ q ∈ st'.condTaken, q ∈ st.condTaken ∨ rank q ≤ rank s := by
  induction fuel with
  | zero => intro s st st' h; simp [inline] at h
  | succ fuel ih =>
    intro s st st' h hct hb
    simp only [inline] at h
    -- what the loops do
    let I : ISt P U M S → ISt P U M S → Prop := fun a b => a.condTaken ⊆ a.taken → (∀ p c, .body p c ∈ a.dest → c = some (cond p)) →
      b.condTaken ⊆ b.taken ∧ (∀ p c, .body p c ∈ b.dest → c = some (cond p)) ∧ ∀ q ∈ b.condTaken, q ∈ a.condTaken ∨ rank q < rank s
    have hrefl : ∀ a, I a a := fun a h1 h2 => ⟨h1, h2, fun q hq => .inl hq⟩
    have htrans : ∀ a b c, I a b → I b c → I a c := by
      intro a b c h1 h2 x y
      obtain ⟨p1, p2, p3⟩ := h1 x y
      obtain ⟨q1, q2, q3⟩ := h2 p1 p2
      exact ⟨q1, q2, fun q hq => (q3 q hq).elim (p3 q) .inr⟩
    have hpush : ∀ a x, (∀ p c, x ≠ Out.body p c) → I a { a with dest := a.dest ++ [x] } := by
      intro a x hx h1 h2
      refine ⟨h1, fun p c hm => ?_, fun q hq => .inl hq⟩
      rcases List.mem_append.1 hm with hm | hm
      · exact h2 p c hm
      · simp only [List.mem_singleton] at hm; exact absurd hm.symm (hx p c)
    have hrec : ∀ d, Uses fs s d → ∀ st st', inline fs first cond parent fuel d st = .ok st' → I st st' := by
      intro d hd st st' h h1 h2
      obtain ⟨a1, a2, a3⟩ := ih d st st' h h1 h2
      refine ⟨a1, a2, fun q hq => (a3 q hq).imp id fun hle => ?_⟩
      have := hrank s d hd; omega
    split at h
    · exact absurd h (by simp)
    · rename_i st1 h1
      split at h
      · exact absurd h (by simp)
      · rename_i st2 h2
        simp only [Except.ok.injEq] at h
        have i1 := inlineCss_cond (fs := fs) I hrefl htrans _ (fun d hd => hrec d (.inl hd)) _ _ _ h1
        have i2 := inlinePre_cond I hrefl htrans hpush _ (fun d hd => hrec d (.inr (by
          split at hd
          · rw [preFiles_eq] at hd; exact hd
          · simp [preFiles] at hd))) _ _ _ _ h2
        obtain ⟨c1, c2, c3⟩ := htrans _ _ _ i1 i2 (fun x hx => List.mem_cons_of_mem _ (hct hx)) hb
        have hm1 := (inlineCss_res (R := fun _ => True) (fs := fs) _ (fun d _ => fun a b hab => inline_res fs first cond parent (fun _ => True) (fun _ _ _ _ => trivial) fuel d a b trivial hab) _ _ _ h1).1.mono
        have hm2 := (inlinePre_res (R := fun _ => True) (fs := fs) _ (fun d _ => fun a b hab => inline_res fs first cond parent (fun _ => True) (fun _ _ _ _ => trivial) fuel d a b trivial hab) _ _ _ _ h2).1.mono
        subst h
        refine ⟨?_, ?_, ?_⟩
        · intro q hq
          simp only [wrap, List.mem_cons] at hq ⊢
          rcases hq with rfl | hq
          · exact hm2 (hm1 (List.mem_cons_self ..))
          · exact c1 hq
        · intro p c hm
          simp only [wrap, List.mem_append, List.mem_singleton] at hm
          rcases hm with hm | hm
          · exact c2 p c hm
          · split at hm
            · rename_i hfr
              simp only [decide_eq_true_eq] at hfr
              simp only [Out.body.injEq] at hm
              obtain ⟨rfl, rfl⟩ := hm
              rw [if_neg]
              intro hin
              rcases c3 p hin with h | h
              · exact hfr (hct h)
              · omega
            · exact absurd hm (by simp)
        · intro q hq
          simp only [wrap, List.mem_cons] at hq
          rcases hq with rfl | hq
          · exact .inr (Nat.le_refl _)
          · exact (c3 q hq).imp id (fun h => by omega)

/-- **C29** If the uses are acyclic, the rules of a file are in the bundle with the conditions of the file around them. -/
theorem C29_wrapped_partial (fs : P → File P U M S B) (first : P → Layer) (cond : P → Cond M S) (entry : P) (rank : P → Nat) (hrank : ∀ u v, Uses fs u v → rank v < rank u)
    (fuel₁ fuel₂ : Nat) (out : List (Out P U M S)) (h : bundle fs first cond entry fuel₁ fuel₂ = .ok out) (p : P) (c : Option (Cond M S)) (hp : .body p c ∈ out) :
    c = some (cond p) := by
  obtain ⟨st, hi, rfl⟩ := bundle_ok h
  exact (inline_cond fs first cond _ rank hrank fuel₂ entry _ st hi (fun _ => id) (fun _ _ h => absurd h List.not_mem_nil)).2.1 p c hp

/-! ### Layers -/

/-- The layer for the names along a chain. -/
def toLayer (n : LName) : Layer := if n = [] then none else some (some n)

/-- All layers of imports are named. -/
def Named (fs : P → File P U M S B) : Prop := ∀ u, ∀ i ∈ (fs u).imports, i.layer = none ∨ ∃ k, k ≠ [] ∧ i.layer = some (some k)

omit [DecidableEq P] in
theorem nestLayer_named {n : LName} {l l' : Layer} (hl : l = none ∨ ∃ k, k ≠ [] ∧ l = some (some k)) (h : nestLayer (toLayer n) l = some l') :
    (l = none ∧ l' = toLayer n) ∨ ∃ k, l = some (some k) ∧ l' = toLayer (n ++ k) := by
  rcases hl with rfl | ⟨k, hk, rfl⟩
  · left
    refine ⟨rfl, ?_⟩
    by_cases hn : n = []
    · simp [toLayer, hn, nestLayer] at h; simp [toLayer, hn, h]
    · simp [toLayer, hn, nestLayer] at h; simp [toLayer, hn, h]
  · right
    refine ⟨k, rfl, ?_⟩
    by_cases hn : n = []
    · simp [toLayer, hn, nestLayer] at h; simp [toLayer, hn, hk, h]
    · simp [toLayer, hn, nestLayer] at h; simp [toLayer, hn, h]

omit [DecidableEq P] in
theorem nest_layer {o : Ops M S} {c c' : Cond M S} {i : Import P U M S} (h : nest o c i = some c') : nestLayer c.layer i.layer = some c'.layer := by
  unfold nest at h
  split at h
  · exact absurd h (by simp)
  · split at h
    · exact absurd h (by simp)
    · rename_i hl; simp only [Option.some.injEq] at h; subst h; exact hl

omit [DecidableEq P] in
theorem chain_layer {o : Ops M S} {fs : P → File P U M S B} {entry p : P} {c : Cond M S} (hn : Named fs) (h : Chain o fs entry p c) : ∃ n, InLayer fs entry p n ∧ c.layer = toLayer n := by
  induction h with
  | entry => exact ⟨[], .entry, rfl⟩
  | next u c v c' _ hx ih =>
    obtain ⟨n, h1, h2⟩ := ih
    rcases hx with ⟨i, hi, hd, hx⟩ | ⟨hv, rfl⟩
    · have := nest_layer hx
      rw [h2] at this
      rcases nestLayer_named (hn u i hi) this with ⟨h3, h4⟩ | ⟨k, h3, h4⟩
      · exact ⟨n, .imp u v i n h1 hi hd h3, h4⟩
      · exact ⟨n ++ k, .named u v i n k h1 hi hd h3, h4⟩
    · exact ⟨n, .css u v n h1 hv, h2⟩

omit [DecidableEq P] in
theorem combine_layer {o : Ops M S} {e r c : Cond M S} (h : combine o e r = some c) :
    (c.layer = e.layer ∨ c.layer = r.layer) ∧ (∀ l, e.layer = some l → c.layer = some l) ∧ (∀ l, r.layer = some l → c.layer = some l) := by
  obtain ⟨el, em, es⟩ := e
  obtain ⟨rl, rm, rs⟩ := r
  unfold combine at h
  simp only at h
  split at h
  · exact absurd h (by simp)
  · cases rl with
    | none => simp only [Option.some.injEq] at h; subst h; exact ⟨.inl rfl, fun l hl => hl, fun l hl => (by cases hl)⟩
    | some x =>
      simp only at h
      cases el with
      | none => simp only [Option.some.injEq] at h; subst h; exact ⟨.inr rfl, fun l hl => (by cases hl), fun l hl => hl⟩
      | some y =>
        simp only at h
        split at h
        · exact absurd h (by simp)
        · rename_i hxy
          simp only [not_or, not_not] at hxy
          simp only [Option.some.injEq] at h
          subst h
          exact ⟨.inl rfl, fun l hl => hl, fun l hl => by rw [← hl, hxy.1]⟩

omit [DecidableEq P] in
theorem absorb_layer {o : Ops M S} (cs : List (Cond M S)) : ∀ e e', absorb o e cs = some e' →
    (∃ c ∈ e :: cs, e'.layer = c.layer) ∧ ∀ c ∈ e :: cs, ∀ l, c.layer = some l → e'.layer = some l := by
  induction cs with
  | nil => intro e e' h; simp only [absorb, Option.some.injEq] at h; subst h; simp
  | cons c cs ih =>
    intro e e' h
    simp only [absorb] at h
    split at h
    · exact absurd h (by simp)
    · rename_i e1 h1
      obtain ⟨⟨x, hx, hxl⟩, h3⟩ := ih e1 e' h
      obtain ⟨c1, c2, c3⟩ := combine_layer h1
      refine ⟨?_, ?_⟩
      · rcases List.mem_cons.1 hx with rfl | hx
        · rcases c1 with c1 | c1
          · exact ⟨e, by simp, hxl.trans c1⟩
          · exact ⟨c, by simp, hxl.trans c1⟩
        · exact ⟨x, by simp [hx], hxl⟩
      · intro y hy l hl
        simp only [List.mem_cons] at hy
        rcases hy with rfl | rfl | hy
        · exact h3 e1 (by simp) l (c2 l hl)
        · exact h3 e1 (by simp) l (c3 l hl)
        · exact h3 y (by simp [hy]) l hl

/-- **C30** If all layers of imports are named, the layer of a file in the bundle is the concatenation of the layers along a chain of imports
to it: for every graph and schedule. -/
theorem C30_layer_partial (o : Ops M S) (fs : P → File P U M S B) (entry : P) (hn : Named fs) (loaded : List (P × Cond M S)) (h : Loads o fs entry loaded)
    (p : P) (c : Cond M S) (hc : find p loaded = some c) : ∃ n, InLayer fs entry p n ∧ c.layer = if n = [] then none else some (some n) := by
  obtain ⟨hist, hi⟩ := linv_steps h ⟨[], linv_init o fs entry⟩
  have he := hi.entries p
  simp only [hc] at he
  cases hcs : condsOf p hist with
  | nil => rw [hcs] at he; simp at he
  | cons c0 cs =>
    rw [hcs] at he
    obtain ⟨⟨x, hx, hxl⟩, -⟩ := absorb_layer cs c0 c he.symm
    rw [← hcs] at hx
    obtain ⟨t, ht, rfl⟩ := List.mem_map.1 hx
    obtain ⟨ht1, ht2⟩ := List.mem_filter.1 ht
    obtain ⟨n, h1, h2⟩ := chain_layer hn (hi.chain t (List.mem_append_left _ ht1))
    rw [of_decide_eq_true ht2] at h1
    exact ⟨n, h1, by rw [hxl, h2]; rfl⟩

theorem layer_chain {o : Ops M S} {fs : P → File P U M S B} {entry p : P} {loaded hist : List (P × Cond M S)} (hn : Named fs) {n : LName}
    (h : LInv o fs entry ⟨loaded, []⟩ hist) (hl : LeavesShared fs entry) (ha : InLayer fs entry p n) : ∃ c, Chain o fs entry p c ∧ c.layer = toLayer n := by
  induction ha with
  | entry => exact ⟨_, .entry, rfl⟩
  | imp u v i n _ hi hd hh ih =>
    obtain ⟨c, hc, hch⟩ := ih
    have hne : (fs u).uses ≠ [] := List.ne_nil_of_mem (List.mem_append_left _ (List.mem_filterMap.2 ⟨i, hi, by simp [hd]⟩ : v ∈ (fs u).files))
    obtain ⟨c', hc'⟩ := (h.next u c [] ((chain_hist h hl hc).2 hne)).1 i hi
    refine ⟨c', .next u c v c' hc (.inl ⟨i, hi, hd, hc'⟩), ?_⟩
    have := nest_layer hc'
    rw [hch] at this
    rcases nestLayer_named (hn u i hi) this with ⟨-, h4⟩ | ⟨k, h3, -⟩
    · exact h4
    · rw [hh] at h3; cases h3
  | named u v i n k _ hi hd hh ih =>
    obtain ⟨c, hc, hch⟩ := ih
    have hne : (fs u).uses ≠ [] := List.ne_nil_of_mem (List.mem_append_left _ (List.mem_filterMap.2 ⟨i, hi, by simp [hd]⟩ : v ∈ (fs u).files))
    obtain ⟨c', hc'⟩ := (h.next u c [] ((chain_hist h hl hc).2 hne)).1 i hi
    refine ⟨c', .next u c v c' hc (.inl ⟨i, hi, hd, hc'⟩), ?_⟩
    have := nest_layer hc'
    rw [hch] at this
    rcases nestLayer_named (hn u i hi) this with ⟨h3, -⟩ | ⟨k', h3, h4⟩
    · rw [hh] at h3; cases h3
    · rw [hh] at h3; cases h3; exact h4
  | css u v n _ hv ih =>
    obtain ⟨c, hc, hch⟩ := ih
    exact ⟨c, .next u c v c hc (.inr ⟨hv, rfl⟩), hch⟩

/-- **C30** If files that are used in two places use no files, and a file is imported into a layer, it is in that layer in the bundle: two different layers are an error. -/
theorem C30_unique_partial (o : Ops M S) (fs : P → File P U M S B) (entry : P) (hn : Named fs) (hl : LeavesShared fs entry) (loaded : List (P × Cond M S)) (h : Loads o fs entry loaded)
    (p : P) (n : LName) (hne : n ≠ []) (hp : InLayer fs entry p n) : ∃ c, find p loaded = some c ∧ c.layer = some (some n) := by
  obtain ⟨hist, hi⟩ := linv_steps h ⟨[], linv_init o fs entry⟩
  obtain ⟨c', hc', hch⟩ := layer_chain hn hi hl hp
  have hm' := (chain_hist hi hl hc').1
  have hx : c' ∈ condsOf p hist := List.mem_map.2 ⟨(p, c'), List.mem_filter.2 ⟨hm', by simp⟩, rfl⟩
  have hok := hi.ok p (List.mem_map.2 ⟨_, hm', rfl⟩)
  obtain ⟨c, hc⟩ := Option.isSome_iff_exists.1 hok
  refine ⟨c, hc, ?_⟩
  have he := hi.entries p
  simp only at hc
  simp only [hc] at he
  cases hcs : condsOf p hist with
  | nil => rw [hcs] at he; simp at he
  | cons c0 cs =>
    rw [hcs] at he hx
    exact (absorb_layer cs c0 c he.symm).2 c' hx (some n) (by rw [hch, toLayer, if_neg hne])
end Verif.Bundler
