import Verif.Rules.Spec
namespace Verif.Rules
variable {S I V G O E R : Type}

theorem le_total (a b : Cand R) : a.le b = true ∨ b.le a = true := by
  unfold Cand.le; cases a.imp <;> cases b.imp <;> simp; all_goals omega
theorem le_trans {a b c : Cand R} (h : a.le b = true) (h' : b.le c = true) : a.le c = true := by
  revert h h'; unfold Cand.le; cases a.imp <;> cases b.imp <;> cases c.imp <;> simp; all_goals omega
theorem le_refl (a : Cand R) : a.le a = true := by
  unfold Cand.le; cases a.imp <;> simp

@[simp] theorem pick_none_left (b : Option (Cand R)) : pick none b = b := rfl
@[simp] theorem pick_none_right (a : Option (Cand R)) : pick a none = a := by cases a <;> rfl
theorem pick_some (a b : Cand R) : pick (some a) (some b) = if a.le b then some b else some a := rfl

theorem pick_assoc (a b c : Option (Cand R)) : pick (pick a b) c = pick a (pick b c) := by
  cases a with
  | none => simp
  | some a =>
  cases b with
  | none => simp
  | some b =>
  cases c with
  | none => simp
  | some c =>
    simp only [pick_some]
    by_cases hab : a.le b = true <;> by_cases hbc : b.le c = true
    · rw [if_pos hab, if_pos hbc, pick_some, pick_some, if_pos hbc, if_pos (le_trans hab hbc)]
    · rw [if_pos hab, if_neg hbc, pick_some, pick_some, if_neg hbc, if_pos hab]
    · rw [if_neg hab, if_pos hbc, pick_some]
    · rw [if_neg hab, if_neg hbc, pick_some, pick_some, if_neg hab, if_neg]
      intro hac
      have hba := (le_total a b).resolve_left hab
      exact hbc (le_trans hba hac)

/-- What comes later has at least the same precedence. -/
def Absorbed (a b : Option (Cand R)) : Prop := pick a b = b ∧ ∀ x, pick a (pick x b) = pick x b

theorem absorbed_of (a b : Option (Cand R)) (h : ∀ x, a = some x → ∃ y, b = some y ∧ x.le y = true) : Absorbed a b := by
  refine ⟨?_, fun x => ?_⟩
  · cases a with
    | none => simp
    | some a => obtain ⟨y, rfl, hy⟩ := h a rfl; simp [pick_some, hy]
  · cases a with
    | none => simp
    | some a =>
      obtain ⟨y, rfl, hy⟩ := h a rfl
      cases x with
      | none => simp [pick_some, hy]
      | some x =>
        rw [pick_some]
        split
        · next hxy => simp [pick_some, hy]
        · next hxy =>
          have := (le_total x y).resolve_left hxy
          simp [pick_some, le_trans hy this]

@[simp] theorem maxSpec_none_right (a : Option Nat) : maxSpec a none = a := by cases a <;> rfl
@[simp] theorem maxSpec_none_left (a : Option Nat) : maxSpec none a = a := rfl
theorem maxSpec_assoc (a b c : Option Nat) : maxSpec (maxSpec a b) c = maxSpec a (maxSpec b c) := by
  cases a <;> cases b <;> cases c <;> simp [maxSpec, Nat.max_assoc]
theorem maxSpec_comm (a b : Option Nat) : maxSpec a b = maxSpec b a := by
  cases a <;> cases b <;> simp [maxSpec, Nat.max_comm]

theorem specOf_append (e : Env S I V G O R) (p : List (List S)) (a b : List S) :
    specOf e p (a ++ b) = maxSpec (specOf e p a) (specOf e p b) := by
  induction a with
  | nil => rfl
  | cons s a ih => rw [List.cons_append, specOf, ih, specOf, maxSpec_assoc]

theorem meanList_append (e : Env S I V G O R) (p : List (List S)) (a b : List (Rule S I V G O)) :
    meanList e p (a ++ b) = pick (meanList e p a) (meanList e p b) := by
  induction a with
  | nil => rfl
  | cons s a ih => rw [List.cons_append, meanList, ih, meanList, pick_assoc]

@[simp] theorem meanList_nil (e : Env S I V G O R) (p : List (List S)) : meanList e p ([] : List (Rule S I V G O)) = none := rfl
@[simp] theorem meanList_single (e : Env S I V G O R) (p : List (List S)) (r : Rule S I V G O) : meanList e p [r] = mean e p r := by
  rw [meanList]; simp

@[simp] theorem candOf_none_left (v : Option (Bool × R)) : candOf none v = none := rfl
@[simp] theorem candOf_none_right (s : Option Nat) : candOf s (none : Option (Bool × R)) = none := by cases s <;> rfl

theorem candOf_maxSpec (s t : Option Nat) (v : Option (Bool × R)) :
    pick (candOf s v) (candOf t v) = candOf (maxSpec s t) v := by
  cases s with
  | none => simp
  | some s =>
    cases t with
    | none => simp
    | some t =>
      cases v with
      | none => simp
      | some v =>
        obtain ⟨i, v⟩ := v
        simp only [candOf, maxSpec, pick_some]
        have : Cand.le ⟨i, s, v⟩ ⟨i, t, v⟩ = decide (s ≤ t) := by cases i <;> rfl
        rw [this]
        by_cases h : s ≤ t
        · rw [if_pos (by simpa using h), Nat.max_eq_right h]
        · rw [if_neg (by simpa using h), Nat.max_eq_left (by omega)]

theorem lastVal_append (e : Env S I V G O R) (a b : List (I × V)) : lastVal e (a ++ b) = (lastVal e b).or (lastVal e a) := by
  simp only [lastVal, List.reverse_append, List.find?_append]
  cases List.find? (fun d => e.covers d.1) b.reverse <;> simp

theorem candOf_append (e : Env S I V G O R) (s : Option Nat) (a b : Block I V) :
    pick (candOf s (blockVal e a)) (candOf s (blockVal e b)) = candOf s (blockVal e ⟨a.decls ++ b.decls, a.imps ++ b.imps⟩) := by
  cases s with
  | none => simp
  | some s =>
    simp only [blockVal, lastVal_append]
    cases lastVal e a.imps <;> cases lastVal e b.imps <;> cases lastVal e a.decls <;> cases lastVal e b.decls <;>
      simp [candOf, pick_some, Cand.le]

theorem blockVal_empty (e : Env S I V G O R) (b : Block I V) (h : b.isEmpty = true) : blockVal e b = none := by
  obtain ⟨d, i⟩ := b
  simp only [Block.isEmpty, Bool.and_eq_true, List.isEmpty_iff] at h
  simp [blockVal, lastVal, h.1, h.2]

theorem mean_style (e : Env S I V G O R) (p : List (List S)) (s : Style S I V G O) :
    mean e p s.rule = pick (candOf (specOf e p s.sels) (blockVal e s.b)) (meanList e (s.sels :: p) s.rules) := by
  rw [Style.rule, mean]

theorem mean_leaf (e : Env S I V G O R) (p : List (List S)) (s : Style S I V G O) (h : s.rules = []) :
    mean e p s.rule = candOf (specOf e p s.sels) (blockVal e s.b) := by
  rw [mean_style, h]; simp

theorem style?_rule (r : Rule S I V G O) (s : Style S I V G O) (h : r.style? = some s) : r = s.rule := by
  cases r <;> simp [Rule.style?] at h
  subst h; rfl

section merge
variable [DecidableEq S] [DecidableEq I] [DecidableEq V]

theorem mergeStyle_spec {c : Cfg S I V G O E} {e : Env S I V G O R} (hc : Laws c e) (p : List (List S)) (s l s' l' : Style S I V G O)
    (h : mergeStyle c s l = some (s', l')) :
    mean e p l'.rule = pick (mean e p l.rule) (mean e p s.rule) ∧ s.rules = [] ∧
      ((s' = { s with b := ⟨[], []⟩ }) ∨ (s' = { s with sels := [] })) := by
  unfold mergeStyle at h
  split at h
  · next hs =>
    obtain ⟨h1, -, -, h2, h3, -⟩ := hs
    rw [List.isEmpty_iff] at h2 h3
    simp only [Option.some.injEq, Prod.mk.injEq] at h
    obtain ⟨rfl, rfl⟩ := h
    refine ⟨?_, h2, .inl rfl⟩
    rw [mean_leaf _ _ _ h2, mean_leaf _ _ _ h3, mean_leaf _ _ _ (by exact h3), hc.minM, h1, candOf_append]
  · split at h
    · next hs =>
      obtain ⟨h1, h2, h3⟩ := hs
      rw [List.isEmpty_iff] at h2 h3
      split at h
      · simp only [Option.some.injEq, Prod.mk.injEq] at h
        obtain ⟨rfl, rfl⟩ := h
        refine ⟨?_, h2, .inr rfl⟩
        rw [mean_leaf _ _ _ h2, mean_leaf _ _ _ h3, mean_leaf _ _ _ (by exact h3), specOf_append, ← candOf_maxSpec, h1]
      · exact absurd h (by simp)
    · exact absurd h (by simp)

theorem mergeUp_spec {c : Cfg S I V G O E} {e : Env S I V G O R} (hc : Laws c e) (p : List (List S)) (rest : List (Rule S I V G O)) :
    ∀ l : Style S I V G O, meanList e p (mergeUp c l rest).reverse = pick (meanList e p rest.reverse) (mean e p l.rule) := by
  induction rest with
  | nil => intro l; simp [mergeUp]
  | cons prev rest ih =>
    intro l
    rw [mergeUp]
    split
    · next q hq =>
      have hq := style?_rule _ _ hq
      subst hq
      split
      · next s' q' hm =>
        rw [ih, (mergeStyle_spec hc p _ _ _ _ hm).1, List.reverse_cons, meanList_append, meanList_single, pick_assoc]
      · simp only [List.reverse_cons, meanList_append, meanList_single]
    · simp only [List.reverse_cons, meanList_append, meanList_single]

theorem tryMerge_spec {c : Cfg S I V G O E} {e : Env S I V G O R} (hc : Laws c e) (p : List (List S)) (s s' : Style S I V G O)
    (rules rules' : List (Rule S I V G O)) (h : tryMerge c s rules = some (rules', s')) :
    meanList e p rules' = pick (meanList e p rules) (mean e p s.rule) ∧ s.rules = [] ∧
      ((s' = { s with b := ⟨[], []⟩ }) ∨ (s' = { s with sels := [] })) := by
  unfold tryMerge at h
  split at h
  · exact absurd h (by simp)
  · next last rest hr =>
    split at h
    · next l hl =>
      have hl := style?_rule _ _ hl
      subst hl
      split at h
      · next s'' l' hm =>
        simp only [Option.some.injEq, Prod.mk.injEq] at h
        obtain ⟨rfl, rfl⟩ := h
        obtain ⟨a, b⟩ := mergeStyle_spec hc p _ _ _ _ hm
        refine ⟨?_, b⟩
        rw [mergeUp_spec hc, a, ← pick_assoc]
        have : rules = rest.reverse ++ [l.rule] := by
          rw [← List.reverse_reverse rules, hr, List.reverse_cons]
        rw [this, meanList_append, meanList_single]
      · exact absurd h (by simp)
    · exact absurd h (by simp)
end merge

section push
variable [DecidableEq S] [DecidableEq I]

omit [DecidableEq S] [DecidableEq I] in
theorem lastVal_isSome (e : Env S I V G O R) (a b : List (I × V)) (h : a.map (·.1) = b.map (·.1)) :
    (lastVal e a).isSome = (lastVal e b).isSome := by
  have key : ∀ a : List (I × V), (lastVal e a).isSome = (a.map (·.1)).any e.covers := by
    intro a
    rw [Bool.eq_iff_iff, lastVal, Option.isSome_map, List.find?_isSome]
    simp
  rw [key, key, h]

theorem duplicate_absorbed (e : Env S I V G O R) (p : List (List S)) (o s : Style S I V G O) (hd : o.isDuplicate s = true)
    (ho : o.rules = []) (hs : s.rules = []) (hi : o.b.imps.length = s.b.imps.length) :
    Absorbed (mean e p o.rule) (mean e p s.rule) := by
  rw [mean_leaf _ _ _ ho, mean_leaf _ _ _ hs]
  simp only [Style.isDuplicate, Bool.and_eq_true, beq_iff_eq, decide_eq_true_eq, Block.ids, List.map_append] at hd
  obtain ⟨⟨hl, hsel⟩, hid⟩ := hd
  obtain ⟨hdn, him⟩ := List.append_inj hid (by simp; omega)
  rw [hsel]
  apply absorbed_of
  intro x hx
  have h1 := lastVal_isSome e _ _ hdn
  have h2 := lastVal_isSome e _ _ him
  cases hsp : specOf e p s.sels with
  | none => rw [hsp] at hx; simp at hx
  | some n =>
    rw [hsp] at hx
    simp only [blockVal] at hx ⊢
    cases ha : lastVal e o.b.imps <;> cases hb : lastVal e s.b.imps <;> rw [ha, hb] at h2 <;> simp at h2
    · rw [ha] at hx
      cases hc : lastVal e o.b.decls <;> cases hd : lastVal e s.b.decls <;> rw [hc, hd] at h1 <;> simp at h1
      · rw [hc] at hx; simp at hx
      · rw [hc] at hx
        simp only [Option.map_some, candOf, Option.some.injEq] at hx ⊢
        subst hx
        exact ⟨_, rfl, by simp [Cand.le]⟩
    · rw [ha] at hx
      simp only [candOf, Option.some.injEq] at hx ⊢
      subst hx
      exact ⟨_, rfl, by simp [Cand.le]⟩

omit [DecidableEq S] [DecidableEq I] in
theorem meanList_remove (e : Env S I V G O R) (p : List (List S)) (rules : List (Rule S I V G O)) (i : Nat) (o : Rule S I V G O)
    (s : Rule S I V G O) (ho : rules[i]? = some o) (ha : Absorbed (mean e p o) (mean e p s)) :
    meanList e p (rules.set i .ignored ++ [s]) = meanList e p (rules ++ [s]) := by
  induction rules generalizing i with
  | nil => simp at ho
  | cons r rs ih =>
    cases i with
    | zero =>
      simp only [List.getElem?_cons_zero, Option.some.injEq] at ho
      subst ho
      simp only [List.set_cons_zero, List.cons_append, meanList, mean, pick_none_left]
      rw [meanList_append, meanList_single, ha.2]
    | succ i =>
      simp only [List.getElem?_cons_succ] at ho
      simp only [List.set_cons_succ, List.cons_append, meanList]
      rw [ih i ho]

theorem pushStyle_spec (c : Cfg S I V G O E) (e : Env S I V G O R) (p : List (List S)) (s : Style S I V G O)
    (st : St S I V G O E) :
    (pushStyle c s st).ex = st.ex ∧ ((pushStyle c s st).good = true → st.good = true ∧
      meanList e p (pushStyle c s st).rules = pick (meanList e p st.rules) (mean e p s.rule)) := by
  have plain : meanList e p (st.rules ++ [s.rule]) = pick (meanList e p st.rules) (mean e p s.rule) := by
    rw [meanList_append, meanList_single]
  unfold pushStyle
  simp only []
  split
  · next hr =>
    split
    · split
      · next k hk =>
        split
        · next o ho =>
          split
          · refine ⟨rfl, fun hg => ?_⟩
            simp only [Bool.and_eq_true, goodRemoval, decide_eq_true_eq] at hg
            obtain ⟨hg, hlt, hd⟩ := hg
            rw [ho] at hd
            simp only [Bool.and_eq_true, beq_iff_eq, List.isEmpty_iff] at hd
            refine ⟨hg, ?_⟩
            rw [← plain]
            rw [List.set_append_left _ _ hlt]
            rw [List.getElem?_append_left hlt, Option.bind_eq_some_iff] at ho
            obtain ⟨r, hr1, hr2⟩ := ho
            have := style?_rule _ _ hr2
            subst this
            exact meanList_remove e p _ _ _ _ hr1 (duplicate_absorbed e p _ _ hd.1.1 hd.1.2 (List.isEmpty_iff.1 hr) hd.2)
          · exact ⟨rfl, fun hg => ⟨hg, plain⟩⟩
        · exact ⟨rfl, fun hg => ⟨hg, plain⟩⟩
      · exact ⟨rfl, fun hg => ⟨hg, plain⟩⟩
    · exact ⟨rfl, fun hg => ⟨hg, plain⟩⟩
  · exact ⟨rfl, fun hg => ⟨hg, plain⟩⟩
end push

/-- The recursive call keeps the meaning when no harmful event happens. -/
def RecOk (e : Env S I V G O R) (rec : List (Rule S I V G O) → List E → List (Rule S I V G O) × List E × Bool) : Prop :=
  ∀ rs, (rec rs []).2.2 = true → (rec rs []).2.1 = [] ∧ ∀ p, meanList e p (rec rs []).1 = meanList e p rs

theorem extendMin_spec (e : Env S I V G O R) (p : List (List S))
    (rec : List (Rule S I V G O) → List E → List (Rule S I V G O) × List E × Bool) (hr : RecOk e rec) (st : St S I V G O E)
    (rs : List (Rule S I V G O)) (hx : st.ex = []) (hg : (st.extendMin rec rs).good = true) :
    st.good = true ∧ (st.extendMin rec rs).ex = [] ∧
      meanList e p (st.extendMin rec rs).rules = pick (meanList e p st.rules) (meanList e p rs) := by
  unfold St.extendMin at hg ⊢
  split at hg
  · next h => rw [List.isEmpty_iff] at h; subst h; simp [hx, hg]
  · next h =>
    rw [if_neg h]
    simp only [Bool.and_eq_true, hx] at hg ⊢
    obtain ⟨a, b⟩ := hr rs hg.2
    exact ⟨hg.1, a, by rw [meanList_append, b]⟩

theorem isEmpty_mean (e : Env S I V G O R) (p : List (List S)) (s : Style S I V G O) (h : s.isEmpty = true)
    (hn : s.sels = [] → s.rules = []) : mean e p s.rule = none := by
  rw [mean_style]
  simp only [Style.isEmpty, Bool.or_eq_true, Bool.and_eq_true, List.isEmpty_iff] at h
  rcases h with h | h
  · simp [h, hn h, specOf]
  · simp [h.2, blockVal_empty e s.b h.1]
end Verif.Rules
