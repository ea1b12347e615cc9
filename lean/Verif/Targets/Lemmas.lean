import Verif.Targets.Model
namespace Verif.Targets

theorem Guard.pass_iff (br : Browsers) (g : Guard) :
    g.pass br = true ↔ match g with
      | .atLeast b v => ∀ w, br b = some w → v ≤ w
      | .absent bs => ∀ b ∈ bs, br b = none
      | .never => False := by
  cases g with
  | atLeast b v =>
    simp only [Guard.pass]
    cases br b <;> simp
  | absent bs =>
    simp [Guard.pass]
  | never => simp [Guard.pass]

theorem union_has (a b : PrefixSet) (p : Prefix) : (a.union b).has p = (a.has p || b.has p) := by
  cases p <;> rfl

theorem set_has (p q : Prefix) : (q.set).has p = decide (p = q) := by
  cases p <;> cases q <;> rfl

theorem foldl_step_has (br : Browsers) (rs : List PrefixRule) (acc : PrefixSet) (p : Prefix) :
    (rs.foldl (PrefixRule.step br) acc).has p = true ↔
      acc.has p = true ∨ ∃ r ∈ rs, r.applies br = true ∧ r.pre = p := by
  induction rs generalizing acc with
  | nil => simp
  | cons r rs ih =>
    rw [List.foldl_cons, ih]
    unfold PrefixRule.step
    split
    · next h =>
      rw [union_has, set_has]
      simp only [Bool.or_eq_true, decide_eq_true_eq, List.mem_cons, exists_eq_or_imp]
      constructor
      · rintro ((h1 | h1) | h1)
        · exact .inl h1
        · exact .inr (.inl ⟨h, h1.symm⟩)
        · exact .inr (.inr h1)
      · rintro (h1 | ⟨_, h1⟩ | h1)
        · exact .inl (.inl h1)
        · exact .inl (.inr h1.symm)
        · exact .inr h1
    · next h =>
      simp only [List.mem_cons, exists_eq_or_imp]
      simp [h]

theorem prefixesFor_has (f : PrefixFeature) (br : Browsers) (p : Prefix) :
    (f.prefixesFor br).has p = true ↔ p = .none ∨ ∃ r ∈ f.rules, r.applies br = true ∧ r.pre = p := by
  unfold PrefixFeature.prefixesFor
  rw [foldl_step_has, set_has]
  simp

theorem applies_iff (r : PrefixRule) (br : Browsers) :
    r.applies br = true ↔ ∃ v, br r.browser = some v ∧ r.lo ≤ v ∧ ∀ h, r.hi = some h → v ≤ h := by
  unfold PrefixRule.applies
  cases hb : br r.browser with
  | none => simp
  | some v =>
    cases hh : r.hi with
    | none => simp
    | some h => simp

theorem only_eq_some (br : Browsers) (b x : Browser) (v : Nat) :
    br.only b x = some v ↔ x = b ∧ br b = some v := by
  unfold Browsers.only
  split <;> simp_all

/-- Bits of a flag set. -/
theorem contains_iff (a b : Flags) : a.contains b = true ↔ ∀ i, b.getLsbD i = true → a.getLsbD i = true := by
  unfold Flags.contains
  simp only [beq_iff_eq]
  constructor
  · intro h i hi
    rw [← h] at hi
    simp at hi
    exact hi.1
  · intro h
    apply BitVec.eq_of_getLsbD_eq
    intro i hi
    simp only [BitVec.getLsbD_and]
    cases hb : b.getLsbD i with
    | false => simp
    | true => simp [h i hb]

theorem flags_eq_zero (a : Flags) : a = 0#32 ↔ ∀ i, a.getLsbD i = false := by
  constructor
  · rintro rfl; simp
  · intro h
    apply BitVec.eq_of_getLsbD_eq
    intro i hi
    simp [h i]

theorem enter_exit (s : Scope) (f : Flags) (h : (s.enter f).1 = true) : (s.enter f).2.exit = s := by
  unfold Scope.enter at h ⊢
  split at h
  · simp at h
  · next hn =>
    rw [if_neg hn]
    obtain ⟨st, ⟨br, inc, exc⟩⟩ := s
    simp only [Scope.exit]
    congr
    apply BitVec.eq_of_getLsbD_eq
    intro i hi
    simp only [Flags.diff, BitVec.getLsbD_and, BitVec.getLsbD_or, BitVec.getLsbD_not, hi, decide_true, Bool.true_and]
    cases exc.getLsbD i <;> cases f.getLsbD i <;> rfl

theorem enter_excl (s : Scope) (f : Flags) :
    (s.enter f).2.current = { s.current with excl := s.current.excl ||| f } := by
  unfold Scope.enter
  obtain ⟨st, ⟨br, inc, exc⟩⟩ := s
  split
  · next h =>
    have : exc ||| f = exc := by
      apply BitVec.eq_of_getLsbD_eq
      intro i hi
      simp only [Bool.or_eq_true, beq_iff_eq] at h
      rcases h with h | h
      · subst h; simp
      · rw [contains_iff] at h
        simp only [BitVec.getLsbD_or]
        cases hf : f.getLsbD i with
        | false => simp
        | true => simp [h i hf]
    simp [this]
  · simp only [Targets.mk.injEq, true_and]
    apply BitVec.eq_of_getLsbD_eq
    intro i hi
    simp only [Flags.diff, BitVec.getLsbD_and, BitVec.getLsbD_or, BitVec.getLsbD_not, hi, decide_true, Bool.true_and]
    cases exc.getLsbD i <;> cases f.getLsbD i <;> rfl

theorem enter_not_inserted (s : Scope) (f : Flags) (h : (s.enter f).1 = false) : (s.enter f).2 = s := by
  unfold Scope.enter at h ⊢
  split at h
  · next hn => rw [if_pos hn]
  · simp at h

/-- The JSON name of a prefix. -/
def prefixText : Prefix → Str
  | .none => cs!"none"
  | .webkit => cs!"webkit"
  | .moz => cs!"moz"
  | .ms => cs!"ms"
  | .o => cs!"o"

theorem foldl_prefixStep_has (vs : List Str) (acc : PrefixSet) (p : Prefix) :
    (vs.foldl prefixStep acc).has p = true ↔ acc.has p = true ∨
      prefixText p ∈ vs := by
  induction vs generalizing acc with
  | nil => simp
  | cons v vs ih =>
    rw [List.foldl_cons, ih, List.mem_cons]
    have key : (prefixStep acc v).has p = true ↔ acc.has p = true ∨ prefixText p = v := by
      unfold prefixStep
      split
      · next h => subst h; rw [union_has, set_has]; cases p <;> simp [prefixText]
      · split
        · next h => subst h; rw [union_has, set_has]; cases p <;> simp [prefixText]
        · split
          · next h => subst h; rw [union_has, set_has]; cases p <;> simp [prefixText]
          · split
            · next h => subst h; rw [union_has, set_has]; cases p <;> simp [prefixText]
            · split
              · next h => subst h; rw [union_has, set_has]; cases p <;> simp [prefixText]
              · next h1 h2 h3 h4 h5 =>
                have e1 := Ne.symm h1
                have e2 := Ne.symm h2
                have e3 := Ne.symm h3
                have e4 := Ne.symm h4
                have e5 := Ne.symm h5
                cases p <;> simp only [prefixText] <;> simp only [*, or_false]
    rw [key]
    simp only [or_assoc]

/-! ### Versions -/

theorem splitOn_ne_nil (c : Char) (s : Str) : splitOn c s ≠ [] := by
  cases s with
  | nil => simp [splitOn]
  | cons x xs =>
    unfold splitOn
    split
    · simp
    · split <;> simp

/-- A part without separators followed by a separator is split off. -/
theorem splitOn_append (c : Char) (a b : Str) (ha : c ∉ a) : splitOn c (a ++ c :: b) = a :: splitOn c b := by
  induction a with
  | nil =>
    rw [List.nil_append, splitOn]
    split
    · next h => exact absurd h (splitOn_ne_nil c b)
    · next h => simp [h]
  | cons x xs ih =>
    simp only [List.mem_cons, not_or] at ha
    rw [List.cons_append, splitOn, ih ha.2]
    simp [Ne.symm ha.1]

theorem splitOn_none (c : Char) (a : Str) (ha : c ∉ a) : splitOn c a = [a] := by
  induction a with
  | nil => rfl
  | cons x xs ih =>
    simp only [List.mem_cons, not_or] at ha
    rw [splitOn, ih ha.2]
    simp [Ne.symm ha.1]

end Verif.Targets
