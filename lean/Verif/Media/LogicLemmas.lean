import Verif.Media.Spec
/-! Helper lemmas for the logical combination of media queries. -/
namespace Verif.Media

mutual
theorem Tok.beq_eq : ∀ a b : Tok, Tok.beq a b = true → a = b
  | .ident a, b, h => by cases b <;> simp_all [Tok.beq]
  | .delim a, b, h => by cases b <;> simp_all [Tok.beq]
  | .colon, b, h => by cases b <;> simp_all [Tok.beq]
  | .comma, b, h => by cases b <;> simp_all [Tok.beq]
  | .val t n, b, h => by cases b <;> simp_all [Tok.beq]
  | .paren as, b, h => by
    cases b <;> simp only [Tok.beq] at h <;> try contradiction
    rename_i bs
    rw [Tok.beqList_eq as bs h]
theorem Tok.beqList_eq : ∀ a b : List Tok, Tok.beqList a b = true → a = b
  | [], b, h => by cases b <;> simp_all [Tok.beqList]
  | a :: as, b, h => by
    cases b with
    | nil => simp [Tok.beqList] at h
    | cons b bs =>
      simp only [Tok.beqList, Bool.and_eq_true] at h
      rw [Tok.beq_eq a b h.1, Tok.beqList_eq as bs h.2]
end

mutual
theorem Tok.beq_refl : ∀ a : Tok, Tok.beq a a = true
  | .ident a | .delim a | .colon | .comma | .val t n => by simp [Tok.beq]
  | .paren as => by simp only [Tok.beq]; exact Tok.beqList_refl as
theorem Tok.beqList_refl : ∀ a : List Tok, Tok.beqList a a = true
  | [] => rfl
  | a :: as => by simp only [Tok.beqList, Tok.beq_refl a, Tok.beqList_refl as, Bool.and_self]
end

mutual
theorem Cond.beq_eq : ∀ a b : Cond, Cond.beq a b = true → a = b
  | .feature a, b, h => by cases b <;> simp_all [Cond.beq]
  | .not a, b, h => by
    cases b <;> simp only [Cond.beq] at h <;> try contradiction
    rename_i b
    rw [Cond.beq_eq a b h]
  | .op o as, b, h => by
    cases b <;> simp only [Cond.beq, Bool.and_eq_true, beq_iff_eq] at h <;> try contradiction
    rename_i o' bs
    rw [h.1, Cond.beqList_eq as bs h.2]
  | .unknown as, b, h => by
    cases b <;> simp only [Cond.beq] at h <;> try contradiction
    rename_i bs
    rw [Tok.beqList_eq as bs h]
theorem Cond.beqList_eq : ∀ a b : List Cond, Cond.beqList a b = true → a = b
  | [], b, h => by cases b <;> simp_all [Cond.beqList]
  | a :: as, b, h => by
    cases b with
    | nil => simp [Cond.beqList] at h
    | cons b bs =>
      simp only [Cond.beqList, Bool.and_eq_true] at h
      rw [Cond.beq_eq a b h.1, Cond.beqList_eq as bs h.2]
end

mutual
theorem Cond.beq_refl : ∀ a : Cond, Cond.beq a a = true
  | .feature a => by simp [Cond.beq]
  | .not a => by simp only [Cond.beq]; exact Cond.beq_refl a
  | .op o as => by simp only [Cond.beq, Cond.beqList_refl as]; simp
  | .unknown as => by simp only [Cond.beq, Tok.beqList_refl as]
theorem Cond.beqList_refl : ∀ a : List Cond, Cond.beqList a a = true
  | [] => rfl
  | a :: as => by simp only [Cond.beqList, Cond.beq_refl a, Cond.beqList_refl as, Bool.and_self]
end

theorem Query.beq_def (a b : Query) : (a == b) = Query.beq a b := rfl

theorem Query.beq_eq (a b : Query) (h : (a == b) = true) : a = b := by
  obtain ⟨q, t, c⟩ := a
  obtain ⟨q', t', c'⟩ := b
  rw [Query.beq_def] at h
  simp only [Query.beq, Bool.and_eq_true, beq_iff_eq] at h
  obtain ⟨⟨rfl, rfl⟩, h3⟩ := h
  cases c <;> cases c' <;> simp_all
  exact Cond.beq_eq _ _ h3

theorem Query.beq_refl (a : Query) : (a == a) = true := by
  obtain ⟨q, t, c⟩ := a
  rw [Query.beq_def]
  cases c <;> simp [Query.beq, Cond.beq_refl]

instance : LawfulBEq Query where
  eq_of_beq := Query.beq_eq _ _
  rfl := Query.beq_refl _

instance : DecidableEq Query := fun a b =>
  if h : (a == b) = true then .isTrue (Query.beq_eq a b h) else .isFalse fun e => h (e ▸ Query.beq_refl a)

instance : DecidableEq Cond := fun a b =>
  if h : Cond.beq a b = true then .isTrue (Cond.beq_eq a b h) else .isFalse fun e => h (e ▸ Cond.beq_refl a)

instance (d : Device) (q : Query) : Decidable (q.matches d) := inferInstanceAs (Decidable (_ = _))
instance (d : Device) (l : List Query) : Decidable (ListMatches d l) := by unfold ListMatches; infer_instance

theorem Cond.lawful_beq (a b : Cond) : (a == b) = true ↔ a = b :=
  ⟨Cond.beq_eq a b, fun h => h ▸ Cond.beq_refl a⟩

theorem listOr_mem (a b : List Query) (q : Query) : q ∈ listOr a b ↔ q ∈ a ∨ q ∈ b := by
  induction b generalizing a with
  | nil => simp [listOr]
  | cons m rest ih =>
    unfold listOr
    by_cases h : a.contains m = true
    · simp only [h, Bool.not_true, Bool.false_eq_true, if_false, ih, List.mem_cons]
      have hm : m ∈ a := by simpa using h
      constructor
      · rintro (h | h)
        · exact .inl h
        · exact .inr (.inr h)
      · rintro (h | rfl | h)
        · exact .inl h
        · exact .inl hm
        · exact .inr h
    · simp only [h, Bool.not_false, if_true, ih, List.mem_append, List.mem_cons]
      simp [or_assoc]

theorem andCond_eval (d : Device) (a b : Option Cond) :
    optEval d (andCond a b) = (optEval d a).and (optEval d b) := by
  cases b with
  | none =>
    cases a with
    | none => rfl
    | some c => simp only [andCond, optEval]; cases c.eval d <;> rfl
  | some cb =>
    cases a with
    | none => simp only [andCond, optEval]; cases cb.eval d <;> rfl
    | some ca =>
      simp only [andCond]
      by_cases h : (ca == cb) = true
      · have := (Cond.lawful_beq ca cb).1 h
        subst this
        simp only [h]
        simp [optEval]
        cases ca.eval d <;> rfl
      · simp only [h]
        simp [Cond.eval, Cond.evalAll, optEval]
        cases ca.eval d <;> cases cb.eval d <;> rfl

theorem K3.and_eq_t (a b : K3) : a.and b = .t ↔ a = .t ∧ b = .t := by
  cases a <;> cases b <;> simp [K3.and]

theorem K3.ofBool_eq_t (b : Bool) : K3.ofBool b = .t ↔ b = true := by cases b <;> simp [K3.ofBool]
theorem K3.ofBool_not_eq_t (b : Bool) : (K3.ofBool b).not = .t ↔ b = false := by
  cases b <;> simp [K3.ofBool, K3.not]

theorem query_eval_type (d : Device) (q : Option Qualifier) (t : MediaType) :
    Query.eval d ⟨q, t, none⟩ = .t ↔ (t.matchesDevice d = true ↔ q ≠ some .not) := by
  rcases q with _ | (_ | _) <;> cases h : t.matchesDevice d <;>
    simp [Query.eval, typeAndCond, optEval, h, K3.ofBool, K3.and, K3.not]

theorem query_eval_pos (d : Device) (q : Option Qualifier) (t : MediaType) (c : Option Cond) (h : q ≠ some .not) :
    Query.eval d ⟨q, t, c⟩ =
      (K3.ofBool (t.matchesDevice d)).and (optEval d c) := by
  rcases q with _ | (_ | _) <;> simp_all [Query.eval, typeAndCond]

theorem matchesDevice_iff (d : Device) (t : MediaType) :
    t.matchesDevice d = true ↔ t = .all ∨ t = d.type := by
  cases t <;> simp [MediaType.matchesDevice]

theorem andQualifierType_types (d : Device) (a b r : Option Qualifier × MediaType)
    (hs : (a.1 = some .not ↔ ¬ b.1 = some .not) → a.2 = b.2 → a.2 = .all)
    (h : andQualifierType a b = some r) :
    (r.2.matchesDevice d = true ↔ r.1 ≠ some .not) ↔
      ((a.2.matchesDevice d = true ↔ a.1 ≠ some .not) ∧ (b.2.matchesDevice d = true ↔ b.1 ≠ some .not)) := by
  simp only [matchesDevice_iff]
  unfold andQualifierType at h
  split at h <;> grind

theorem andQualifierType_compat (d : Device) (qa qb : Option Qualifier) (ta tb : MediaType)
    (q : Option Qualifier) (t : MediaType) (h1 : qa ≠ some .not) (h2 : qb ≠ some .not)
    (h3 : ta = .all ∨ tb = .all ∨ ta = tb) (h : andQualifierType (qa, ta) (qb, tb) = some (q, t)) :
    q ≠ some .not ∧ t.matchesDevice d = (ta.matchesDevice d && tb.matchesDevice d) := by
  have : t.matchesDevice d = (ta.matchesDevice d && tb.matchesDevice d) ↔
    (t.matchesDevice d = true ↔ ta.matchesDevice d = true ∧ tb.matchesDevice d = true) := by
    rw [Bool.eq_iff_iff]; simp
  rw [this]
  simp only [matchesDevice_iff]
  unfold andQualifierType at h
  split at h <;> grind

theorem andEach_mem {l : List Query} {b : Query} {r : List Query} (h : andEach l b = some r) :
    (∀ q ∈ r, ∃ a ∈ l, a.and b = some q) ∧ (∀ a ∈ l, ∃ q ∈ r, a.and b = some q) := by
  induction l generalizing r with
  | nil => simp [andEach] at h; subst h; simp
  | cons a as ih =>
    unfold andEach at h
    split at h
    · contradiction
    · rename_i a' ha
      split at h
      · contradiction
      · rename_i as' has
        cases h
        obtain ⟨h1, h2⟩ := ih has
        constructor
        · intro q hq
          rcases List.mem_cons.1 hq with rfl | hq
          · exact ⟨a, by simp, ha⟩
          · obtain ⟨x, hx, hx'⟩ := h1 q hq
            exact ⟨x, by simp [hx], hx'⟩
        · intro x hx
          rcases List.mem_cons.1 hx with rfl | hx
          · exact ⟨a', by simp, ha⟩
          · obtain ⟨q, hq, hq'⟩ := h2 x hx
            exact ⟨q, by simp [hq], hq'⟩

end Verif.Media
