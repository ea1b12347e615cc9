import Verif.Media.LogicLemmas
/-! Properties C01–C04: logical combination of media queries. -/
namespace Verif.Media

/-! ## Sample data used by the non-vacuity examples and counterexamples -/

/-- `(width > 1)`, `(width > 2)` as sample conditions. -/
def wide (n : Nat) : Cond := .feature (.range (.standard .width) .gt (.other .length n))

/-- A sample device of media type `m` whose width equals the value coded by `n`. -/
def sampleDevice (m : MediaType) (n : Nat) : Device where
  type := m
  compare _ v := match v with
    | .other .length k => some (compare n k)
    | _ => none
  discrete _ _ := .u
  truthy _ := .t

/-- `screen`, `print`, ... without condition. -/
def typeQ (m : MediaType) : Query := ⟨none, m, none⟩
/-- `not m`. -/
def notQ (m : MediaType) : Query := ⟨some .not, m, none⟩
/-- `(c)`. -/
def condQ (c : Cond) : Query := ⟨none, .all, some c⟩

/-! ## C01 -/

/-- **C01.** `or` on non-empty media lists is disjunction. -/
theorem C01_list_or (a b : List Query) (ha : a ≠ []) (hb : b ≠ []) (d : Device) :
    ListMatches d (listOr a b) ↔ ListMatches d a ∨ ListMatches d b := by
  have hne : listOr a b ≠ [] := by
    obtain ⟨x, hx⟩ := List.exists_mem_of_ne_nil a ha
    intro h
    have := (listOr_mem a b x).2 (.inl hx)
    rw [h] at this
    simp at this
  simp only [ListMatches, ha, hb, hne, false_or, listOr_mem]
  constructor
  · rintro ⟨q, hq | hq, hm⟩
    · exact .inl ⟨q, hq, hm⟩
    · exact .inr ⟨q, hq, hm⟩
  · rintro (⟨q, hq, hm⟩ | ⟨q, hq, hm⟩)
    · exact ⟨q, .inl hq, hm⟩
    · exact ⟨q, .inr hq, hm⟩

example : listOr [typeQ .screen, condQ (wide 1)] [condQ (wide 1), typeQ .print] =
    [typeQ .screen, condQ (wide 1), typeQ .print] := by decide +kernel

/-- The guard of C01 is needed: `or` on an empty list (which matches everything) gives a narrower list. -/
theorem C01_empty_counterexample :
    ∃ (b : List Query) (d : Device), ListMatches d [] ∧ ¬ ListMatches d (listOr [] b) :=
  ⟨[typeQ .print], sampleDevice .screen 0, by decide +kernel⟩

/-! ## C03 -/

/-- The pairs for which `MediaQuery::and` keeps the meaning:
* if one of them is negated, or they name two different media types, then neither has a condition;
* if exactly one is negated, they do not name the same media type other than `all`. -/
def AndSafe (a b : Query) : Prop :=
  ((a.qualifier = some .not ∨ b.qualifier = some .not ∨
      (a.type ≠ .all ∧ b.type ≠ .all ∧ a.type ≠ b.type)) → a.cond = none ∧ b.cond = none) ∧
  ((a.qualifier = some .not ↔ ¬ b.qualifier = some .not) → a.type = b.type → a.type = .all)

instance (a b : Query) : Decidable (AndSafe a b) := by unfold AndSafe; infer_instance

/-- **C03, partial.** For pairs that are `AndSafe`, a successful `and` matches exactly when both match.
Missing: the pairs excluded by `AndSafe`, for which the code is wrong (see the counterexamples below). -/
theorem C03_query_and_partial (a b r : Query) (hs : AndSafe a b) (h : a.and b = some r) (d : Device) :
    r.matches d ↔ a.matches d ∧ b.matches d := by
  obtain ⟨qa, ta, ca⟩ := a
  obtain ⟨qb, tb, cb⟩ := b
  simp only [AndSafe] at hs
  obtain ⟨hs1, hs2⟩ := hs
  simp only [Query.and] at h
  split at h
  · contradiction
  rename_i q t hqt
  cases h
  by_cases hn : qa = some .not ∨ qb = some .not ∨ (ta ≠ .all ∧ tb ≠ .all ∧ ta ≠ tb)
  · obtain ⟨rfl, rfl⟩ := hs1 hn
    simp only [andCond, Query.matches, query_eval_type]
    exact andQualifierType_types d (qa, ta) (qb, tb) (q, t) hs2 hqt
  · have h1 : qa ≠ some .not := fun h => hn (.inl h)
    have h2 : qb ≠ some .not := fun h => hn (.inr (.inl h))
    have h3 : ta = .all ∨ tb = .all ∨ ta = tb := by grind
    obtain ⟨hq, ht⟩ := andQualifierType_compat d qa qb ta tb q t h1 h2 h3 hqt
    simp only [Query.matches, query_eval_pos, h1, h2, hq, ne_eq, not_false_eq_true, andCond_eval,
      K3.and_eq_t, K3.ofBool_eq_t, ht, Bool.and_eq_true]
    grind

example : AndSafe ⟨some .only, .screen, some (wide 1)⟩ (condQ (.op .or [wide 2, wide 3])) ∧
    Query.and ⟨some .only, .screen, some (wide 1)⟩ (condQ (.op .or [wide 2, wide 3])) =
      some ⟨some .only, .screen, some (.op .and [wide 1, .op .or [wide 2, wide 3]])⟩ := by decide +kernel
example : AndSafe (notQ .screen) (typeQ .print) ∧
    Query.and (notQ .screen) (typeQ .print) = some (typeQ .print) := by decide +kernel

/-- Without any guard: for two queries that are not negated and have compatible types, `and` always succeeds. -/
theorem C03_query_and_ok (a b : Query) (ha : a.qualifier ≠ some .not) (hb : b.qualifier ≠ some .not) :
    (a.and b).isSome = true := by
  obtain ⟨qa, ta, ca⟩ := a
  obtain ⟨qb, tb, cb⟩ := b
  simp only [Query.and]
  have : (andQualifierType (qa, ta) (qb, tb)).isSome = true := by
    simp only [ne_eq] at ha hb
    unfold andQualifierType
    split <;> simp_all <;> split <;> rfl
  split <;> simp_all

example : (Query.and (typeQ .screen) (condQ (wide 1))).isSome = true := by decide +kernel

/-- The full C03 is false of the code: there are a pair of queries and a device for which `and` succeeds and the
result differs from the conjunction. -/
theorem C03_counterexamples :
    -- `not screen` and `screen` gives `screen`
    (∃ r d, (notQ .screen).and (typeQ .screen) = some r ∧
      r.matches d ∧ ¬ ((notQ .screen).matches d ∧ (typeQ .screen).matches d)) ∧
    -- `screen and (width > 1)` and `print and (width > 2)` gives `not all and ((width > 1) and (width > 2))`
    (∃ r d, Query.and ⟨none, .screen, some (wide 1)⟩ ⟨none, .print, some (wide 2)⟩ = some r ∧
      r.matches d ∧ ¬ (Query.matches d ⟨none, .screen, some (wide 1)⟩ ∧
        Query.matches d ⟨none, .print, some (wide 2)⟩)) ∧
    -- `not print` and `(width > 1)` gives `not print and (width > 1)`
    (∃ r d, (notQ .print).and (condQ (wide 1)) = some r ∧
      r.matches d ∧ ¬ ((notQ .print).matches d ∧ (condQ (wide 1)).matches d)) ∧
    -- `not all` and `(width > 1)` gives `not all and (width > 1)`
    (∃ r d, (notQ .all).and (condQ (wide 1)) = some r ∧
      r.matches d ∧ ¬ ((notQ .all).matches d ∧ (condQ (wide 1)).matches d)) := by
  refine ⟨⟨_, sampleDevice .screen 0, rfl, by decide +kernel⟩, ⟨_, sampleDevice .screen 0, rfl, by decide +kernel⟩,
    ⟨_, sampleDevice .print 0, rfl, by decide +kernel⟩, ⟨_, sampleDevice .print 0, rfl, by decide +kernel⟩⟩

/-! ## C02 -/

/-- The pairs of lists for which `MediaList::and` keeps the meaning: `self` is empty, or the other list is empty or
has exactly one query `q`, every pair with `q` is `AndSafe`, and `q` is not one of several queries of `self`. -/
def ListAndSafe (a b : List Query) : Prop :=
  a = [] ∨ b = [] ∨ ∃ q, b = [q] ∧ (∀ x ∈ a, AndSafe x q) ∧ (q ∈ a → a = [q])

/-- **C02, partial.** For the pairs of lists that are `ListAndSafe`, a successful `and` matches exactly when both
match. Missing: lists with several queries on the right and the pairs excluded by `AndSafe`, for which the code is
wrong (`C02_counterexamples`). -/
theorem C02_list_and_partial (a b r : List Query) (hs : ListAndSafe a b) (h : listAnd a b = some r) (d : Device) :
    ListMatches d r ↔ ListMatches d a ∧ ListMatches d b := by
  rcases hs with rfl | rfl | ⟨q, rfl, hsafe, hmem⟩
  · simp [listAnd] at h; subst h; simp [ListMatches]
  · have : r = a := by
      unfold listAnd at h
      split at h
      · rename_i h'; simp at h'; subst h'; simpa using h.symm
      · simpa [andLoop] using h.symm
    subst this; simp [ListMatches]
  · by_cases ha : a = []
    · subst ha; simp [listAnd] at h; subst h; simp [ListMatches]
    · have hne : a.isEmpty = false := by cases a <;> simp_all
      simp only [listAnd, hne, Bool.false_eq_true, if_false, andLoop] at h
      by_cases hq : a.contains q = true
      · simp only [hq, if_true, Option.some.injEq] at h
        have := hmem (by simpa using hq)
        subst this; subst h; simp
      · simp only [hq, Bool.false_eq_true, if_false] at h
        split at h
        · contradiction
        rename_i l hl
        simp only [Option.some.injEq] at h
        subst h
        obtain ⟨h1, h2⟩ := andEach_mem hl
        have hl' : l ≠ [] := by
          obtain ⟨x, hx⟩ := List.exists_mem_of_ne_nil a ha
          obtain ⟨y, hy, _⟩ := h2 x hx
          exact List.ne_nil_of_mem hy
        simp only [ListMatches, ha, hl', false_or, List.cons_ne_self, List.mem_singleton, exists_eq_left]
        constructor
        · rintro ⟨y, hy, hm⟩
          obtain ⟨x, hx, hxy⟩ := h1 y hy
          have := (C03_query_and_partial x q y (hsafe x hx) hxy d).1 hm
          exact ⟨⟨x, hx, this.1⟩, this.2⟩
        · rintro ⟨⟨x, hx, hm⟩, hmq⟩
          obtain ⟨y, hy, hxy⟩ := h2 x hx
          exact ⟨y, hy, (C03_query_and_partial x q y (hsafe x hx) hxy d).2 ⟨hm, hmq⟩⟩

example : ListAndSafe [typeQ .screen, typeQ .print] [condQ (wide 1)] ∧
    listAnd [typeQ .screen, typeQ .print] [condQ (wide 1)] =
      some [⟨none, .screen, some (wide 1)⟩, ⟨none, .print, some (wide 1)⟩] :=
  ⟨.inr (.inr ⟨_, rfl, by decide +kernel⟩), by decide +kernel⟩

/-- The full C02 is false of the code: lists of several queries are conjoined instead of distributed, and a common
query is dropped. -/
theorem C02_counterexamples :
    -- `screen` and `(width > 1), (width > 2)` : the result needs both conditions
    (∃ r d, listAnd [typeQ .screen] [condQ (wide 1), condQ (wide 2)] = some r ∧ ¬ ListMatches d r ∧
      ListMatches d [typeQ .screen] ∧ ListMatches d [condQ (wide 1), condQ (wide 2)]) ∧
    -- `screen, print` and `screen` stays `screen, print`
    (∃ r d, listAnd [typeQ .screen, typeQ .print] [typeQ .screen] = some r ∧ ListMatches d r ∧
      ¬ (ListMatches d [typeQ .screen, typeQ .print] ∧ ListMatches d [typeQ .screen])) := by
  refine ⟨⟨_, sampleDevice .screen 2, rfl, by decide +kernel⟩, ⟨_, sampleDevice .print 2, rfl, by decide +kernel⟩⟩

/-! ## C04 -/

/-- **C04.** A list that `always_matches` matches every device. -/
theorem C04_always_matches (l : List Query) (h : listAlwaysMatches l = true) (d : Device) : ListMatches d l := by
  unfold listAlwaysMatches at h
  cases l with
  | nil => exact .inl rfl
  | cons q qs =>
    refine .inr ⟨q, by simp, ?_⟩
    obtain ⟨ql, ty, c⟩ := q
    simp only [List.isEmpty_cons, Bool.false_or, List.all_cons, Bool.and_eq_true, Query.alwaysMatches,
      beq_iff_eq] at h
    obtain ⟨⟨⟨rfl, rfl⟩, hc⟩, _⟩ := h
    cases c with
    | none => rfl
    | some c => simp at hc

/-- **C04.** A list that `never_matches` matches no device. -/
theorem C04_never_matches (l : List Query) (h : listNeverMatches l = true) (d : Device) : ¬ ListMatches d l := by
  unfold listNeverMatches at h
  simp only [Bool.and_eq_true, Bool.not_eq_true', List.all_eq_true] at h
  obtain ⟨hne, hall⟩ := h
  rintro (rfl | ⟨q, hq, hm⟩)
  · simp at hne
  · have := hall q hq
    obtain ⟨ql, ty, c⟩ := q
    simp only [Query.neverMatches, Bool.and_eq_true, beq_iff_eq] at this
    obtain ⟨⟨rfl, rfl⟩, hc⟩ := this
    cases c with
    | none => revert hm; simp [Query.matches, Query.eval, typeAndCond, optEval, MediaType.matchesDevice, K3.ofBool, K3.and, K3.not]
    | some c => simp at hc

example : listAlwaysMatches [typeQ .all, typeQ .all] = true ∧ listNeverMatches [notQ .all] = true ∧
    listAlwaysMatches [typeQ .screen] = false ∧ listNeverMatches [condQ (wide 1)] = false := by decide +kernel

end Verif.Media
