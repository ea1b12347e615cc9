import Verif.MathFn.PrintProps
/-!
# Math functions: does the parser end? (C59)
-/
set_option linter.unusedSectionVars false
set_option linter.unusedTactic false
set_option linter.unreachableTactic false
namespace Verif.MathFn

variable {K : Type} [Field K] [LinearOrder K] [IsStrictOrderedRing K] [FloorRing K]
  {sqrt : K → K}

/-! ### More calls give the same result -/

/-- A result with `n` calls is the result with `n + 1`. -/
def Mono (K : Type) [Field K] [LinearOrder K] [FloorRing K] (n : Nat) : Prop :=
  (∀ (a b : Val K) r, addInternal n a b = some r → addInternal (n + 1) a b = some r) ∧
  (∀ (a b : Val K) r, addRec n a b = some r → addRec (n + 1) a b = some r) ∧
  (∀ (a b : Val K) r, addInh n a b = some r → addInh (n + 1) a b = some r) ∧
  (∀ (a b : Calc K) r, calcAdd n a b = some r → calcAdd (n + 1) a b = some r)

theorem mono (n : Nat) : Mono K n := by
  induction n with
  | zero => refine ⟨?_, ?_, ?_, ?_⟩ <;> intros <;> simp_all [addInternal, addRec, addInh, calcAdd]
  | succ n ih =>
    obtain ⟨hA, hR, hI, hC⟩ := ih
    refine ⟨?_, ?_, ?_, ?_⟩
    · intro a b r h
      rw [addInternal] at h ⊢
      simp only [Option.bind_eq_bind, Option.bind_eq_some_iff] at h ⊢
      obtain ⟨o, ho, h⟩ := h
      refine ⟨o, hR _ _ _ ho, ?_⟩
      cases o with
      | some r' => exact h
      | none => exact hI _ _ _ h
    · intro a b r h
      rw [addRec.eq_def] at h ⊢
      simp only at h ⊢
      split at h
      · exact h
      · exact h
      · exact hR _ _ _ h
      · simp only [Option.bind_eq_bind, Option.bind_eq_some_iff] at h ⊢
        obtain ⟨o, ho, h⟩ := h
        refine ⟨o, hR _ _ _ ho, ?_⟩
        cases o with
        | some res =>
          simp only [Option.bind_eq_some_iff] at h ⊢
          obtain ⟨r', hr, h⟩ := h
          exact ⟨r', hI _ _ _ hr, h⟩
        | none =>
          simp only [Option.bind_eq_some_iff] at h ⊢
          obtain ⟨o, ho', h⟩ := h
          refine ⟨o, hR _ _ _ ho', ?_⟩
          cases o with
          | some res =>
            simp only [Option.bind_eq_some_iff] at h ⊢
            obtain ⟨r', hr, h⟩ := h
            exact ⟨r', hI _ _ _ hr, h⟩
          | none => exact h
      · exact h
      · exact hR _ _ _ h
      · simp only [Option.bind_eq_bind, Option.bind_eq_some_iff] at h ⊢
        obtain ⟨o, ho, h⟩ := h
        refine ⟨o, hR _ _ _ ho, ?_⟩
        cases o with
        | some res =>
          simp only [Option.bind_eq_some_iff] at h ⊢
          obtain ⟨r', hr, h⟩ := h
          exact ⟨r', hI _ _ _ hr, h⟩
        | none =>
          simp only [Option.bind_eq_some_iff] at h ⊢
          obtain ⟨o, ho', h⟩ := h
          refine ⟨o, hR _ _ _ ho', ?_⟩
          cases o with
          | some res =>
            simp only [Option.bind_eq_some_iff] at h ⊢
            obtain ⟨r', hr, h⟩ := h
            exact ⟨r', hI _ _ _ hr, h⟩
          | none => exact h
      · exact h
    · intro a b r h
      rw [addInh.eq_def] at h ⊢
      simp only at h ⊢
      split at h
      · rename_i hz; rw [if_pos hz]; exact h
      · rename_i hz
        rw [if_neg hz]
        split at h
        · rename_i hz; rw [if_pos hz]; exact h
        · rename_i hz
          rw [if_neg hz]
          split at h
          · simp only [Option.bind_eq_bind, Option.bind_eq_some_iff] at h ⊢
            obtain ⟨c, hc, h⟩ := h
            exact ⟨c, hC _ _ _ hc, h⟩
          · exact hI _ _ _ h
          · exact h
          · exact hI _ _ _ h
          · exact h
          · exact h
    · intro a b r h
      rw [calcAdd.eq_def] at h ⊢
      simp only at h ⊢
      split at h
      case h_1 =>
        simp only [Option.bind_eq_bind, Option.bind_eq_some_iff] at h ⊢
        obtain ⟨v, hv, h⟩ := h
        exact ⟨v, hA _ _ _ hv, h⟩
      case h_11 =>
        simp only [Option.bind_eq_bind, Option.bind_eq_some_iff] at h ⊢
        obtain ⟨v, hv, h⟩ := h
        exact ⟨v, hA _ _ _ hv, h⟩
      case h_12 =>
        simp only [Option.bind_eq_bind, Option.bind_eq_some_iff] at h ⊢
        obtain ⟨v, hv, h⟩ := h
        exact ⟨v, hA _ _ _ hv, h⟩
      case h_13 =>
        simp only [Option.bind_eq_bind, Option.bind_eq_some_iff] at h ⊢
        obtain ⟨v, hv, h⟩ := h
        exact ⟨v, hA _ _ _ hv, h⟩
      all_goals exact h

theorem mono_le {n m : Nat} (h : n ≤ m) :
    (∀ (a b : Val K) r, addInternal n a b = some r → addInternal m a b = some r) ∧
    (∀ (a b : Val K) r, addRec n a b = some r → addRec m a b = some r) ∧
    (∀ (a b : Val K) r, addInh n a b = some r → addInh m a b = some r) ∧
    (∀ (a b : Calc K) r, calcAdd n a b = some r → calcAdd m a b = some r) := by
  induction h with
  | refl => exact ⟨fun _ _ _ h => h, fun _ _ _ h => h, fun _ _ _ h => h, fun _ _ _ h => h⟩
  | step _ ih =>
    rename_i m _
    have := mono (K := K) m
    exact ⟨fun a b r h => this.1 a b r (ih.1 a b r h), fun a b r h => this.2.1 a b r (ih.2.1 a b r h),
      fun a b r h => this.2.2.1 a b r (ih.2.2.1 a b r h), fun a b r h => this.2.2.2 a b r (ih.2.2.2 a b r h)⟩

/-! ### A sum that never ends -/

/-- Adding two sums of which no terms can be put together calls itself for ever. -/
theorem sum_of_sums_loops (a b c d : Calc K)
    (h : ∀ n r, addRec n (.calc (.sum a b)) (.calc (.sum c d)) ≠ some (some r)) :
    ∀ n, calcAdd n (.sum a b) (.sum c d) = none := by
  intro n
  induction n using Nat.strongRecOn with
  | ind n ih =>
    match n with
    | 0 => simp [calcAdd]
    | 1 => simp [calcAdd, addInternal]
    | 2 => simp [calcAdd, addInternal, addRec]
    | n + 3 =>
      have hI : ∀ m, m ≤ n + 1 → addInh m (Val.calc (.sum a b)) (.calc (.sum c d)) = none := by
        intro m hm
        match m with
        | 0 => simp [addInh]
        | m + 1 =>
          simp [addInh, Val.isZero, Val.trySign, Calc.trySign, isNeg, ih m (by omega)]
      rw [calcAdd, addInternal]
      cases ho : addRec (n + 1) (.calc (.sum a b)) (.calc (.sum c d)) with
      | none => rfl
      | some o =>
        cases o with
        | some r => exact absurd ho (h _ _)
        | none => simp [hI (n + 1) (le_refl _)]

/-- The four terms of `(1ex + 1em) + (1vw + 1vh)`. -/
theorem four_units_no_merge (x y z w : K) (p q r s : Nat) (hpr : p ≠ r) (hps : p ≠ s)
    (hqr : q ≠ r) (hqs : q ≠ s) (n : Nat) (o : Val K) :
    addRec n (.calc (.sum (.value (.dim (.rel p) x)) (.value (.dim (.rel q) y))))
      (.calc (.sum (.value (.dim (.rel r) z)) (.value (.dim (.rel s) w)))) ≠ some (some o) := by
  have leaf : ∀ (n i j : Nat) (a b : K), i ≠ j →
      addRec n (.dim (.rel i) a) (.dim (.rel j) b) = none ∨
      addRec n (.dim (.rel i) a) (.dim (.rel j) b) = some none := by
    intro n i j a b hij
    cases n with
    | zero => left; simp [addRec]
    | succ n => right; simp [addRec, lvTryAdd, hij, toPx]
  have side : ∀ (n i : Nat) (a : K), i ≠ r → i ≠ s →
      addRec n (.dim (.rel i) a) (.calc (.sum (.value (.dim (.rel r) z)) (.value (.dim (.rel s) w)))) = none ∨
      addRec n (.dim (.rel i) a) (.calc (.sum (.value (.dim (.rel r) z)) (.value (.dim (.rel s) w)))) = some none := by
    intro n i a h1 h2
    have one : ∀ (n j : Nat) (b : K), i ≠ j →
        addRec n (.dim (.rel i) a) (.calc (.value (.dim (.rel j) b))) = none ∨
        addRec n (.dim (.rel i) a) (.calc (.value (.dim (.rel j) b))) = some none := by
      intro n j b hij
      cases n with
      | zero => left; simp [addRec]
      | succ n => simpa [addRec] using leaf n i j a b hij
    cases n with
    | zero => left; simp [addRec]
    | succ n =>
      rw [addRec]
      · rcases one n r z h1 with h | h <;> rcases one n s w h2 with h' | h' <;> simp [h, h']
      all_goals intros; simp_all
  have whole : ∀ (n i : Nat) (a : K), i ≠ r → i ≠ s →
      addRec n (.calc (.value (.dim (.rel i) a)))
        (.calc (.sum (.value (.dim (.rel r) z)) (.value (.dim (.rel s) w)))) = none ∨
      addRec n (.calc (.value (.dim (.rel i) a)))
        (.calc (.sum (.value (.dim (.rel r) z)) (.value (.dim (.rel s) w)))) = some none := by
    intro n i a h1 h2
    cases n with
    | zero => left; simp [addRec]
    | succ n => rw [addRec]; exact side n i a h1 h2
  cases n with
  | zero => simp [addRec]
  | succ n =>
    rw [addRec]
    rcases whole n p x hpr hps with h | h <;> rcases whole n q y hqr hqs with h' | h' <;> simp [h, h']

/-- **C59** is false: the parser does not end for a sum of two sums in parentheses whose four lengths
have different units, such as `calc((1ex + 1em) + (1vw + 1vh))`: however many calls are allowed, there
is no result. -/
theorem sum_of_sums_never_ends (x y z w : K) (hx : 0 < x) (hy : y ≠ 0) (hz : 0 < z) (hw : w ≠ 0)
    (p q r s : Nat) (hpq : p ≠ q) (hpr : p ≠ r) (hps : p ≠ s) (hqr : q ≠ r) (hqs : q ≠ s) (hrs : r ≠ s) (n : Nat) :
    (Src.calc (.add (.add (.dim (.rel p) x) (.dim (.rel q) y))
      (.add (.dim (.rel r) z) (.dim (.rel s) w)))).parseVal sqrt n = .loops := by
  have inner : ∀ (n : Nat) (i j : Nat) (a b : K), i ≠ j → b ≠ 0 → 0 < a →
      calcAdd n (.value (.dim (.rel i) a)) (.value (.dim (.rel j) b)) = none ∨
      calcAdd n (.value (.dim (.rel i) a)) (.value (.dim (.rel j) b)) =
        some (.sum (.value (.dim (.rel i) a)) (.value (.dim (.rel j) b))) := by
    intro n i j a b hij hb hpos
    have ha := hpos.ne'
    match n with
    | 0 => left; simp [calcAdd]
    | 1 => left; simp [calcAdd, addInternal]
    | 2 => left; simp [calcAdd, addInternal, addRec]
    | n + 3 =>
      right
      have hs : ¬ (sgn a < 0) := by simp [sgn, ha, not_lt.2 hpos.le]
      simp [calcAdd, addInternal, addRec, lvTryAdd, hij, toPx, addInh, Val.isZero, ha, hb, Val.trySign,
        isNeg, hs, Val.toCalc]
  have outer := sum_of_sums_loops _ _ _ _ (four_units_no_merge x y z w p q r s hpr hps hqr hqs) n
  simp only [Src.parseVal, Src.isFn, if_true, Src.parseFn, Src.parse, Res.bind]
  rcases inner n p q x y hpq hy hx with h | h
  · simp [h, Res.ofFuel]
  · rcases inner n r s z w hrs hw hz with h' | h'
    · simp [h, h', Res.ofFuel]
    · simp [h, h', Res.ofFuel, outer]

example : ∀ n, (Src.calc (.add (.add (.dim (.rel 0) 1) (.dim (.rel 1) 1))
      (.add (.dim (.rel 2) 1) (.dim (.rel 3) 1))) : Src ℚ).parseVal id n = .loops :=
  fun n => sum_of_sums_never_ends 1 1 1 1 (by simp) (by simp) (by simp) (by simp) 0 1 2 3 (by simp) (by simp)
    (by simp) (by simp) (by simp) (by simp) n

/-! ### Sums that end -/

/-- A function. -/
def Calc.IsFunc : Calc K → Prop
  | .func _ => True
  | _ => False

/-- Not a sum. -/
def Calc.Atom : Calc K → Prop
  | .sum _ _ => False
  | .value v => v.Lit
  | .product _ c => c.IsFunc
  | _ => True

/-- A sum that nests to the left only. -/
def Calc.Comb : Calc K → Prop
  | .sum a b => a.Comb ∧ b.Atom
  | .value v => v.Lit
  | .product _ c => c.IsFunc
  | _ => True

/-- The number of terms. -/
def Calc.terms : Calc K → Nat
  | .sum a b => a.terms + b.terms
  | _ => 1

/-- The same for a value. -/
def Val.Comb : Val K → Prop
  | .calc c => c.Comb
  | _ => True

/-- The same for a value. -/
def Val.terms : Val K → Nat
  | .calc c => c.terms
  | _ => 1

theorem Calc.Atom.comb {c : Calc K} (h : c.Atom) : c.Comb := by
  cases c <;> simp_all [Calc.Atom, Calc.Comb]

theorem Calc.Atom.terms {c : Calc K} (h : c.Atom) : c.terms = 1 := by
  cases c <;> simp_all [Calc.Atom, Calc.terms]

theorem Val.Lit.comb {v : Val K} (h : v.Lit) : v.Comb := by
  cases v <;> simp_all [Val.Lit, Val.Comb]

theorem Val.Lit.terms {v : Val K} (h : v.Lit) : v.terms = 1 := by
  cases v <;> simp_all [Val.Lit, Val.terms]

theorem Val.Lit.toCalc {v : Val K} (h : v.Lit) : v.toCalc = .value v := by
  cases v <;> simp_all [Val.Lit, Val.toCalc]

theorem Calc.Comb.atom {c : Calc K} (h : c.Comb) (hs : ∀ a b, c ≠ .sum a b) : c.Atom := by
  cases c <;> simp_all [Calc.Atom, Calc.Comb]

theorem terms_pos (c : Calc K) : 1 ≤ c.terms := by
  induction c using Calc.terms.induct with
  | case1 a b iha ihb => simp only [Calc.terms]; omega
  | case2 c h => rw [Calc.terms]; exact h

theorem toCalc_comb {v : Val K} (h : v.Comb) : v.toCalc.Comb := by
  cases v <;> simp_all [Val.toCalc, Val.Comb, Calc.Comb, Val.Lit]

theorem toCalc_terms (v : Val K) : v.toCalc.terms = v.terms := by
  cases v <;> simp [Val.toCalc, Val.terms, Calc.terms]

theorem lvTryAdd_lit (u v : Unit) (x y : K) (r : Val K) (h : lvTryAdd u x v y = some r) : r.Lit := by
  unfold lvTryAdd at h
  split at h
  · simp only [Option.some.injEq] at h; subst h; trivial
  · split at h
    · simp only [Option.some.injEq] at h; subst h; trivial
    · cases h

theorem addRec_lits (v w : Val K) (hv : v.Lit) (hw : w.Lit) (n : Nat) :
    ∃ o, addRec (n + 1) v w = some o ∧ ∀ r, o = some r → r.Lit := by
  cases v with
  | dim u x =>
    cases w with
    | dim u' y => exact ⟨_, rfl, fun r h => lvTryAdd_lit _ _ _ _ _ h⟩
    | pct y => exact ⟨none, rfl, by simp⟩
    | «calc» c => exact hw.elim
  | pct x =>
    cases w with
    | dim u' y => exact ⟨none, rfl, by simp⟩
    | pct y => exact ⟨_, rfl, by rintro r ⟨⟩; trivial⟩
    | «calc» c => exact hw.elim
  | «calc» c => exact hv.elim

/-- The last step of `addInh`. -/
def join (n : Nat) (x y : Val K) : Option (Val K) :=
  match (x, y) with
  | (.calc a, .calc b) => do some (Val.calc (← calcAdd n a b))
  | (.calc (.value a), b) => addInh n a b
  | (.calc c, b) => some (.calc (.sum c b.toCalc))
  | (a, .calc (.value b)) => addInh n a b
  | (a, .calc c) => some (.calc (.sum a.toCalc c))
  | (a, b) => some (.calc (.sum a.toCalc b.toCalc))

theorem addInh_succ (n : Nat) (v w : Val K) : addInh (n + 1) v w =
    if v.isZero = true then some w else if w.isZero = true then some v
    else if (isNeg v.trySign && isPos w.trySign) = true then join n w v else join n v w := by
  rw [addInh]
  by_cases h1 : v.isZero = true
  · rw [if_pos h1, if_pos h1]
  · rw [if_neg h1, if_neg h1]
    by_cases h2 : w.isZero = true
    · rw [if_pos h2, if_pos h2]
    · rw [if_neg h2, if_neg h2]
      by_cases h3 : (isNeg v.trySign && isPos w.trySign) = true
      · rw [if_pos h3, if_pos h3]; rfl
      · rw [if_neg h3, if_neg h3]; rfl

theorem addInh_lits (v w : Val K) (hv : v.Lit) (hw : w.Lit) (n : Nat) :
    ∃ r, addInh (n + 1) v w = some r ∧ r.Comb ∧ r.terms ≤ 2 := by
  have key : ∀ x y : Val K, x.Lit → y.Lit → ∃ r, join n x y = some r ∧ r.Comb ∧ r.terms ≤ 2 := by
    intro x y hx hy
    refine ⟨.calc (.sum x.toCalc y.toCalc), ?_, ?_, ?_⟩
    · cases x <;> cases y <;> first | rfl | exact hx.elim | exact hy.elim
    · rw [hx.toCalc, hy.toCalc]
      simp only [Val.Comb, Calc.Comb, Calc.Atom]; exact ⟨hx, hy⟩
    · rw [hx.toCalc, hy.toCalc]; simp [Val.terms, Calc.terms]
  rw [addInh_succ]
  by_cases h1 : v.isZero = true
  · rw [if_pos h1]; exact ⟨_, rfl, hw.comb, by rw [hw.terms]; omega⟩
  rw [if_neg h1]
  by_cases h2 : w.isZero = true
  · rw [if_pos h2]; exact ⟨_, rfl, hv.comb, by rw [hv.terms]; omega⟩
  rw [if_neg h2]
  by_cases h3 : (isNeg v.trySign && isPos w.trySign) = true
  · rw [if_pos h3]; exact key _ _ hw hv
  · rw [if_neg h3]; exact key _ _ hv hw

theorem addInternal_lits (v w : Val K) (hv : v.Lit) (hw : w.Lit) (n : Nat) :
    ∃ r, addInternal (n + 2) v w = some r ∧ r.Comb ∧ r.terms ≤ 2 := by
  obtain ⟨o, ho, hl⟩ := addRec_lits v w hv hw n
  rw [addInternal, ho]
  cases o with
  | some r => exact ⟨r, rfl, (hl r rfl).comb, by rw [(hl r rfl).terms]; omega⟩
  | none => exact addInh_lits v w hv hw n

theorem calcAdd_atoms (x y : Calc K) (hx : x.Atom) (hy : y.Atom) (n : Nat) :
    ∃ r, calcAdd (n + 3) x y = some r ∧ r.Comb ∧ r.terms ≤ 2 := by
  have sum : ∃ r, some (Calc.sum x y) = some r ∧ r.Comb ∧ r.terms ≤ 2 :=
    ⟨_, rfl, by rw [Calc.Comb]; exact ⟨hx.comb, hy⟩, by rw [Calc.terms, hx.terms, hy.terms]⟩
  cases x with
  | sum _ _ => exact hx.elim
  | value v =>
    cases y with
    | sum _ _ => exact hy.elim
    | value w =>
      obtain ⟨r, hr, hc, ht⟩ := addInternal_lits v w hx hy n
      rw [calcAdd, hr]
      exact ⟨r.toCalc, rfl, toCalc_comb hc, by rw [toCalc_terms]; exact ht⟩
    | number _ => simpa only [calcAdd] using sum
    | product _ _ => simpa only [calcAdd] using sum
    | func _ => simpa only [calcAdd] using sum
  | number a =>
    cases y with
    | sum _ _ => exact hy.elim
    | number b => exact ⟨.number (a + b), by simp only [calcAdd], trivial, by simp [Calc.terms]⟩
    | value _ => simpa only [calcAdd] using sum
    | product _ _ => simpa only [calcAdd] using sum
    | func _ => simpa only [calcAdd] using sum
  | product _ _ =>
    cases y with
    | sum _ _ => exact hy.elim
    | number _ => simpa only [calcAdd] using sum
    | value _ => simpa only [calcAdd] using sum
    | product _ _ => simpa only [calcAdd] using sum
    | func _ => simpa only [calcAdd] using sum
  | func _ =>
    cases y with
    | sum _ _ => exact hy.elim
    | number _ => simpa only [calcAdd] using sum
    | value _ => simpa only [calcAdd] using sum
    | product _ _ => simpa only [calcAdd] using sum
    | func _ => simpa only [calcAdd] using sum

theorem sign_atom {c : Calc K} (h : c.Comb) (hs : c.trySign.isSome) : c.Atom := by
  apply h.atom
  rintro a b rfl
  simp [Calc.trySign] at hs

theorem isNeg_isSome {s : Option K} (h : isNeg s = true) : s.isSome := by
  cases s <;> simp_all [isNeg]

theorem isPos_isSome {s : Option K} (h : isPos s = true) : s.isSome := by
  cases s <;> simp_all [isPos]

/-- A left sum and a literal that could not be put together. -/
theorem addInh_calc_lit (a : Calc K) (v : Val K) (ha : a.Comb) (hv : v.Lit) (n : Nat) :
    ∃ r, addInh (n + 2) (.calc a) v = some r ∧ r.Comb ∧ r.terms ≤ a.terms + 1 := by
  have hp := terms_pos a
  have left : ∃ r, join (n + 1) (.calc a) v = some r ∧ r.Comb ∧ r.terms ≤ a.terms + 1 := by
    cases a with
    | value w =>
      obtain ⟨r, hr, hc, ht⟩ := addInh_lits w v ha hv n
      refine ⟨r, ?_, hc, by simp only [Calc.terms]; omega⟩
      cases v <;> first | exact hr | exact hv.elim
    | _ =>
      refine ⟨.calc (.sum _ v.toCalc), by cases v <;> first | rfl | exact hv.elim, ?_, ?_⟩
      · rw [hv.toCalc, Val.Comb, Calc.Comb]
        exact ⟨ha, hv⟩
      · rw [hv.toCalc]; simp [Val.terms, Calc.terms]
  have right : a.Atom → ∃ r, join (n + 1) v (.calc a) = some r ∧ r.Comb ∧ r.terms ≤ a.terms + 1 := by
    intro hat
    cases a with
    | sum _ _ => exact hat.elim
    | value w =>
      obtain ⟨r, hr, hc, ht⟩ := addInh_lits v w hv hat n
      refine ⟨r, ?_, hc, by simp only [Calc.terms]; omega⟩
      cases v <;> first | exact hr | exact hv.elim
    | _ =>
      refine ⟨.calc (.sum v.toCalc _), by cases v <;> first | rfl | exact hv.elim, ?_, ?_⟩
      · rw [hv.toCalc, Val.Comb, Calc.Comb]
        exact ⟨hv, hat⟩
      · rw [hv.toCalc]; simp [Val.terms, Calc.terms]
  rw [addInh_succ]
  rw [if_neg (by simp [Val.isZero])]
  by_cases h2 : v.isZero = true
  · rw [if_pos h2]; exact ⟨_, rfl, ha, by simp [Val.terms]⟩
  rw [if_neg h2]
  by_cases h3 : (isNeg (Val.calc a).trySign && isPos v.trySign) = true
  · rw [if_pos h3]
    simp only [Bool.and_eq_true, Val.trySign] at h3
    exact right (sign_atom ha (isNeg_isSome h3.1))
  · rw [if_neg h3]; exact left

/-- The claim of the induction. -/
def Ends (x y : Calc K) : Prop :=
  ∃ n r, calcAdd n x y = some r ∧ r.Comb ∧ r.terms ≤ x.terms + 1

theorem addInh_val_atom (v : Val K) (b : Calc K) (hv : v.Comb) (hb : b.Atom)
    (ih : ∀ c : Calc K, v = .calc c → Ends c b) :
    ∃ n r, addInh n v (.calc b) = some r ∧ r.Comb ∧ r.terms ≤ v.terms + 1 := by
  by_cases hl : v.Lit
  · refine ⟨2, ?_⟩
    rw [addInh_succ, hl.terms]
    by_cases h1 : v.isZero = true
    · rw [if_pos h1]; exact ⟨_, rfl, hb.comb, by simp [Val.terms, hb.terms]⟩
    rw [if_neg h1, if_neg (by simp [Val.isZero])]
    by_cases h3 : (isNeg v.trySign && isPos (Val.calc b).trySign) = true
    · rw [if_pos h3]
      cases b with
      | sum _ _ => exact hb.elim
      | value w =>
        obtain ⟨r, hr, hc, ht⟩ := addInh_lits w v hb hl 0
        exact ⟨r, by cases v <;> first | exact hr | exact hl.elim, hc, ht⟩
      | _ =>
        refine ⟨.calc (.sum _ v.toCalc), by cases v <;> first | rfl | exact hl.elim, ?_, ?_⟩
        · rw [hl.toCalc, Val.Comb, Calc.Comb]
          exact ⟨hb, hl⟩
        · rw [hl.toCalc]; simp [Val.terms, Calc.terms]
    · rw [if_neg h3]
      cases b with
      | sum _ _ => exact hb.elim
      | value w =>
        obtain ⟨r, hr, hc, ht⟩ := addInh_lits v w hl hb 0
        exact ⟨r, by cases v <;> first | exact hr | exact hl.elim, hc, ht⟩
      | _ =>
        refine ⟨.calc (.sum v.toCalc _), by cases v <;> first | rfl | exact hl.elim, ?_, ?_⟩
        · rw [hl.toCalc, Val.Comb, Calc.Comb]
          exact ⟨hl, hb⟩
        · rw [hl.toCalc]; simp [Val.terms, Calc.terms]
  · cases v with
    | dim _ _ => exact absurd trivial hl
    | pct _ => exact absurd trivial hl
    | «calc» c =>
      by_cases hsw : (isNeg (Val.calc c).trySign && isPos (Val.calc b).trySign) = true
      · have hs := hsw
        simp only [Bool.and_eq_true, Val.trySign] at hs
        have hat := sign_atom (c := c) hv (isNeg_isSome hs.1)
        obtain ⟨r, hr, hc, ht⟩ := calcAdd_atoms b c hb hat 0
        refine ⟨4, .calc r, ?_, hc, ?_⟩
        · rw [addInh_succ, if_neg (by simp [Val.isZero]), if_neg (by simp [Val.isZero]), if_pos hsw, join]
          simp only [hr, Option.bind_eq_bind, Option.bind_some]
        · simp only [Val.terms]; rw [hat.terms]; exact ht
      · obtain ⟨n, r, hr, hc, ht⟩ := ih c rfl
        refine ⟨n + 1, .calc r, ?_, hc, ht⟩
        rw [addInh_succ, if_neg (by simp [Val.isZero]), if_neg (by simp [Val.isZero]), if_neg hsw, join]
        simp only [hr, Option.bind_eq_bind, Option.bind_some]

/-- Looking for a term that a literal can be added to ends. -/
theorem addRec_comb (v : Val K) (hv : v.Lit) : ∀ x : Calc K, x.Comb →
    (∀ c b : Calc K, c.Comb → b.Atom → c.terms < x.terms → Ends c b) →
    ∃ n o, addRec n (.calc x) v = some o ∧ ∀ r, o = some r → r.Comb ∧ r.terms ≤ x.terms := by
  intro x
  induction x using Calc.terms.induct with
  | case2 c hns =>
    intro hc ih
    cases c with
    | sum a b => exact absurd rfl (hns a b)
    | value w =>
      obtain ⟨o, ho, hl⟩ := addRec_lits w v hc hv 0
      refine ⟨2, o, by rw [addRec]; exact ho, fun r hr => ⟨(hl r hr).comb, ?_⟩⟩
      rw [(hl r hr).terms]; simp [Calc.terms]
    | number _ => exact ⟨1, none, by cases v <;> first | rfl | exact hv.elim, by simp⟩
    | product _ _ => exact ⟨1, none, by cases v <;> first | rfl | exact hv.elim, by simp⟩
    | func _ => exact ⟨1, none, by cases v <;> first | rfl | exact hv.elim, by simp⟩
  | case1 a b iha ihb =>
    intro hc ih
    simp only [Calc.Comb] at hc
    have hbt := hc.2.terms
    obtain ⟨n, o, ho, hr⟩ := iha hc.1 fun c d h1 h2 h3 => ih c d h1 h2 (by simp only [Calc.terms]; omega)
    cases o with
    | some res =>
      obtain ⟨h1, h2⟩ := hr res rfl
      obtain ⟨m, r, hr', hc', ht⟩ := addInh_val_atom res b h1 hc.2 fun c he => ih c b (by subst he; exact h1) hc.2 (by
        subst he; simp only [Val.terms, Calc.terms] at h2 ⊢; omega)
      refine ⟨max n m + 1, some r, ?_, fun r' hr => ?_⟩
      · rw [addRec]
        rw [(mono_le (le_max_left n m)).2.1 _ _ _ ho]
        simp only [Option.bind_eq_bind, Option.bind_some]
        rw [(mono_le (le_max_right n m)).2.2.1 _ _ _ hr']
        rfl
      · simp only [Option.some.injEq] at hr
        subst hr
        refine ⟨hc', ?_⟩
        simp only [Calc.terms]; omega
    | none =>
      obtain ⟨m, o2, ho2, hr2⟩ := ihb hc.2.comb fun c d h1 h2 h3 => by
        have := terms_pos c
        omega
      cases o2 with
      | none =>
        refine ⟨max n m + 1, none, ?_, by simp⟩
        rw [addRec]
        rw [(mono_le (le_max_left n m)).2.1 _ _ _ ho]
        simp only [Option.bind_eq_bind, Option.bind_some]
        rw [(mono_le (le_max_right n m)).2.1 _ _ _ ho2]
        rfl
      | some res =>
        have hlit : res.Lit := by
          cases b with
          | sum _ _ => exact hc.2.elim
          | value w =>
            obtain ⟨o, ho, hl⟩ := addRec_lits w v hc.2 hv m
            have h2 := (mono_le (Nat.le_add_right m 2)).2.1 _ _ _ ho2
            rw [addRec] at h2
            rw [h2] at ho
            simp only [Option.some.injEq] at ho
            exact hl res ho.symm
          | _ =>
            have h2 := (mono_le (Nat.le_add_right m 1)).2.1 _ _ _ ho2
            cases v <;> first | (simp [addRec] at h2) | exact hv.elim
        obtain ⟨r, hr', hc', ht⟩ := addInh_calc_lit a res hc.1 hlit (max n m)
        refine ⟨max n m + 3, some r, ?_, fun r' hr => ?_⟩
        · rw [addRec]
          rw [(mono_le (show n ≤ max n m + 2 by omega)).2.1 _ _ _ ho]
          simp only [Option.bind_eq_bind, Option.bind_some]
          rw [(mono_le (show m ≤ max n m + 2 by omega)).2.1 _ _ _ ho2]
          simp only [Option.bind_some]
          rw [hr']
          rfl
        · simp only [Option.some.injEq] at hr
          subst hr
          refine ⟨hc', ?_⟩
          simp only [Calc.terms]; omega

/-- Adding a term that is not a sum to a left sum ends, and gives a left sum. -/
theorem calcAdd_ends : ∀ (k : Nat) (x y : Calc K), x.terms = k → x.Comb → y.Atom → Ends x y := by
  intro k
  induction k using Nat.strongRecOn with
  | ind k ih =>
    intro x y hk hx hy
    by_cases hs : ∃ a b, x = .sum a b
    · obtain ⟨a, b, rfl⟩ := hs
      have hx' := hx
      simp only [Calc.Comb] at hx'
      have sum : ∃ r, some (Calc.sum (.sum a b) y) = some r ∧ r.Comb ∧ r.terms ≤ (Calc.sum a b).terms + 1 := ⟨.sum (.sum a b) y, rfl, by rw [Calc.Comb]; exact ⟨hx, hy⟩, by
        rw [Calc.terms, hy.terms]⟩
      cases y with
      | sum _ _ => exact hy.elim
      | number c =>
        refine ⟨1, ?_⟩
        rw [calcAdd.eq_def]
        simp only
        split
        · refine ⟨_, rfl, by rw [Calc.Comb]; exact ⟨trivial, hx'.2⟩, ?_⟩
          simp only [Calc.terms]; omega
        · refine ⟨_, rfl, by rw [Calc.Comb]; exact ⟨hx'.1, trivial⟩, ?_⟩
          simp only [Calc.terms]; omega
        · exact sum
      | product _ _ => exact ⟨1, sum⟩
      | func _ => exact ⟨1, sum⟩
      | value v =>
        obtain ⟨n, o, ho, hr⟩ := addRec_comb v hy (.sum a b) hx fun c d hc hd hlt =>
          ih c.terms (by omega) c d rfl hc hd
        cases o with
        | some r =>
          obtain ⟨h1, h2⟩ := hr r rfl
          refine ⟨n + 2, r.toCalc, ?_, toCalc_comb h1, by rw [toCalc_terms]; omega⟩
          have e : calcAdd (n + 2) (.sum a b) (.value v) =
            (do some (← addInternal (n + 1) (.calc (.sum a b)) v).toCalc) := rfl
          rw [e, addInternal, ho]; rfl
        | none =>
          obtain ⟨r, hr, hc, ht⟩ := addInh_calc_lit (.sum a b) v hx hy n
          refine ⟨n + 4, r.toCalc, ?_, toCalc_comb hc, by rw [toCalc_terms]; omega⟩
          have e : calcAdd (n + 4) (.sum a b) (.value v) =
            (do some (← addInternal (n + 3) (.calc (.sum a b)) v).toCalc) := rfl
          rw [e, addInternal, (mono_le (Nat.le_add_right n 2)).2.1 _ _ _ ho]
          simp only [Option.bind_eq_bind, Option.bind_some]
          rw [hr]; rfl
    · have hat := hx.atom fun a b h => hs ⟨a, b, h⟩
      obtain ⟨r, hr, hc, ht⟩ := calcAdd_atoms x y hat hy 0
      exact ⟨_, r, hr, hc, by rw [hat.terms]; exact ht⟩

/-! ### Whole expressions -/

/-- The same result, or none yet. -/
def Res.Le {α : Type} (r r' : Res α) : Prop := r = .loops ∨ r = r'

theorem Res.Le.bind {α β : Type} {r r' : Res α} {f f' : α → Res β} (h : r.Le r') (hf : ∀ a, (f a).Le (f' a)) :
    (r.bind f).Le (r'.bind f') := by
  rcases h with rfl | rfl
  · exact .inl rfl
  · cases r with
    | ok a => exact hf a
    | err => exact .inr rfl
    | loops => exact .inl rfl

theorem Res.Le.refl {α : Type} (r : Res α) : r.Le r := .inr rfl

theorem Res.ofFuel_le {α : Type} {o o' : Option α} (h : ∀ a, o = some a → o' = some a) :
    (Res.ofFuel o).Le (Res.ofFuel o') := by
  cases o with
  | none => exact .inl rfl
  | some a => rw [h a rfl]; exact .inr rfl

mutual
/-- With more calls allowed, a result stays the same. -/
theorem parse_mono {n m : Nat} (h : n ≤ m) : ∀ s : Src K, (s.parse sqrt n).Le (s.parse sqrt m)
  | .num _ | .dim _ _ | .pct _ => by simp only [Src.parse]; exact .refl _
  | .add a b => by
    simp only [Src.parse]
    exact (parse_mono h a).bind fun x => (parse_mono h b).bind fun y =>
      Res.ofFuel_le fun r hr => (mono_le h).2.2.2 _ _ _ hr
  | .sub a b => by
    simp only [Src.parse]
    exact (parse_mono h a).bind fun x => (parse_mono h b).bind fun y =>
      Res.ofFuel_le fun r hr => (mono_le h).2.2.2 _ _ _ hr
  | .mul a b | .div a b | .round _ a b | .rem a b | .mod a b => by
    simp only [Src.parse]
    exact (parse_mono h a).bind fun x => (parse_mono h b).bind fun y => .refl _
  | .calc a => by simp only [Src.parse]; exact parse_mono h a
  | .min l | .max l | .hypot l => by
    simp only [Src.parse]
    exact (parseArgs_mono h l).bind fun x => .refl _
  | .clamp a b c => by
    simp only [Src.parse]
    exact (parse_mono h a).bind fun x => (parse_mono h b).bind fun y => (parse_mono h c).bind fun z => .refl _
  | .abs a | .sign a => by
    simp only [Src.parse]
    exact (parse_mono h a).bind fun x => .refl _
theorem parseArgs_mono {n m : Nat} (h : n ≤ m) : ∀ l : List (Src K), (parseArgs sqrt n l).Le (parseArgs sqrt m l)
  | [] => by simp only [parseArgs]; exact .refl _
  | a :: l => by
    simp only [parseArgs]
    exact (parse_mono h a).bind fun x => (parseArgs_mono h l).bind fun y => .refl _
end

/-- Certainly not a sum: a literal, a function, or a product of such. -/
def Src.atomic : Src K → Bool
  | .add _ _ | .sub _ _ => false
  | .mul a b => a.atomic && b.atomic
  | .div a _ | .calc a => a.atomic
  | .min [a] | .max [a] | .hypot [a] => a.atomic
  | _ => true

mutual
/-- No sum in parentheses is the right operand of `+` or `-`. -/
def Src.Flat : Src K → Prop
  | .num _ | .dim _ _ | .pct _ => True
  | .add a b | .sub a b => a.Flat ∧ b.Flat ∧ b.atomic = true
  | .mul a b | .div a b | .round _ a b | .rem a b | .mod a b => a.Flat ∧ b.Flat
  | .calc a | .abs a | .sign a => a.Flat
  | .min l | .max l | .hypot l => FlatArgs l
  | .clamp a b c => a.Flat ∧ b.Flat ∧ c.Flat
/-- The same for arguments. -/
def FlatArgs : List (Src K) → Prop
  | [] => True
  | a :: l => a.Flat ∧ FlatArgs l
end

theorem Calc.Atom.mul {c : Calc K} (h : c.Atom) (k : K) : (c.mul k).Atom := by
  cases c with
  | sum _ _ => exact h.elim
  | value v =>
    simp only [Calc.mul]
    split
    · exact h
    · exact Val.Lit.mul h k
  | number x => simp only [Calc.mul]; split <;> trivial
  | product x c =>
    simp only [Calc.mul]
    split
    · exact h
    · split
      · cases c <;> simp_all [Calc.Atom, Calc.IsFunc]
      · exact h
  | func f =>
    cases f with
    | «calc» c => simp only [Calc.mul]; split <;> trivial
    | _ => simp only [Calc.mul]; split <;> trivial

theorem Calc.Comb.mul (k : K) : ∀ {c : Calc K}, c.Comb → (c.mul k).Comb := by
  intro c
  induction c using Calc.terms.induct with
  | case1 a b iha ihb =>
    intro h
    rw [Calc.Comb] at h
    simp only [Calc.mul]
    split
    · rw [Calc.Comb]; exact h
    · rw [Calc.Comb]; exact ⟨iha h.1, h.2.mul k⟩
  | case2 c hns =>
    intro h
    exact ((h.atom hns).mul k).comb

theorem Calc.Leaf.atom {c : Calc K} (h : c.Leaf) : c.Atom := by
  unfold Calc.Leaf at h
  split at h <;> first | trivial | exact h.elim

theorem Calc.One.atom {c : Calc K} (h : c.One) : c.Atom := by
  unfold Calc.One at h
  split at h <;> first | trivial | exact h.elim

/-- What is to be shown of an expression. -/
def ParseEnds (sqrt : K → K) (s : Src K) : Prop :=
  ∃ n, s.parse sqrt n ≠ .loops ∧ ∀ c, s.parse sqrt n = .ok c → c.Comb ∧ (s.atomic = true → c.Atom)

theorem ParseEnds.at {s : Src K} {n m : Nat} (h : n ≤ m) (h1 : s.parse sqrt n ≠ .loops) :
    s.parse sqrt m = s.parse sqrt n := by
  rcases parse_mono h s with h | h
  · exact absurd h h1
  · exact h.symm

/-- Two operands at once. -/
theorem two_end {a b : Src K} (ha : ParseEnds sqrt a) (hb : ParseEnds sqrt b) :
    ∃ n, (∃ r, r ≠ Res.loops ∧ a.parse sqrt n = r ∧ ∀ c, r = .ok c → c.Comb ∧ (a.atomic = true → c.Atom)) ∧
      (∃ r, r ≠ Res.loops ∧ b.parse sqrt n = r ∧ ∀ c, r = .ok c → c.Comb ∧ (b.atomic = true → c.Atom)) := by
  obtain ⟨n, h1, h2⟩ := ha
  obtain ⟨m, h3, h4⟩ := hb
  exact ⟨max n m, ⟨_, h1, ParseEnds.at (le_max_left n m) h1, h2⟩, ⟨_, h3, ParseEnds.at (le_max_right n m) h3, h4⟩⟩

theorem add_ends {a b : Src K} (s : Src K) (k : Calc K → Calc K) (hk : ∀ c, c.Atom → (k c).Atom)
    (hs : ∀ n, s.parse sqrt n = (a.parse sqrt n).bind fun a => (b.parse sqrt n).bind fun b =>
      .ofFuel (calcAdd n a (k b)))
    (hat : s.atomic = false) (hb1 : b.atomic = true)
    (ha : ParseEnds sqrt a) (hb : ParseEnds sqrt b) : ParseEnds sqrt s := by
  obtain ⟨n, ⟨r, hr, he, hc⟩, ⟨r', hr', he', hc'⟩⟩ := two_end ha hb
  cases r with
  | loops => exact absurd rfl hr
  | err => exact ⟨n, by rw [hs, he]; simp [Res.bind], by rw [hs, he]; simp [Res.bind]⟩
  | ok x =>
    cases r' with
    | loops => exact absurd rfl hr'
    | err => exact ⟨n, by rw [hs, he, he']; simp [Res.bind], by rw [hs, he, he']; simp [Res.bind]⟩
    | ok y =>
      obtain ⟨m, z, hz, hzc, _⟩ := calcAdd_ends _ x (k y) rfl (hc x rfl).1 (hk y ((hc' y rfl).2 hb1))
      have e : s.parse sqrt (max n m) = .ok z := by
        rw [hs, ParseEnds.at (le_max_left n m) (by rw [he]; simp), he,
          ParseEnds.at (le_max_left n m) (by rw [he']; simp), he']
        simp only [Res.bind, (mono_le (le_max_right n m)).2.2.2 _ _ _ hz, Res.ofFuel]
      refine ⟨max n m, by rw [e]; simp, fun c h => ?_⟩
      rw [e] at h
      simp only [Res.ok.injEq] at h
      subst h
      exact ⟨hzc, by simp [hat]⟩

/-- A function of two operands that makes no calls. -/
theorem op_ends {a b : Src K} (s : Src K) (f : Calc K → Calc K → Res (Calc K))
    (hs : ∀ n, s.parse sqrt n = (a.parse sqrt n).bind fun a => (b.parse sqrt n).bind fun b => f a b)
    (hf : ∀ x y, f x y ≠ .loops)
    (hc : ∀ x y z, x.Comb → (a.atomic = true → x.Atom) → y.Comb → (b.atomic = true → y.Atom) → f x y = .ok z →
      z.Comb ∧ (s.atomic = true → z.Atom))
    (ha : ParseEnds sqrt a) (hb : ParseEnds sqrt b) : ParseEnds sqrt s := by
  obtain ⟨n, ⟨r, hr, he, h⟩, ⟨r', hr', he', h'⟩⟩ := two_end ha hb
  refine ⟨n, ?_, ?_⟩ <;> rw [hs, he, he']
  · cases r with
    | loops => exact absurd rfl hr
    | err => simp [Res.bind]
    | ok x =>
      cases r' with
      | loops => exact absurd rfl hr'
      | err => simp [Res.bind]
      | ok y => exact hf x y
  · intro c hz
    obtain ⟨x, hx, hz1⟩ := Res.bind_ok hz
    obtain ⟨y, hy, hz2⟩ := Res.bind_ok hz1
    exact hc x y c (h x hx).1 (h x hx).2 (h' y hy).1 (h' y hy).2 hz2

/-- The same for one operand. -/
theorem map_ends {a : Src K} (s : Src K) (f : Calc K → Res (Calc K))
    (hs : ∀ n, s.parse sqrt n = (a.parse sqrt n).bind f)
    (hf : ∀ x, f x ≠ .loops)
    (hc : ∀ x z, x.Comb → (a.atomic = true → x.Atom) → f x = .ok z → z.Comb ∧ (s.atomic = true → z.Atom))
    (ha : ParseEnds sqrt a) : ParseEnds sqrt s := by
  obtain ⟨n, h1, h2⟩ := ha
  refine ⟨n, ?_, ?_⟩ <;> rw [hs]
  · cases h : a.parse sqrt n with
    | loops => exact absurd h h1
    | err => simp [Res.bind]
    | ok x => exact hf x
  · intro c hz
    obtain ⟨x, hx, hz⟩ := Res.bind_ok hz
    exact hc x c (h2 x hx).1 (h2 x hx).2 hz

/-- What is to be shown of arguments. -/
def ArgsEnd (sqrt : K → K) (l : List (Src K)) : Prop :=
  ∃ n, parseArgs sqrt n l ≠ .loops ∧ ∀ cs, parseArgs sqrt n l = .ok cs →
    List.Forall₂ (fun (s : Src K) (c : Calc K) => c.Comb ∧ (s.atomic = true → c.Atom)) l cs

theorem args_ends {l : List (Src K)} (s : Src K) (f : List (Calc K) → Calc K)
    (hs : ∀ n, s.parse sqrt n = (parseArgs sqrt n l).bind fun l => .ok (f l))
    (hc : ∀ cs, (∀ c, cs = [c] → f cs = c ∨ (f cs).Atom) ∧ (cs.length ≠ 1 → (f cs).Atom))
    (hat : ∀ a, l = [a] → s.atomic = a.atomic)
    (h : ArgsEnd sqrt l) : ParseEnds sqrt s := by
  obtain ⟨n, h1, h2⟩ := h
  refine ⟨n, ?_, ?_⟩ <;> rw [hs]
  · cases h : parseArgs sqrt n l with
    | loops => exact absurd h h1
    | err => simp [Res.bind]
    | ok x => simp [Res.bind]
  · intro c hz
    obtain ⟨x, hx, hz⟩ := Res.bind_ok hz
    simp only [Res.ok.injEq] at hz
    subst hz
    have hall := h2 x hx
    by_cases hl : x.length = 1
    · match x, hl with
      | [d], _ =>
        rcases (hc [d]).1 d rfl with he | he
        · cases hall with
          | @cons a _ l' _ hd ht =>
            cases ht
            rw [he]
            exact ⟨hd.1, fun hh => hd.2 (by rw [← hat a rfl]; exact hh)⟩
        · exact ⟨he.comb, fun _ => he⟩
    · have := (hc x).2 hl
      exact ⟨this.comb, fun _ => this⟩

mutual
/-- An expression in which no sum in parentheses is the right operand of `+` or `-` is parsed in
finitely many calls. -/
theorem flat_parse_ends : ∀ s : Src K, s.Flat → ParseEnds sqrt s
  | .num x, _ => ⟨0, by simp [Src.parse], by simp [Src.parse, Calc.Comb, Calc.Atom]⟩
  | .dim u x, _ => ⟨0, by simp [Src.parse], by simp [Src.parse, Calc.Comb, Calc.Atom, Val.Lit]⟩
  | .pct x, _ => ⟨0, by simp [Src.parse], by simp [Src.parse, Calc.Comb, Calc.Atom, Val.Lit]⟩
  | .add a b, h => by
    simp only [Src.Flat] at h
    exact add_ends (a := a) (b := b) _ id (fun _ h => h) (fun n => by simp only [Src.parse, id]) rfl h.2.2
      (flat_parse_ends a h.1) (flat_parse_ends b h.2.1)
  | .sub a b, h => by
    simp only [Src.Flat] at h
    exact add_ends (a := a) (b := b) _ (Calc.mul (-1)) (fun _ h => h.mul _) (fun n => by simp only [Src.parse])
      rfl h.2.2 (flat_parse_ends a h.1) (flat_parse_ends b h.2.1)
  | .mul a b, h => by
    simp only [Src.Flat] at h
    refine op_ends (a := a) (b := b) _ mkMul (fun n => by simp only [Src.parse]) ?_ ?_
      (flat_parse_ends a h.1) (flat_parse_ends b h.2)
    · intro x y
      unfold mkMul
      split
      · simp
      · split <;> simp
    · intro x y z hx hxa hy hya he
      simp only [Src.atomic, Bool.and_eq_true]
      unfold mkMul at he
      split at he
      · simp only [Res.ok.injEq] at he; subst he
        exact ⟨hx.mul _, fun h => (hxa h.1).mul _⟩
      · split at he
        · simp only [Res.ok.injEq] at he; subst he
          exact ⟨hy.mul _, fun h => (hya h.2).mul _⟩
        · cases he
  | .div a b, h => by
    simp only [Src.Flat] at h
    refine op_ends (a := a) (b := b) _ mkDiv (fun n => by simp only [Src.parse]) ?_ ?_
      (flat_parse_ends a h.1) (flat_parse_ends b h.2)
    · intro x y
      unfold mkDiv
      split
      · split <;> simp
      · simp
    · intro x y z hx hxa hy hya he
      simp only [Src.atomic]
      unfold mkDiv at he
      split at he
      · split at he
        · cases he
        · simp only [Res.ok.injEq] at he; subst he
          exact ⟨hx.mul _, fun h => (hxa h).mul _⟩
      · cases he
  | .calc a, h => by
    simp only [Src.Flat] at h
    obtain ⟨n, h1, h2⟩ := flat_parse_ends a h
    exact ⟨n, by simpa only [Src.parse] using h1, by simpa only [Src.parse, Src.atomic] using h2⟩
  | .round st a b, h => by
    simp only [Src.Flat] at h
    refine op_ends (a := a) (b := b) _ (fun a b => .ok ((applyOp (round st) a b).getD (.func (.round st a b))))
      (fun n => by simp only [Src.parse]) (by simp) ?_ (flat_parse_ends a h.1) (flat_parse_ends b h.2)
    intro x y z _ _ _ _ he
    simp only [Res.ok.injEq] at he
    subst he
    have : ((applyOp (round st) x y).getD (.func (.round st x y))).Atom := by
      cases ho : applyOp (round st) x y with
      | some r => exact (applyOp_leaf _ _ _ _ ho).atom
      | none => trivial
    exact ⟨this.comb, fun _ => this⟩
  | .rem a b, h => by
    simp only [Src.Flat] at h
    refine op_ends (a := a) (b := b) _ (fun a b => .ok ((applyOp frem a b).getD (.func (.rem a b))))
      (fun n => by simp only [Src.parse]) (by simp) ?_ (flat_parse_ends a h.1) (flat_parse_ends b h.2)
    intro x y z _ _ _ _ he
    simp only [Res.ok.injEq] at he
    subst he
    have : ((applyOp frem x y).getD (.func (.rem x y))).Atom := by
      cases ho : applyOp frem x y with
      | some r => exact (applyOp_leaf _ _ _ _ ho).atom
      | none => trivial
    exact ⟨this.comb, fun _ => this⟩
  | .mod a b, h => by
    simp only [Src.Flat] at h
    refine op_ends (a := a) (b := b) _ (fun a b => .ok ((applyOp modulo a b).getD (.func (.mod a b))))
      (fun n => by simp only [Src.parse]) (by simp) ?_ (flat_parse_ends a h.1) (flat_parse_ends b h.2)
    intro x y z _ _ _ _ he
    simp only [Res.ok.injEq] at he
    subst he
    have : ((applyOp modulo x y).getD (.func (.mod x y))).Atom := by
      cases ho : applyOp modulo x y with
      | some r => exact (applyOp_leaf _ _ _ _ ho).atom
      | none => trivial
    exact ⟨this.comb, fun _ => this⟩
  | .abs a, h => by
    simp only [Src.Flat] at h
    refine map_ends (a := a) _ (fun a => .ok ((applyMap (fun x => |x|) a).getD (.func (.abs a))))
      (fun n => by simp only [Src.parse]) (by simp) ?_ (flat_parse_ends a h)
    intro x z _ _ he
    simp only [Res.ok.injEq] at he
    subst he
    have : ((applyMap (fun x => |x|) x).getD (.func (.abs x))).Atom := by
      cases ho : applyMap (fun x => |x|) x with
      | some r => exact (applyMap_leaf _ _ _ ho).atom
      | none => trivial
    exact ⟨this.comb, fun _ => this⟩
  | .sign a, h => by
    simp only [Src.Flat] at h
    refine map_ends (a := a) _ (fun a => .ok (mkSign a)) (fun n => by simp only [Src.parse]) (by simp) ?_
      (flat_parse_ends a h)
    intro x z _ _ he
    simp only [Res.ok.injEq] at he
    subst he
    have : (mkSign x).Atom := by unfold mkSign; split <;> trivial
    exact ⟨this.comb, fun _ => this⟩
  | .clamp a b c, h => by
    simp only [Src.Flat] at h
    obtain ⟨n, ⟨r, hr, he, h1⟩, ⟨r', hr', he', h1'⟩⟩ := two_end (flat_parse_ends a h.1) (flat_parse_ends b h.2.1)
    obtain ⟨m, h2, h3⟩ := flat_parse_ends c h.2.2
    refine ⟨max n m, ?_, ?_⟩ <;>
      rw [Src.parse, ParseEnds.at (le_max_left n m) (by rw [he]; exact hr),
        ParseEnds.at (le_max_left n m) (by rw [he']; exact hr'), ParseEnds.at (le_max_right n m) h2, he, he']
    · cases r with
      | loops => exact absurd rfl hr
      | err => simp [Res.bind]
      | ok x =>
        cases r' with
        | loops => exact absurd rfl hr'
        | err => simp [Res.bind]
        | ok y =>
          cases hz : c.parse sqrt m with
          | loops => exact absurd hz h2
          | err => simp [Res.bind]
          | ok z => simp [Res.bind]
    · intro d hd
      obtain ⟨x, hx, hd1⟩ := Res.bind_ok hd
      obtain ⟨y, hy, hd2⟩ := Res.bind_ok hd1
      obtain ⟨z, hz, hd3⟩ := Res.bind_ok hd2
      simp only [Res.ok.injEq] at hd3
      subst hd3
      have := (mkClamp_one x y z).atom
      exact ⟨this.comb, fun _ => this⟩
  | .min l, h => by
    simp only [Src.Flat] at h
    refine args_ends (l := l) _ (mkMinMax .min .lt) (fun n => by simp only [Src.parse]) ?_ ?_ (flat_args_end l h)
    · intro cs
      refine ⟨?_, fun hl => (mkMinMax_one _ _ _ hl).atom⟩
      rintro c rfl
      left
      simp [mkMinMax, reduceArgs, reduceInto]
    · rintro a rfl; simp only [Src.atomic]
  | .max l, h => by
    simp only [Src.Flat] at h
    refine args_ends (l := l) _ (mkMinMax .max .gt) (fun n => by simp only [Src.parse]) ?_ ?_ (flat_args_end l h)
    · intro cs
      refine ⟨?_, fun hl => (mkMinMax_one _ _ _ hl).atom⟩
      rintro c rfl
      left
      simp [mkMinMax, reduceArgs, reduceInto]
    · rintro a rfl; simp only [Src.atomic]
  | .hypot l, h => by
    simp only [Src.Flat] at h
    refine args_ends (l := l) _ (mkHypot sqrt) (fun n => by simp only [Src.parse]) ?_ ?_ (flat_args_end l h)
    · intro cs
      refine ⟨?_, fun hl => ?_⟩
      · rintro c rfl
        left
        simp [mkHypot, parseHypot]
      · unfold mkHypot
        cases ho : parseHypot sqrt cs with
        | some r =>
          rcases parseHypot_leaf _ _ ho with hr | hr
          · rw [hr] at hl; simp at hl
          · exact hr.atom
        | none => trivial
    · rintro a rfl; simp only [Src.atomic]
theorem flat_args_end : ∀ l : List (Src K), FlatArgs l → ArgsEnd sqrt l
  | [], _ => ⟨0, by simp [parseArgs], by simp [parseArgs]⟩
  | a :: l, h => by
    simp only [FlatArgs] at h
    obtain ⟨n, h1, h2⟩ := flat_parse_ends a h.1
    obtain ⟨m, h3, h4⟩ := flat_args_end l h.2
    have e1 := ParseEnds.at (le_max_left n m) h1
    have e2 : parseArgs sqrt (max n m) l = parseArgs sqrt m l := by
      rcases (parseArgs_mono (le_max_right n m) l : (parseArgs sqrt m l).Le _) with h | h
      · exact absurd h h3
      · exact h.symm
    refine ⟨max n m, ?_, ?_⟩ <;> rw [parseArgs, e1, e2]
    · cases hx : a.parse sqrt n with
      | loops => exact absurd hx h1
      | err => simp [Res.bind]
      | ok x =>
        cases hy : parseArgs sqrt m l with
        | loops => exact absurd hy h3
        | err => simp [Res.bind]
        | ok y => simp [Res.bind]
    · intro cs hcs
      obtain ⟨x, hx, hcs⟩ := Res.bind_ok hcs
      obtain ⟨y, hy, hcs⟩ := Res.bind_ok hcs
      simp only [Res.ok.injEq] at hcs
      subst hcs
      exact .cons (h2 x hx) (h4 y hy)
end

/-- **C59** A property value in which no sum in parentheses is the right operand of `+` or `-` is accepted
or rejected after finitely many calls, and more calls would not change the result. Missing: sums in
parentheses on the right, for which the code can run for ever (`sum_of_sums_never_ends`). -/
theorem parse_ends_partial (s : Src K) (h : s.Flat) :
    ∃ n, ∃ r : Res (Val K), r ≠ .loops ∧ ∀ m, n ≤ m → s.parseVal sqrt m = r := by
  obtain ⟨n, h1, _⟩ := flat_parse_ends (sqrt := sqrt) s h
  have hfn : ∀ m, n ≤ m → s.parseFn sqrt m = s.parseFn sqrt n ∧ s.parseFn sqrt n ≠ .loops := by
    intro m hm
    unfold Src.parseFn
    split
    · simp only [Src.parse] at h1
      rw [ParseEnds.at hm h1]
      refine ⟨rfl, ?_⟩
      rename_i a _
      cases hx : Src.parse sqrt n a with
      | loops => exact absurd hx h1
      | err => simp [Res.bind]
      | ok x => simp [Res.bind]
    · exact ⟨ParseEnds.at hm h1, h1⟩
  refine ⟨n, s.parseVal sqrt n, ?_, fun m hm => ?_⟩
  · have := (hfn n (le_refl _)).2
    unfold Src.parseVal
    split
    · simp
    · simp
    · simp
    · split
      · cases hx : s.parseFn sqrt n with
        | loops => exact absurd hx this
        | err => simp [Res.bind]
        | ok c => simp only [Res.bind]; split <;> simp
      · simp
  · have := (hfn m hm).1
    unfold Src.parseVal
    split
    · rfl
    · rfl
    · rfl
    · split
      · rw [this]
      · rfl

/-- `min(1px, calc((2em + 10%) - 3px * 2))` -/
example : (Src.min [px 1, .calc (.sub (.add (.dim (.rel 0) 2) (.pct (1 / 10))) (.mul (px 3) (.num 2)))]).Flat := by
  simp [Src.Flat, FlatArgs, Src.atomic, px]

end Verif.MathFn
