import Verif.Media.CustomModel
namespace Verif.Media

mutual
theorem expand_mono (env : CmEnv) (k : Nat) (c c' : Cond) (h : expand env k c = some c') :
    expand env (k + 1) c = some c' := by
  match c with
  | .not c =>
    unfold expand at h ⊢
    cases hc : expand env k c with
    | none => simp [hc] at h
    | some x => rw [expand_mono env k c x hc]; simpa [hc] using h
  | .op o cs =>
    unfold expand at h ⊢
    cases hc : expandAll env k cs with
    | none => simp [hc] at h
    | some x => rw [expandAll_mono env k cs x hc]; simpa [hc] using h
  | .unknown _ => unfold expand at h ⊢; exact h
  | .feature (.boolean (.custom n)) =>
    match k with
    | 0 => unfold expand at h; simp at h
    | k + 1 =>
      unfold expand at h ⊢
      dsimp only at h ⊢
      cases hg : env.get n with
      | none => simp [hg] at h
      | some qs =>
        simp only [hg] at h ⊢
        cases hc : expandAll env k (qs.filterMap (·.cond)) with
        | none => simp [hc] at h
        | some x => rw [expandAll_mono env k _ x hc]; simpa [hc] using h
  | .feature (.boolean (.standard n)) => unfold expand at h ⊢; exact h
  | .feature (.boolean (.unknown n)) => unfold expand at h ⊢; exact h
  | .feature (.plain _ _) => unfold expand at h ⊢; exact h
  | .feature (.range _ _ _) => unfold expand at h ⊢; exact h
  | .feature (.interval _ _ _ _ _) => unfold expand at h ⊢; exact h
termination_by (k, sizeOf c)
decreasing_by
  · exact Prod.Lex.right _ (by simp)
  · exact Prod.Lex.right _ (by simp; omega)
  · exact Prod.Lex.left _ _ (by omega)
theorem expandAll_mono (env : CmEnv) (k : Nat) (cs cs' : List Cond) (h : expandAll env k cs = some cs') :
    expandAll env (k + 1) cs = some cs' := by
  match cs with
  | [] => unfold expandAll at h ⊢; exact h
  | c :: cs =>
    unfold expandAll at h ⊢
    cases h1 : expand env k c with
    | none => simp [h1] at h
    | some x =>
      cases h2 : expandAll env k cs with
      | none => simp [h1, h2] at h
      | some y =>
        rw [expand_mono env k c x h1, expandAll_mono env k cs y h2]
        simpa [h1, h2] using h
termination_by (k, sizeOf cs)
decreasing_by
  all_goals exact Prod.Lex.right _ (by simp; omega)
end

theorem expand_mono' (env : CmEnv) (k j : Nat) (c c' : Cond) (hj : k ≤ j) (h : expand env k c = some c') :
    expand env j c = some c' := by
  obtain ⟨i, rfl⟩ := Nat.le.dest hj
  clear hj
  induction i with
  | zero => exact h
  | succ i ih => exact expand_mono _ _ _ _ ih

theorem expandAll_mono' (env : CmEnv) (k j : Nat) (c c' : List Cond) (hj : k ≤ j) (h : expandAll env k c = some c') :
    expandAll env j c = some c' := by
  obtain ⟨i, rfl⟩ := Nat.le.dest hj
  clear hj
  induction i with
  | zero => exact h
  | succ i ih => exact expandAll_mono _ _ _ _ ih

/-- The reference case of `process`, as an equation. -/
theorem process_ref (env : CmEnv) (seen : List Str) (st : CmState) (n : Str) :
    process env seen st (.feature (.boolean (.custom n))) =
      if seen.contains n then (.error (.circular n), st, .feature (.boolean (.custom n)))
      else match env.get n with
      | none => (.error (.notDefined n), st, .feature (.boolean (.custom n)))
      | some qs =>
        match processQueries env (n :: seen) st (.ok true) qs with
        | (.error e, st, _) => (.error e, st, .feature (.boolean (.custom n)))
        | (.ok _, st, []) => (.ok false, st, .feature (.boolean (.custom n)))
        | (.ok _, st, [c']) => (.ok true, st, c')
        | (.ok _, st, cs) => (.ok true, st, .op .or cs) := by
  rw [process]
  split
  · rfl
  · split
    · simp only [*]
    · simp only [*]
      rfl

/-- What is known when a condition fails to expand. -/
def FailReason (env : CmEnv) (seen : List Str) (ns : List Str) : Prop :=
  ∃ r ∈ ns, ∃ n, (r = n ∨ RefersPlus env r n) ∧ (env.get n = none ∨ RefersPlus env n n ∨ n ∈ seen)

theorem FailReason.mono {env seen ns ns'} (h : FailReason env seen ns) (hs : ∀ x ∈ ns, x ∈ ns') :
    FailReason env seen ns' := by
  obtain ⟨r, hr, rest⟩ := h
  exact ⟨r, hs r hr, rest⟩

/-- Conditions of the queries of a definition. -/
def queryConds (qs : List Query) : List Cond := qs.filterMap (·.cond)

theorem namesAll_mem (cs : List Cond) (n : Str) : n ∈ Cond.namesAll cs ↔ ∃ c ∈ cs, n ∈ c.names := by
  induction cs with
  | nil => simp [Cond.namesAll]
  | cons c cs ih => simp [Cond.namesAll, ih]

/-- Result of a list of conditions. -/
structure ListOk (env : CmEnv) (cs out : List Cond) : Prop where
  ex : ∃ k cs', expandAll env k cs = some cs' ∧ (∀ d, Cond.evalAll d out = Cond.evalAll d cs') ∧
    (∀ d, Cond.evalAny d out = Cond.evalAny d cs')
  names : Cond.namesAll out = []
  len : out.length = cs.length

/-- Result of a condition. -/
structure CondOk (env : CmEnv) (c out : Cond) : Prop where
  ex : ∃ k c', expand env k c = some c' ∧ ∀ d, out.eval d = c'.eval d
  names : out.names = []

theorem ListOk.nil (env : CmEnv) : ListOk env [] [] :=
  ⟨⟨0, [], by unfold expandAll; rfl, fun _ => rfl, fun _ => rfl⟩, rfl, rfl⟩

theorem ListOk.cons {env : CmEnv} {c out : Cond} {cs outs : List Cond} (h1 : CondOk env c out) (h2 : ListOk env cs outs) :
    ListOk env (c :: cs) (out :: outs) := by
  obtain ⟨⟨k, c', hc, he⟩, hn⟩ := h1
  obtain ⟨⟨j, cs', hcs, ha, ho⟩, hns, hl⟩ := h2
  refine ⟨⟨max k j, c' :: cs', ?_, ?_, ?_⟩, ?_, ?_⟩
  · unfold expandAll
    rw [expand_mono' env k _ c c' (by omega) hc, expandAll_mono' env j _ cs cs' (by omega) hcs]
  · intro d; simp [Cond.evalAll, he, ha]
  · intro d; simp [Cond.evalAny, he, ho]
  · simp [Cond.namesAll, hn, hns]
  · simp [hl]

theorem not_not (a : K3) : a.not.not = a := by cases a <;> rfl
theorem K3.or_f (a : K3) : a.or .f = a := by cases a <;> rfl

mutual
theorem process_spec (env : CmEnv) (hp : Plain env) (seen : List Str) (st : CmState) (c : Cond) :
    (process env seen st c).2.1 = st ∧
    (∀ u, (process env seen st c).1 = .ok u → u = true ∧ CondOk env c (process env seen st c).2.2) ∧
    (∀ e, (process env seen st c).1 = .error e → FailReason env seen c.names) := by
  match c with
  | .not c =>
    have ih := process_spec env hp seen st c
    unfold process
    rcases hr : process env seen st c with ⟨res, st', c'⟩
    rw [hr] at ih
    obtain ⟨h1, h2, h3⟩ := ih
    dsimp only at h1 h2 h3 ⊢
    match res with
    | .error e => exact ⟨h1, by simp, fun e he => by simpa [Cond.names] using h3 e he⟩
    | .ok u =>
      obtain ⟨rfl, ⟨k, x, hx, he⟩, hn⟩ := h2 u rfl
      refine ⟨h1, fun u hu => ⟨by simpa using hu.symm, ?_⟩, by simp⟩
      refine ⟨⟨k, .not x, by unfold expand; simp [hx], fun d => ?_⟩, ?_⟩
      · have := he d
        match c' with
        | .not i => simp only [Cond.eval] at this ⊢; rw [← this, not_not]
        | .feature _ => exact (congrArg K3.not this)
        | .op _ _ => exact (congrArg K3.not this)
        | .unknown _ => exact (congrArg K3.not this)
      · cases c' <;> simp_all [Cond.names]
  | .op o cs =>
    have ih := processOps_spec env hp seen st (.ok true) cs
    unfold process
    rcases hr : processOps env seen st (.ok true) cs with ⟨res, st', cs'⟩
    rw [hr] at ih
    obtain ⟨h1, h2, h3⟩ := ih
    dsimp only at h1 h2 h3 ⊢
    refine ⟨h1, fun u hu => ?_, fun e he => ?_⟩
    · obtain ⟨hu', ⟨k, x, hx, ha, ho⟩, hn, _⟩ := h2 u hu
      refine ⟨by simpa using hu'.symm, ⟨k, .op o x, by unfold expand; simp [hx], fun d => ?_⟩, by simpa [Cond.names] using hn⟩
      cases o <;> simp [Cond.eval, ha, ho]
    · rcases h3 e he with h | h
      · simp at h
      · simpa [Cond.names] using h
  | .unknown _ =>
    unfold process
    exact ⟨rfl, fun u hu => ⟨by simpa using hu.symm, ⟨0, _, by unfold expand; rfl, fun _ => rfl⟩, rfl⟩, by simp⟩
  | .feature (.boolean (.custom n)) =>
    unfold process
    by_cases hs : seen.contains n = true
    · rw [dif_pos hs]
      refine ⟨rfl, by simp, fun e _ => ⟨n, by simp [Cond.names], n, .inl rfl, .inr (.inr (by simpa using hs))⟩⟩
    · rw [dif_neg hs]
      split
      · next hg =>
        exact ⟨rfl, by simp, fun e _ => ⟨n, by simp [Cond.names], n, .inl rfl, .inl hg⟩⟩
      · next qs hg =>
        have hpl := hp n qs hg
        have ih := processQueries_spec env hp (n :: seen) st (.ok true) qs hpl.2
        rcases hr : processQueries env (n :: seen) st (.ok true) qs with ⟨res, st', cs'⟩
        rw [hr] at ih
        obtain ⟨h1, h2, h3⟩ := ih
        dsimp only at h1 h2 h3
        match res with
        | .error e =>
          refine ⟨h1, by simp, fun e' he => ?_⟩
          rcases h3 e rfl with h | ⟨r, hr, m, hm, hbad⟩
          · simp at h
          · rw [namesAll_mem] at hr
            obtain ⟨c, hc, hcn⟩ := hr
            simp only [queryConds, List.mem_filterMap] at hc
            obtain ⟨q, hq, hqc⟩ := hc
            have hrf : Refers env n r := ⟨qs, hg, q, hq, c, hqc, hcn⟩
            have hnm : RefersPlus env n m := by
              rcases hm with rfl | hm
              · exact .one hrf
              · exact .step hrf hm
            refine ⟨n, by simp [Cond.names], ?_⟩
            rcases hbad with h | h | h
            · exact ⟨m, .inr hnm, .inl h⟩
            · exact ⟨m, .inr hnm, .inr (.inl h)⟩
            · rcases List.mem_cons.1 h with rfl | h
              · exact ⟨m, .inl rfl, .inr (.inl hnm)⟩
              · exact ⟨m, .inr hnm, .inr (.inr h)⟩
        | .ok u =>
          obtain ⟨hu', ⟨k, x, hx, ha, ho⟩, hn, hlen⟩ := h2 u rfl
          have hne : cs' ≠ [] := by
            intro h
            subst h
            cases qs with
            | nil => exact hpl.1 rfl
            | cons q qs =>
              have := (hpl.2 q (by simp)).2.2
              cases hqc : q.cond with
              | none => exact this hqc
              | some c => simp [queryConds, hqc] at hlen
          have hex : expand env (k + 1) (.feature (.boolean (.custom n))) = some (.op .or x) := by
            unfold expand
            simp only [hg]
            rw [show qs.filterMap (·.cond) = queryConds qs from rfl, hx]
            rfl
          match cs', hne with
          | [c'], _ =>
            refine ⟨h1, fun u hu => ⟨by simpa using hu.symm, ⟨k+1, _, hex, fun d => ?_⟩, ?_⟩, by simp⟩
            · have := ho d
              simp only [Cond.evalAny, K3.or_f] at this
              simpa [Cond.eval] using this
            · simpa [Cond.namesAll] using hn
          | c1 :: c2 :: cs, _ =>
            refine ⟨h1, fun u hu => ⟨by simpa using hu.symm, ⟨k+1, _, hex, fun d => ?_⟩, ?_⟩, by simp⟩
            · simpa [Cond.eval] using ho d
            · simpa [Cond.names] using hn
  | .feature (.boolean (.standard n)) =>
    unfold process
    exact ⟨rfl, fun u hu => ⟨by simpa using hu.symm, ⟨0, _, by unfold expand; rfl, fun _ => rfl⟩, rfl⟩, by simp⟩
  | .feature (.boolean (.unknown n)) =>
    unfold process
    exact ⟨rfl, fun u hu => ⟨by simpa using hu.symm, ⟨0, _, by unfold expand; rfl, fun _ => rfl⟩, rfl⟩, by simp⟩
  | .feature (.plain _ _) =>
    unfold process
    exact ⟨rfl, fun u hu => ⟨by simpa using hu.symm, ⟨0, _, by unfold expand; rfl, fun _ => rfl⟩, rfl⟩, by simp⟩
  | .feature (.range _ _ _) =>
    unfold process
    exact ⟨rfl, fun u hu => ⟨by simpa using hu.symm, ⟨0, _, by unfold expand; rfl, fun _ => rfl⟩, rfl⟩, by simp⟩
  | .feature (.interval _ _ _ _ _) =>
    unfold process
    exact ⟨rfl, fun u hu => ⟨by simpa using hu.symm, ⟨0, _, by unfold expand; rfl, fun _ => rfl⟩, rfl⟩, by simp⟩
termination_by (unseen env seen, sizeOf c)
decreasing_by
  · exact Prod.Lex.right _ (by simp)
  · exact Prod.Lex.right _ (by simp; omega)
  · exact Prod.Lex.left _ _ (unseen_lt (by assumption) (by assumption))
theorem processOps_spec (env : CmEnv) (hp : Plain env) (seen : List Str) (st : CmState) (res : Except CmErr Bool)
    (cs : List Cond) :
    (processOps env seen st res cs).2.1 = st ∧
    (∀ u, (processOps env seen st res cs).1 = .ok u → res = .ok u ∧ ListOk env cs (processOps env seen st res cs).2.2) ∧
    (∀ e, (processOps env seen st res cs).1 = .error e → res = .error e ∨ FailReason env seen (Cond.namesAll cs)) := by
  match cs with
  | [] => unfold processOps; exact ⟨rfl, fun u hu => ⟨hu, .nil env⟩, fun e he => .inl he⟩
  | c :: cs =>
    have ih := process_spec env hp seen st c
    unfold processOps
    rcases hr : process env seen st c with ⟨r, st', c'⟩
    rw [hr] at ih
    obtain ⟨h1, h2, h3⟩ := ih
    dsimp only at h1 h2 h3 ⊢
    subst h1
    match r with
    | .error e =>
      have ihs := processOps_spec env hp seen st' (.error e) cs
      dsimp only
      refine ⟨ihs.1, fun u hu => ?_, fun e' he => .inr ?_⟩
      · have := (ihs.2.1 u hu).1; simp at this
      · exact (h3 e rfl).mono (by intro x hx; simp [Cond.namesAll, hx])
    | .ok u =>
      obtain ⟨rfl, hok⟩ := h2 u rfl
      have ihs := processOps_spec env hp seen st' res cs
      dsimp only
      generalize processOps env seen st' res cs = x at ihs ⊢
      obtain ⟨rs, st2, cs2⟩ := x
      dsimp only at ihs ⊢
      refine ⟨ihs.1, fun u hu => ⟨(ihs.2.1 u hu).1, .cons hok (ihs.2.1 u hu).2⟩, fun e he => ?_⟩
      rcases ihs.2.2 e he with h | h
      · exact .inl h
      · exact .inr (h.mono (by intro x hx; simp [Cond.namesAll, hx]))
termination_by (unseen env seen, sizeOf cs)
decreasing_by
  all_goals exact Prod.Lex.right _ (by simp; omega)
theorem processQueries_spec (env : CmEnv) (hp : Plain env) (seen : List Str) (st : CmState) (res : Except CmErr Bool)
    (qs : List Query) (hq : ∀ q ∈ qs, q.type = .all ∧ q.qualifier = none ∧ q.cond ≠ none) :
    (processQueries env seen st res qs).2.1 = st ∧
    (∀ u, (processQueries env seen st res qs).1 = .ok u →
      res = .ok u ∧ ListOk env (queryConds qs) (processQueries env seen st res qs).2.2) ∧
    (∀ e, (processQueries env seen st res qs).1 = .error e →
      res = .error e ∨ FailReason env seen (Cond.namesAll (queryConds qs))) := by
  match qs with
  | [] => unfold processQueries; exact ⟨rfl, fun u hu => ⟨hu, .nil env⟩, fun e he => .inl he⟩
  | q :: qs =>
    obtain ⟨t1, t2, t3⟩ := hq q (by simp)
    have hq' : ∀ q ∈ qs, q.type = .all ∧ q.qualifier = none ∧ q.cond ≠ none := fun x hx => hq x (by simp [hx])
    unfold processQueries
    rw [if_neg (by simp [t1, t2])]
    match q with
    | ⟨_, _, none⟩ => exact absurd rfl t3
    | ⟨_, _, some c⟩ =>
      have ih := process_spec env hp seen st c
      unfold processQuery
      rcases hr : process env seen st c with ⟨r, st', c'⟩
      rw [hr] at ih
      obtain ⟨h1, h2, h3⟩ := ih
      dsimp only at h1 h2 h3 ⊢
      subst h1
      match r with
      | .error e =>
        have ihs := processQueries_spec env hp seen st' (.error e) qs hq'
        rcases hrs : processQueries env seen st' (.error e) qs with ⟨rs, st2, cs2⟩
        rw [hrs] at ihs
        dsimp only at ihs ⊢
        refine ⟨ihs.1, fun u hu => ?_, fun e' he => .inr ?_⟩
        · have := (ihs.2.1 u hu).1; simp at this
        · exact (h3 e rfl).mono (by intro x hx; simp [Cond.namesAll, queryConds, hx])
      | .ok u =>
        obtain ⟨rfl, hok⟩ := h2 u rfl
        have ihs := processQueries_spec env hp seen st' res qs hq'
        rcases hrs : processQueries env seen st' res qs with ⟨rs, st2, cs2⟩
        rw [hrs] at ihs
        dsimp only at ihs ⊢
        refine ⟨ihs.1, fun u hu => ⟨(ihs.2.1 u hu).1, .cons hok (ihs.2.1 u hu).2⟩, fun e he => ?_⟩
        rcases ihs.2.2 e he with h | h
        · exact .inl h
        · refine .inr (h.mono ?_)
          intro x hx
          simp [queryConds] at hx
          simp [Cond.namesAll, queryConds, hx]
termination_by (unseen env seen, sizeOf qs)
decreasing_by
  all_goals exact Prod.Lex.right _ (by simp; try omega)
end

/-! ### A condition that expands has no bad reference. -/

mutual
theorem expand_names (env : CmEnv) (k : Nat) (c c' : Cond) (h : expand env k c = some c') :
    ∀ n ∈ c.names, ∃ x, expand env k (.feature (.boolean (.custom n))) = some x := by
  match c with
  | .not c =>
    unfold expand at h
    cases hc : expand env k c with
    | none => simp [hc] at h
    | some x => simpa [Cond.names] using expand_names env k c x hc
  | .op o cs =>
    unfold expand at h
    cases hc : expandAll env k cs with
    | none => simp [hc] at h
    | some x => simpa [Cond.names] using expandAll_names env k cs x hc
  | .unknown _ => simp [Cond.names]
  | .feature (.boolean (.custom n)) =>
    intro m hm
    simp only [Cond.names, List.mem_singleton] at hm
    subst hm
    exact ⟨c', h⟩
  | .feature (.boolean (.standard n)) => simp [Cond.names]
  | .feature (.boolean (.unknown n)) => simp [Cond.names]
  | .feature (.plain _ _) => simp [Cond.names]
  | .feature (.range _ _ _) => simp [Cond.names]
  | .feature (.interval _ _ _ _ _) => simp [Cond.names]
theorem expandAll_names (env : CmEnv) (k : Nat) (cs cs' : List Cond) (h : expandAll env k cs = some cs') :
    ∀ n ∈ Cond.namesAll cs, ∃ x, expand env k (.feature (.boolean (.custom n))) = some x := by
  match cs with
  | [] => simp [Cond.namesAll]
  | c :: cs =>
    unfold expandAll at h
    cases h1 : expand env k c with
    | none => simp [h1] at h
    | some x =>
      cases h2 : expandAll env k cs with
      | none => simp [h1, h2] at h
      | some y =>
        intro n hn
        simp only [Cond.namesAll, List.mem_append] at hn
        rcases hn with hn | hn
        · exact expand_names env k c x h1 n hn
        · exact expandAll_names env k cs y h2 n hn
end

theorem expand_refers (env : CmEnv) (k : Nat) (n m : Str) (x : Cond)
    (h : expand env k (.feature (.boolean (.custom n))) = some x) (hr : Refers env n m) :
    ∃ j x', j < k ∧ expand env j (.feature (.boolean (.custom m))) = some x' := by
  obtain ⟨qs, hg, q, hq, c, hc, hm⟩ := hr
  match k with
  | 0 => unfold expand at h; simp at h
  | k + 1 =>
    unfold expand at h
    simp only [hg] at h
    cases hc' : expandAll env k (qs.filterMap (·.cond)) with
    | none => simp [hc'] at h
    | some y =>
      obtain ⟨x', hx'⟩ := expandAll_names env k _ y hc' m
        ((namesAll_mem _ _).2 ⟨c, List.mem_filterMap.2 ⟨q, hq, hc⟩, hm⟩)
      exact ⟨k, x', by omega, hx'⟩

theorem expand_refersPlus (env : CmEnv) (n m : Str) (hr : RefersPlus env n m) : ∀ (k : Nat) (x : Cond)
    (_ : expand env k (.feature (.boolean (.custom n))) = some x),
    ∃ j x', j < k ∧ expand env j (.feature (.boolean (.custom m))) = some x' := by
  induction hr with
  | one h => intro k x hx; exact expand_refers env k _ _ x hx h
  | step h _ ih =>
    intro k x hx
    obtain ⟨j, x', hj, hx'⟩ := expand_refers env k _ _ x hx h
    obtain ⟨i, x'', hi, hx''⟩ := ih j x' hx'
    exact ⟨i, x'', by omega, hx''⟩

theorem expand_acyclic (env : CmEnv) (n : Str) (hr : RefersPlus env n n) : ∀ (k : Nat) (x : Cond),
    expand env k (.feature (.boolean (.custom n))) ≠ some x := by
  intro k
  induction k using Nat.strongRecOn with
  | _ k ih =>
    intro x hx
    obtain ⟨j, x', hj, hx'⟩ := expand_refersPlus env n n hr k x hx
    exact ih j hj x' hx'

theorem expand_defined (env : CmEnv) (n : Str) (k : Nat) (x : Cond)
    (h : expand env k (.feature (.boolean (.custom n))) = some x) : env.get n ≠ none := by
  intro hn
  match k with
  | 0 => unfold expand at h; simp at h
  | k + 1 => unfold expand at h; simp [hn] at h

theorem expand_no_bad (env : CmEnv) (k : Nat) (c c' : Cond) (h : expand env k c = some c') :
    ¬ BadReference env c := by
  rintro ⟨r, hr, n, hrn, hbad⟩
  obtain ⟨x, hx⟩ := expand_names env k c c' h r hr
  have ⟨j, y, hy⟩ : ∃ j y, expand env j (.feature (.boolean (.custom n))) = some y := by
    rcases hrn with rfl | hrn
    · exact ⟨k, x, hx⟩
    · obtain ⟨j, y, _, hy⟩ := expand_refersPlus env r n hrn k x hx
      exact ⟨j, y, hy⟩
  rcases hbad with hb | hb
  · exact expand_defined env n j y hy hb
  · exact expand_acyclic env n hb j y hy

end Verif.Media
