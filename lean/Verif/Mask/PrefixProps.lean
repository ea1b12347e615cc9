import Verif.Mask.Props
/-! C215: the mask handler and browsers that know only some of the prefixes. -/

namespace Verif.Mask

/-- What is in a field, for a browser that knows the prefixes `k`. -/
def fieldFor (k : VP) : Option (List Nat × VP) → Val → Val
  | some (v, p), d => if (p.inter k).isEmpty then d else .list v
  | none, d => d

/-- The values when the fields of longhands are written. -/
def over (k : VP) (s : St) (b : Vals) : Vals := fun j => if j < 6 then fieldFor k (s.f j) (b j) else b j

/-- The fields of a block without `mask`, `mask-composite` and `mask-mode`. -/
structure WF2 (s : St) : Prop where
  f : ∀ j v p, s.f j = some (v, p) → v ≠ [] ∧ p.isEmpty = false
  comp : s.comp = none
  mode : s.mode = none

theorem wf2_empty : WF2 St.empty := ⟨(by intro j v p h; cases h), rfl, rfl⟩

theorem flushLong_for (compat : Nat → List Nat → Bool) (k : VP) (i : Nat) (x : Option (List Nat × VP))
    (hx : ∀ v p, x = some (v, p) → v ≠ [] ∧ p.isEmpty = false) (b : Vals) (j : Nat) :
    result k b (flushLong ⟨fun _ p => p, compat⟩ i x) j = if j = i then fieldFor k x (b j) else b j := by
  cases x with
  | none => simp [flushLong, result, fieldFor]
  | some y =>
    obtain ⟨v, p⟩ := y
    obtain ⟨h1, h2⟩ := hx v p rfl
    have h3 : v.isEmpty = false := by cases v with | nil => exact absurd rfl h1 | cons => rfl
    simp only [flushLong, h2, Bool.false_eq_true, if_false, result, List.foldl_cons, List.foldl_nil, apply, h3, Bool.or_false,
      fieldFor]
    by_cases hk : (p.inter k).isEmpty = true
    · simp [hk]
    · simp [hk, Vals.put]

theorem flush_for (compat : Nat → List Nat → Bool) (k : VP) (s : St) (hs : WF2 s) (b : Vals) (j : Nat) (hj : j < 8) :
    result k b (flush ⟨fun _ p => p, compat⟩ s) j = over k s b j := by
  have hsh : shorthand s = none := by
    unfold shorthand
    rw [hs.comp]
    split
    · rename_i h _; cases h
    · rfl
  unfold flush
  rw [result_append]
  have hb : ∀ c : Vals, result k c (flushBorder s.border) j = c j := by
    intro c
    cases s.border with
    | none => rfl
    | some x =>
      by_cases h : k.std = true <;> simp [flushBorder, result, apply, Vals.put, show j ≠ 8 by omega, h]
  rw [hb]
  unfold flushMask
  rw [hsh, hs.comp, hs.mode]
  simp only [flushComp, flushMode, List.append_nil]
  have hf := fun i => flushLong_for compat k i (s.f i) (hs.f i)
  rw [range6]
  simp only [List.flatMap_cons, List.flatMap_nil, result_append]
  have hnil : ∀ c : Vals, result k c [] = c := fun _ => rfl
  rw [hnil]
  simp only [hf]
  match j, hj with
  | 0, _ => simp [over]
  | 1, _ => simp [over]
  | 2, _ => simp [over]
  | 3, _ => simp [over]
  | 4, _ => simp [over]
  | 5, _ => simp [over]
  | 6, _ => simp [over]
  | 7, _ => simp [over]

/-- What the declarations written so far and the fields mean to a browser. -/
def denote2 (k : VP) (b : Vals) (r : Run) : Vals := over k r.1 (result k b r.2)

theorem over_empty (k : VP) (b : Vals) : over k St.empty b = b := by
  funext j; simp [over, St.empty, fieldFor]

theorem doFlush_for (compat : Nat → List Nat → Bool) (k : VP) (b : Vals) (r : Run) (hr : WF2 r.1) (j : Nat) (hj : j < 8) :
    denote2 k b (doFlush ⟨fun _ p => p, compat⟩ r) j = denote2 k b r j := by
  show over k St.empty (result k b (r.2 ++ flush _ r.1)) j = _
  rw [over_empty, result_append, flush_for compat k r.1 hr _ j hj]
  rfl

/-- The prefixes of a field and of a declaration to come have nothing in common. -/
def Free (s : St) (j : Nat) (p : VP) : Prop := ∀ v q, s.f j = some (v, q) → (q.inter p).isEmpty = true

theorem free_empty (j : Nat) (p : VP) : Free St.empty j p := by intro v q h; cases h

theorem not_contains (q p : VP) (h : (q.inter p).isEmpty = true) (hp : p.isEmpty = false) : q.contains p = false := by
  obtain ⟨a, b⟩ := q; obtain ⟨c, d⟩ := p
  cases a <;> cases b <;> cases c <;> cases d <;> simp_all [VP.inter, VP.isEmpty, VP.contains]

theorem vp_union_ne (p q : VP) (hp : p.isEmpty = false) : (q.union p).isEmpty = false := by
  obtain ⟨a, b⟩ := p; obtain ⟨c, d⟩ := q
  revert a b c d; decide

theorem vp_union_inter (p q k : VP) (h1 : (q.inter k).isEmpty = true) (h2 : (p.inter k).isEmpty = true) :
    ((q.union p).inter k).isEmpty = true := by
  obtain ⟨a, b⟩ := p; obtain ⟨c, d⟩ := q; obtain ⟨g, h⟩ := k
  revert a b c d g h; decide

theorem vp_union_inter_iff (p q k : VP) :
    ((q.union p).inter k).isEmpty = ((q.inter k).isEmpty && (p.inter k).isEmpty) := by
  obtain ⟨a, b⟩ := p; obtain ⟨c, d⟩ := q; obtain ⟨g, h⟩ := k
  revert a b c d g h; decide

theorem setProp_for (compat : Nat → List Nat → Bool) (k : VP) (b : Vals) (i : Nat) (hi : i < 6) (v : List Nat) (p : VP)
    (hv : v ≠ []) (hp : p.isEmpty = false) (r : Run) (hr : WF2 r.1) (hfree : Free r.1 i p) :
    WF2 (setProp ⟨fun _ p => p, compat⟩ i v p r).1 ∧
      (∀ j q, Free r.1 j q → (j = i → (p.inter q).isEmpty = true) → Free (setProp ⟨fun _ p => p, compat⟩ i v p r).1 j q) ∧
      ∀ j, j < 8 → denote2 k b (setProp ⟨fun _ p => p, compat⟩ i v p r) j =
        if j = i ∧ (p.inter k).isEmpty = false then .list v else denote2 k b r j := by
  -- the state after `maybe_flush!`: nothing pending in the field, or the same value
  have hm : ∀ r' : Run, r' = maybeFlush ⟨fun _ p => p, compat⟩ i v p r →
      WF2 r'.1 ∧ (∀ j q, Free r.1 j q → Free r'.1 j q) ∧ (∀ j, j < 8 → denote2 k b r' j = denote2 k b r j) ∧
        (∀ w q, r'.1.f i = some (w, q) → w = v) := by
    intro r' e
    have h1 : ∃ r1 : Run, (r1 = r ∨ r1 = doFlush ⟨fun _ p => p, compat⟩ r) ∧ (∀ w q, r1.1.f i = some (w, q) → w = v) ∧
        r' = if (r1.1.f i).isSome && !compat i v then doFlush ⟨fun _ p => p, compat⟩ r1 else r1 := by
      unfold maybeFlush at e
      cases hx : r.1.f i with
      | none =>
        rw [hx] at e
        exact ⟨r, Or.inl rfl, (by intro w q h; rw [hx] at h; cases h), by simpa [hx] using e⟩
      | some y =>
        obtain ⟨w0, q0⟩ := y
        rw [hx] at e
        have hc := not_contains q0 p (hfree w0 q0 hx) hp
        by_cases hw : w0 = v
        · refine ⟨r, Or.inl rfl, ?_, ?_⟩
          · intro w q h; rw [hx] at h; cases h; exact hw
          · simpa [hw, hx] using e
        · refine ⟨doFlush ⟨fun _ p => p, compat⟩ r, Or.inr rfl, ?_, ?_⟩
          · intro w q h; cases h
          · simpa [hw, hc] using e
    obtain ⟨r1, h2, h3, h4⟩ := h1
    have h5 : WF2 r1.1 ∧ (∀ j q, Free r.1 j q → Free r1.1 j q) ∧ (∀ j, j < 8 → denote2 k b r1 j = denote2 k b r j) := by
      rcases h2 with rfl | rfl
      · exact ⟨hr, fun _ _ h => h, fun _ _ => rfl⟩
      · exact ⟨wf2_empty, fun j q _ => free_empty j q, fun j hj => doFlush_for compat k b r hr j hj⟩
    rw [h4]
    split
    · refine ⟨wf2_empty, fun j q _ => free_empty j q, fun j hj => ?_, ?_⟩
      · rw [doFlush_for compat k b r1 h5.1 j hj, h5.2.2 j hj]
      · intro w q h; cases h
    · exact ⟨h5.1, h5.2.1, h5.2.2, h3⟩
  obtain ⟨w1, fr, dn, same⟩ := hm _ rfl
  unfold setProp
  generalize maybeFlush ⟨fun _ p => p, compat⟩ i v p r = r' at w1 fr dn same
  obtain ⟨s, o⟩ := r'
  refine ⟨⟨?_, w1.comp, w1.mode⟩, ?_, ?_⟩
  · intro j v' p' h
    simp only [] at h
    by_cases e : j = i
    · simp only [e, if_true] at h
      revert h
      split
      · rename_i x ps hx
        intro h
        cases h
        exact ⟨hv, vp_union_ne p ps hp⟩
      · intro h; cases h; exact ⟨hv, hp⟩
    · simp only [e, if_false] at h
      exact w1.f j v' p' h
  · intro j q hj hq w q' h
    simp only [] at h
    have hj' := fr j q hj
    by_cases e : j = i
    · subst e
      simp only [if_true] at h
      revert h
      split
      · rename_i x ps hx
        intro h
        cases h
        exact vp_union_inter p ps q (hj' x ps hx) (hq rfl)
      · intro h; cases h; exact hq rfl
    · simp only [e, if_false] at h
      exact hj' w q' h
  · intro j hj
    rw [← dn j hj]
    simp only [denote2, over]
    by_cases e : j = i
    · subst e
      simp only [hi, if_true, true_and]
      cases hx : s.f j with
      | none =>
        simp only [fieldFor]
        by_cases hk : (p.inter k).isEmpty = true <;> simp [hk]
      | some y =>
        obtain ⟨w, q⟩ := y
        have hw := same w q hx
        subst hw
        simp only [fieldFor, vp_union_inter_iff]
        by_cases h1 : (p.inter k).isEmpty = true <;> by_cases h2 : (q.inter k).isEmpty = true <;> simp [h1, h2]
    · simp [e]

/-- The longhands, `mask-border` and unparsed properties: what `C215` is about. -/
def longhand : Decl → Bool
  | .long _ _ _ | .border _ | .rawLong _ _ _ | .rawMask _ _ => true
  | _ => false

/-- No two declarations give a longhand a value for the same prefix. -/
def Once (d e : Decl) : Prop := ∀ j v p v' p', d = .long j v p → e = .long j v' p' → (p.inter p').isEmpty = true

theorem handle_for (compat : Nat → List Nat → Bool) (k : VP) (b : Vals) (r : Run) (hr : WF2 r.1) (d : Decl) (hd : parsed d = true)
    (hl : longhand d = true) (hfree : ∀ j v p, d = .long j v p → Free r.1 j p) :
    WF2 (handle ⟨fun _ p => p, compat⟩ r d).1 ∧
      (∀ j q, Free r.1 j q → (∀ v p, d = .long j v p → (p.inter q).isEmpty = true) →
        Free (handle ⟨fun _ p => p, compat⟩ r d).1 j q) ∧
      ∀ j, j < 8 → denote2 k b (handle ⟨fun _ p => p, compat⟩ r d) j = apply k (denote2 k b r) d j := by
  cases d with
  | long i v p =>
    simp only [parsed, Bool.and_eq_true, decide_eq_true_eq, Bool.not_eq_true'] at hd
    have hv : v ≠ [] := by rintro rfl; simp at hd
    obtain ⟨h1, h2, h3⟩ := setProp_for compat k b i hd.1.1 v p hv hd.2 r hr (hfree i v p rfl)
    refine ⟨h1, fun j q hj hq => h2 j q hj (by rintro rfl; exact hq v p rfl), fun j hj => ?_⟩
    rw [show handle ⟨fun _ p => p, compat⟩ r (.long i v p) = setProp ⟨fun _ p => p, compat⟩ i v p r from rfl, h3 j hj]
    by_cases hk : (p.inter k).isEmpty = true <;> simp [apply, hk, hd.1.2, Vals.put]
  | comp v => simp [longhand] at hl
  | mode v => simp [longhand] at hl
  | mask ls p => simp [longhand] at hl
  | wkComp v => simp [longhand] at hl
  | wkMode v => simp [longhand] at hl
  | border x =>
    refine ⟨⟨hr.f, hr.comp, hr.mode⟩, fun j q h _ => h, fun j hj => ?_⟩
    by_cases hk : k.std = true <;> simp [denote2, over, handle, apply, Vals.put, show j ≠ 8 by omega, hk]
  | rawLong i v p =>
    refine ⟨wf2_empty, fun j q _ _ => free_empty j q, fun j hj => ?_⟩
    have h3 := doFlush_for compat k b r hr j hj
    have e1 : denote2 k b (handle ⟨fun _ p => p, compat⟩ r (.rawLong i v p)) j =
        apply k (denote2 k b (doFlush ⟨fun _ p => p, compat⟩ r)) (.rawLong i v p) j := by
      show over k St.empty (result k b ((doFlush ⟨fun _ p => p, compat⟩ r).2 ++ [_])) j = _
      rw [over_empty, result_append]
      rw [show denote2 k b (doFlush ⟨fun _ p => p, compat⟩ r) = result k b (doFlush ⟨fun _ p => p, compat⟩ r).2 from over_empty _ _]
      rfl
    rw [e1]
    simp only [apply]
    split
    · exact h3
    · simp only [Vals.put, h3]
  | rawMask v p =>
    refine ⟨wf2_empty, fun j q _ _ => free_empty j q, fun j hj => ?_⟩
    have h3 := doFlush_for compat k b r hr j hj
    have e1 : denote2 k b (handle ⟨fun _ p => p, compat⟩ r (.rawMask v p)) j =
        apply k (denote2 k b (doFlush ⟨fun _ p => p, compat⟩ r)) (.rawMask v p) j := by
      show over k St.empty (result k b ((doFlush ⟨fun _ p => p, compat⟩ r).2 ++ [_])) j = _
      rw [over_empty, result_append]
      rw [show denote2 k b (doFlush ⟨fun _ p => p, compat⟩ r) = result k b (doFlush ⟨fun _ p => p, compat⟩ r).2 from over_empty _ _]
      rfl
    rw [e1]
    simp only [apply]
    split
    · exact h3
    · simp only [show j ≤ 8 by omega, if_true]

/-- C215 (partial): without targets that need prefixes, for every block of prefixed mask longhands, in any order, that does not give
a longhand two values for the same prefix, what is written gives every longhand the value the block gives it, in *every* browser,
whichever of the prefixes it knows. Missing: `mask`, `mask-composite` and `mask-mode` (`C214_drained`), two values for the same
prefix (`C215_replaced`), targets (`C215_targets`). -/
theorem C215_partial (compat : Nat → List Nat → Bool) (k : VP) (ds : List Decl) (hd : ∀ d ∈ ds, parsed d = true)
    (hl : ∀ d ∈ ds, longhand d = true) (ho : ds.Pairwise Once) (b : Vals) (j : Nat) (hj : j < 8) :
    result k b (run ⟨fun _ p => p, compat⟩ ds) j = result k b ds j := by
  have key : ∀ (ds : List Decl), (∀ d ∈ ds, parsed d = true) → (∀ d ∈ ds, longhand d = true) → ds.Pairwise Once →
      ∀ (r : Run) (c : Vals), WF2 r.1 → (∀ d ∈ ds, ∀ j v p, d = .long j v p → Free r.1 j p) →
      (∀ j, j < 8 → denote2 k b r j = c j) →
      WF2 (ds.foldl (handle ⟨fun _ p => p, compat⟩) r).1 ∧
        ∀ j, j < 8 → denote2 k b (ds.foldl (handle ⟨fun _ p => p, compat⟩) r) j = result k c ds j := by
    intro ds
    induction ds with
    | nil => intro _ _ _ r c hr _ hc; exact ⟨hr, hc⟩
    | cons d ds ih =>
      intro hd hl ho r c hr hf hc
      obtain ⟨o1, o2⟩ := List.pairwise_cons.1 ho
      obtain ⟨w, fr, e⟩ := handle_for compat k b r hr d (hd d List.mem_cons_self) (hl d List.mem_cons_self)
        (hf d List.mem_cons_self)
      exact ih (fun x hx => hd x (List.mem_cons_of_mem _ hx)) (fun x hx => hl x (List.mem_cons_of_mem _ hx)) o2 _ _ w
        (fun x hx j v p ex => fr j p (hf x (List.mem_cons_of_mem _ hx) j v p ex)
          (fun v' p' ed => o1 x hx j v' p' v p ed ex))
        (fun j hj => (e j hj).trans (apply_congr k _ _ hc d j hj))
  obtain ⟨w, e⟩ := key ds hd hl ho (St.empty, []) b wf2_empty (fun _ _ j _ p _ => free_empty j p)
    (fun j _ => by simp [denote2, over_empty, result])
  have h1 := doFlush_for compat k b _ w j hj
  rw [e j hj] at h1
  rw [← h1]
  show result k b (doFlush _ _).2 j = over k St.empty _ j
  rw [over_empty]

/-- `-webkit-mask-image: 1; mask-size: 2; mask-image: 3; -webkit-mask-size: 2`. -/
def ex2 : List Decl :=
  [.long 0 [1] ⟨false, true⟩, .long 2 [2] ⟨true, false⟩, .long 0 [3] ⟨true, false⟩, .long 2 [2] ⟨false, true⟩]

example : run t0 ex2 = [.long 0 [1] ⟨false, true⟩, .long 2 [2] ⟨true, false⟩, .long 0 [3] ⟨true, false⟩, .long 2 [2] ⟨false, true⟩] := rfl
example (k : VP) (j : Nat) (hj : j < 8) : result k init (run t0 ex2) j = result k init ex2 j := by
  refine C215_partial _ k ex2 (by decide) (by decide) ?_ init j hj
  simp only [ex2, List.pairwise_cons, List.mem_cons, List.not_mem_nil, or_false, forall_eq_or_imp, forall_eq, Once, Decl.long.injEq]
  refine ⟨⟨?_, ?_, ?_⟩, ⟨?_, ?_⟩, ?_, ?_, List.Pairwise.nil⟩ <;>
    first
    | (rintro j v p v' p' ⟨rfl, rfl, rfl⟩ ⟨h, _, rfl⟩; revert h; decide)
    | (intro a h; exact False.elim h)

/-- The full statement fails: `-webkit-mask-image: 1; mask-image: 1; mask-image: 2` is combined to 2 with both prefixes. -/
theorem C215_replaced :
    let ds : List Decl := [.long 0 [1] ⟨false, true⟩, .long 0 [1] ⟨true, false⟩, .long 0 [2] ⟨true, false⟩]
    result ⟨false, true⟩ init ds 0 = .list [1] ∧ result ⟨false, true⟩ init (run t0 ds) 0 = .list [2] := by
  decide

/-- The full statement fails for targets that need `-webkit-`: of `-webkit-mask-image: 1; mask-image: 2` a browser that knows only the
prefixed property gets 2. -/
theorem C215_targets :
    let ds : List Decl := [.long 0 [1] ⟨false, true⟩, .long 0 [2] ⟨true, false⟩]
    result ⟨false, true⟩ init ds 0 = .list [1] ∧ result ⟨false, true⟩ init (run t1 ds) 0 = .list [2] := by
  decide

end Verif.Mask
