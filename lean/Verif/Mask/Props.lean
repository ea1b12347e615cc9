import Verif.Mask.Spec
/-! C214: the mask handler keeps the values of the longhands. -/

namespace Verif.Mask

/-- A browser that knows both prefixes. -/
abbrev both : VP := ⟨true, true⟩

/-- What is in the fields. -/
def pend (s : St) (j : Nat) : Option (List Nat) :=
  if j < 6 then (s.f j).map (·.1) else if j = 6 then s.comp else if j = 7 then s.mode else none

/-- The values when the fields are written. -/
def overlay (s : St) (b : Vals) : Vals := fun j => match pend s j with | some v => .list v | none => b j

/-- No field has an empty list or no prefix. -/
structure WF (s : St) : Prop where
  f : ∀ j v p, s.f j = some (v, p) → v ≠ [] ∧ p.isEmpty = false
  comp : ∀ v, s.comp = some v → v ≠ []
  mode : ∀ v, s.mode = some v → v ≠ []

/-- No prefix is lost for lack of a target. -/
def Keeps (t : Targets) : Prop := ∀ j p, p.isEmpty = false → (t.pre j p).isEmpty = false

theorem inter_both (p : VP) : (p.inter both).isEmpty = p.isEmpty := by
  obtain ⟨a, b⟩ := p; simp [VP.inter, VP.isEmpty]

theorem result_append (k : VP) (s : Vals) (a b : List Decl) : result k s (a ++ b) = result k (result k s a) b := by
  simp [result, List.foldl_append]

/-- The list of a field, or another value. -/
def fieldOr : Option (List Nat × VP) → Val → Val
  | some (v, _), _ => .list v
  | none, d => d

theorem flushLong_res (t : Targets) (ht : Keeps t) (k : Nat) (x : Option (List Nat × VP))
    (hx : ∀ v p, x = some (v, p) → v ≠ [] ∧ p.isEmpty = false) (b : Vals) (j : Nat) :
    result both b (flushLong t k x) j = if j = k then fieldOr x (b j) else b j := by
  cases x with
  | none => simp [flushLong, result, fieldOr]
  | some y =>
    obtain ⟨v, p⟩ := y
    obtain ⟨h1, h2⟩ := hx v p rfl
    have h3 : v.isEmpty = false := by cases v with | nil => exact absurd rfl h1 | cons => rfl
    simp [flushLong, h2, result, apply, inter_both, ht k p h2, h3, Vals.put, fieldOr]

theorem flushLong_drained (t : Targets) (k : Nat) (x : Option (List Nat × VP)) (i : VP) (b : Vals) :
    result both b (flushLong t k (x.map (fun x => ([], x.2.sub i)))) = b := by
  cases x with
  | none => rfl
  | some y =>
    simp only [Option.map_some, flushLong]
    split
    · rfl
    · simp [result, apply]

theorem flushShorthand_res (ms : List Layer) (p : VP) (hm : ms ≠ []) (hp : p.isEmpty = false) (b : Vals) (j : Nat) (hj : j < 8) :
    result both b (flushShorthand ms p) j = .list (ms.map (· j)) := by
  have hme : ms.isEmpty = false := by cases ms with | nil => exact absurd rfl hm | cons => rfl
  unfold flushShorthand
  split
  · rename_i hc
    have hw : p.wk = true := by simp at hc; exact hc.1
    rw [result_append, result_append, result_append]
    by_cases hs : (p.sub ⟨false, true⟩).isEmpty = true
    · simp only [hs, if_true]
      have h6 : ms.any (fun m => m 6 != 0) = false → ms.map (fun _ => 0) = ms.map (· 6) := by
        intro h; apply List.map_congr_left; intro m hmm
        simp only [List.any_eq_false, bne_iff_ne, ne_eq, Decidable.not_not] at h
        exact (h m hmm).symm
      have h7 : ms.any (fun m => m 7 != 0) = false → ms.map (fun _ => 0) = ms.map (· 7) := by
        intro h; apply List.map_congr_left; intro m hmm
        simp only [List.any_eq_false, bne_iff_ne, ne_eq, Decidable.not_not] at h
        exact (h m hmm).symm
      clear hc
      generalize ms.any (fun m => m 6 != 0) = c6 at h6
      generalize ms.any (fun m => m 7 != 0) = c7 at h7
      have hne : (VP.inter ⟨false, true⟩ both).isEmpty = false := rfl
      cases c6 <;> cases c7 <;> by_cases e6 : j = 6 <;> by_cases e7 : j = 7 <;>
        simp_all [result, apply, Vals.put, Function.comp_def] <;> (first | exact h7 | exact h6)
    · have hs' : (p.sub ⟨false, true⟩).isEmpty = false := by simpa using hs
      simp only [hs', Bool.false_eq_true, if_false]
      simp [result, apply, inter_both, hs', hme, hj]
  · simp [result, apply, inter_both, hp, hme, hj]

theorem zipLayers_map (n : Nat) (v : Nat → List Nat) (j : Nat) (h : (v j).length = n) : (zipLayers n v).map (· j) = v j := by
  unfold zipLayers
  rw [List.map_map]
  apply List.ext_getElem
  · simp [h]
  · intro i h1 h2
    simp [List.getD_eq_getElem?_getD, h2]

theorem range6 : List.range 6 = [0, 1, 2, 3, 4, 5] := rfl

theorem flush_ok (t : Targets) (ht : Keeps t) (s : St) (hs : WF s) (b : Vals) (j : Nat) (hj : j < 8) :
    result both b (flush t s) j = overlay s b j := by
  unfold flush
  rw [result_append]
  have hb : ∀ c : Vals, result both c (flushBorder s.border) j = c j := by
    intro c
    cases s.border with
    | none => rfl
    | some x => simp [flushBorder, result, apply, Vals.put, show j ≠ 8 by omega]
  rw [hb]
  unfold flushMask
  split
  · rename_i v i hsh
    have hdr : ∀ c : Vals, result both c ((List.range 6).flatMap (fun j => flushLong t j ((s.f j).map (fun x => ([], x.2.sub i))))) = c := by
      intro c
      rw [range6]
      simp only [List.flatMap_cons, List.flatMap_nil, result_append, flushLong_drained]
      rfl
    rw [result_append, hdr]
    unfold shorthand at hsh
    split at hsh
    · rename_i v0 p0 v1 p1 v2 p2 v3 p3 v4 p4 v5 p5 v6 v7 e0 e1 e2 e3 e4 e5 e6 e7
      simp only [] at hsh
      split at hsh
      · rename_i hc
        simp only [Bool.and_eq_true, beq_iff_eq, Bool.not_eq_true'] at hc
        simp only [Option.some.injEq, Prod.mk.injEq] at hsh
        obtain ⟨hv, hi⟩ := hsh
        obtain ⟨hi2, ⟨⟨⟨⟨⟨⟨l1, l2⟩, l3⟩, l4⟩, l5⟩, l6⟩, l7⟩⟩ := hc
        have hlen : (v j).length = (v 0).length := by
          rw [← hv]
          match j, hj with
          | 0, _ => rfl
          | 1, _ => exact l1
          | 2, _ => exact l2
          | 3, _ => exact l3
          | 4, _ => exact l4
          | 5, _ => exact l5
          | 6, _ => exact l6
          | 7, _ => exact l7
        have hne : zipLayers (v 0).length v ≠ [] := by
          have h0 : v 0 ≠ [] := by rw [← hv]; exact (hs.f 0 v0 p0 e0).1
          intro h
          have := congrArg List.length h
          simp [zipLayers] at this
          exact h0 this
        rw [flushShorthand_res _ _ hne (ht 7 i (hi ▸ hi2)) b j hj, zipLayers_map _ _ _ hlen]
        rw [← hv]
        match j, hj with
        | 0, _ => simp [overlay, pend, e0]
        | 1, _ => simp [overlay, pend, e1]
        | 2, _ => simp [overlay, pend, e2]
        | 3, _ => simp [overlay, pend, e3]
        | 4, _ => simp [overlay, pend, e4]
        | 5, _ => simp [overlay, pend, e5]
        | 6, _ => simp [overlay, pend, e6]
        | 7, _ => simp [overlay, pend, e7]
      · cases hsh
    · cases hsh
  · have hf := fun k => flushLong_res t ht k (s.f k) (hs.f k)
    have hc : ∀ (c : Vals), result both c (flushComp t s.comp) j = if j = 6 then (match s.comp with | some v => .list v | none => c j) else c j := by
      intro c
      cases h : s.comp with
      | none => simp [flushComp, result]
      | some v =>
        have hv : v.isEmpty = false := by cases v with | nil => exact absurd rfl (hs.comp _ h) | cons => rfl
        by_cases hw : (t.pre 6 ⟨true, false⟩).wk = true <;> by_cases e : j = 6 <;> simp [flushComp, hw, result, apply, hv, Vals.put, e]
    have hm : ∀ (c : Vals), result both c (flushMode t s.mode) j = if j = 7 then (match s.mode with | some v => .list v | none => c j) else c j := by
      intro c
      cases h : s.mode with
      | none => simp [flushMode, result]
      | some v =>
        have hv : v.isEmpty = false := by cases v with | nil => exact absurd rfl (hs.mode _ h) | cons => rfl
        by_cases hw : (t.pre 7 ⟨true, false⟩).wk = true <;> by_cases e : j = 7 <;> simp [flushMode, hw, result, apply, hv, Vals.put, e]
    rw [result_append, result_append, hm, hc, range6]
    simp only [List.flatMap_cons, List.flatMap_nil, result_append]
    have hnil : ∀ c : Vals, result both c [] = c := fun _ => rfl
    rw [hnil]
    simp only [hf]
    match j, hj with
    | 0, _ => cases h : s.f 0 <;> simp [overlay, pend, fieldOr, h]
    | 1, _ => cases h : s.f 1 <;> simp [overlay, pend, fieldOr, h]
    | 2, _ => cases h : s.f 2 <;> simp [overlay, pend, fieldOr, h]
    | 3, _ => cases h : s.f 3 <;> simp [overlay, pend, fieldOr, h]
    | 4, _ => cases h : s.f 4 <;> simp [overlay, pend, fieldOr, h]
    | 5, _ => cases h : s.f 5 <;> simp [overlay, pend, fieldOr, h]
    | 6, _ => cases h : s.comp <;> simp [overlay, pend, h]
    | 7, _ => cases h : s.mode <;> simp [overlay, pend, h]

/-- What the declarations written so far and the fields mean. -/
def denote (b : Vals) (r : Run) : Vals := overlay r.1 (result both b r.2)

theorem wf_empty : WF St.empty :=
  ⟨(by intro j v p h; cases h), (by intro v h; cases h), (by intro v h; cases h)⟩

theorem overlay_empty (b : Vals) : overlay St.empty b = b := by
  funext j
  simp [overlay, pend, St.empty]

theorem doFlush_ok (t : Targets) (ht : Keeps t) (b : Vals) (r : Run) (hr : WF r.1) :
    WF (doFlush t r).1 ∧ ∀ j, j < 8 → denote b (doFlush t r) j = denote b r j := by
  refine ⟨wf_empty, fun j hj => ?_⟩
  show overlay St.empty (result both b (r.2 ++ flush t r.1)) j = _
  rw [overlay_empty, result_append, flush_ok t ht r.1 hr _ j hj]
  rfl

theorem maybeFlush_ok (t : Targets) (ht : Keeps t) (b : Vals) (k : Nat) (v : List Nat) (p : VP) (r : Run) (hr : WF r.1) :
    WF (maybeFlush t k v p r).1 ∧ ∀ j, j < 8 → denote b (maybeFlush t k v p r) j = denote b r j := by
  have h1 : ∀ r : Run, WF r.1 → WF (if (r.1.f k).isSome && !t.compat k v then doFlush t r else r).1 ∧
      ∀ j, j < 8 → denote b (if (r.1.f k).isSome && !t.compat k v then doFlush t r else r) j = denote b r j := by
    intro r hr
    split
    · exact doFlush_ok t ht b r hr
    · exact ⟨hr, fun _ _ => rfl⟩
  unfold maybeFlush
  have h2 : WF (match r.1.f k with
      | some (val, ps) => if val ≠ v ∧ ps.contains p = false then doFlush t r else r
      | none => r).1 ∧ ∀ j, j < 8 → denote b (match r.1.f k with
      | some (val, ps) => if val ≠ v ∧ ps.contains p = false then doFlush t r else r
      | none => r) j = denote b r j := by
    split
    · split
      · exact doFlush_ok t ht b r hr
      · exact ⟨hr, fun _ _ => rfl⟩
    · exact ⟨hr, fun _ _ => rfl⟩
  obtain ⟨w1, d1⟩ := h1 _ h2.1
  exact ⟨w1, fun j hj => (d1 j hj).trans (h2.2 j hj)⟩

theorem setProp_ok (t : Targets) (ht : Keeps t) (b : Vals) (k : Nat) (hk : k < 6) (v : List Nat) (p : VP) (hv : v ≠ [])
    (hp : p.isEmpty = false) (r : Run) (hr : WF r.1) :
    WF (setProp t k v p r).1 ∧ ∀ j, j < 8 → denote b (setProp t k v p r) j = if j = k then .list v else denote b r j := by
  obtain ⟨hw, hd⟩ := maybeFlush_ok t ht b k v p r hr
  unfold setProp
  generalize maybeFlush t k v p r = r' at hw hd
  obtain ⟨s, o⟩ := r'
  constructor
  · constructor
    · intro j v' p' h
      simp only [] at h
      by_cases e : j = k
      · simp only [e, if_true] at h
        revert h
        split
        · rename_i x ps hx
          intro h
          cases h
          refine ⟨hv, ?_⟩
          obtain ⟨a, b⟩ := p; obtain ⟨c, d⟩ := ps
          simp [VP.isEmpty, VP.union] at hp ⊢
          intro _ h2; simp_all
        · intro h; cases h; exact ⟨hv, hp⟩
      · simp only [e, if_false] at h
        exact hw.f j v' p' h
    · exact hw.comp
    · exact hw.mode
  · intro j hj
    rw [← hd j hj]
    simp only [denote, overlay, pend]
    by_cases e : j = k
    · subst e
      simp only [hk, if_true]
      split <;> rename_i hx <;> revert hx <;> (split <;> intro hx <;> simp at hx) <;> simp [hx]
    · by_cases h6 : j < 6 <;> simp [e, h6]

theorem handle_ok (t : Targets) (ht : Keeps t) (b : Vals) (r : Run) (hr : WF r.1) (d : Decl) (hd : parsed d = true) :
    WF (handle t r d).1 ∧ ∀ j, j < 8 → denote b (handle t r d) j = apply both (denote b r) d j := by
  cases d with
  | long k v p =>
    simp only [parsed, Bool.and_eq_true, decide_eq_true_eq, Bool.not_eq_true'] at hd
    have hv : v ≠ [] := by rintro rfl; simp at hd
    obtain ⟨h1, h2⟩ := setProp_ok t ht b k hd.1.1 v p hv hd.2 r hr
    refine ⟨h1, fun j hj => ?_⟩
    rw [show handle t r (.long k v p) = setProp t k v p r from rfl, h2 j hj]
    simp [apply, inter_both, hd.2, hd.1.2, Vals.put]
  | comp v =>
    have hv : v.isEmpty = false := by simpa [parsed] using hd
    refine ⟨⟨hr.f, (by rintro v' h; cases h; rintro rfl; simp at hv), hr.mode⟩, fun j hj => ?_⟩
    simp only [denote, overlay, pend, handle, apply, hv]
    by_cases e : j = 6
    · subst e; simp [Vals.put]
    · by_cases h6 : j < 6 <;> simp [e, h6, Vals.put, overlay, pend]
  | mode v =>
    have hv : v.isEmpty = false := by simpa [parsed] using hd
    refine ⟨⟨hr.f, hr.comp, (by rintro v' h; cases h; rintro rfl; simp at hv)⟩, fun j hj => ?_⟩
    simp only [denote, overlay, pend, handle, apply, hv]
    by_cases e : j = 7
    · subst e; simp [Vals.put]
    · by_cases h6 : j < 6 <;> simp [e, h6, Vals.put, overlay, pend]
  | mask ls p =>
    simp only [parsed, Bool.and_eq_true, Bool.not_eq_true'] at hd
    have hls : ∀ k, ls.map (fun m => m k) ≠ [] := by
      intro k h
      have : ls = [] := by simpa using h
      subst this; simp at hd
    have hfold : ∀ (l : List Nat) (r : Run), WF r.1 →
        WF (l.foldl (fun r j => maybeFlush t j (ls.map (· j)) p r) r).1 := by
      intro l
      induction l with
      | nil => intro r h; exact h
      | cons a l ih => intro r h; exact ih _ (maybeFlush_ok t ht b a _ p r h).1
    have hset : ∀ (l : List Nat) (r : Run), WF r.1 → (∀ k ∈ l, k < 6) →
        WF (l.foldl (fun r j => setProp t j (ls.map (· j)) p r) r).1 ∧
          ∀ j, j < 8 → denote b (l.foldl (fun r j => setProp t j (ls.map (· j)) p r) r) j =
            if j ∈ l then .list (ls.map (· j)) else denote b r j := by
      intro l
      induction l with
      | nil => intro r h _; exact ⟨h, fun j _ => by simp⟩
      | cons a l ih =>
        intro r h hl
        obtain ⟨w, d⟩ := setProp_ok t ht b a (hl a List.mem_cons_self) (ls.map (· a)) p (hls a) hd.2 r h
        obtain ⟨w2, d2⟩ := ih _ w (fun k hk => hl k (List.mem_cons_of_mem _ hk))
        refine ⟨w2, fun j hj => ?_⟩
        rw [List.foldl_cons, d2 j hj]
        by_cases hm : j ∈ l
        · simp [hm]
        · simp only [hm, if_false, List.mem_cons, or_false]
          rw [d j hj]
          by_cases e : j = a
          · subst e; simp
          · simp [e]
    have hL : ∀ k, k ∈ List.range 6 ↔ k < 6 := fun k => List.mem_range
    simp only [handle]
    generalize List.range 6 = L at hL
    have w1 := hfold L r hr
    generalize L.foldl (fun r j => maybeFlush t j (ls.map (· j)) p r) r = r1 at w1
    have w2 : WF (⟨r1.1.f, some (ls.map (· 6)), some (ls.map (· 7)), r1.1.border⟩ : St) :=
      ⟨w1.f, (by intro v h; cases h; exact hls 6), (by intro v h; cases h; exact hls 7)⟩
    obtain ⟨w3, d3⟩ := hset L (⟨r1.1.f, some (ls.map (· 6)), some (ls.map (· 7)), r1.1.border⟩, r1.2) w2 (fun k hk => (hL k).1 hk)
    refine ⟨w3, fun j hj => ?_⟩
    rw [d3 j hj]
    simp only [apply, inter_both, hd.2, hd.1, Bool.or_self, Bool.false_eq_true, if_false, hj, if_true, hL]
    by_cases h6 : j < 6
    · simp [h6]
    · simp only [h6, if_false]
      rcases (by omega : j = 6 ∨ j = 7) with rfl | rfl <;> simp [denote, overlay, pend]
  | wkComp v => simp [parsed] at hd
  | wkMode v => simp [parsed] at hd
  | border x =>
    refine ⟨⟨hr.f, hr.comp, hr.mode⟩, fun j hj => ?_⟩
    simp [denote, overlay, pend, handle, apply, Vals.put, show j ≠ 8 by omega]
  | rawLong k v p =>
    simp only [parsed, Bool.and_eq_true, decide_eq_true_eq, Bool.not_eq_true'] at hd
    obtain ⟨h1, h2⟩ := doFlush_ok t ht b r hr
    refine ⟨h1, fun j hj => ?_⟩
    have h3 := h2 j hj
    have e1 : denote b (handle t r (.rawLong k v p)) j =
        apply both (denote b (doFlush t r)) (.rawLong k v (t.pre 7 p)) j := by
      show overlay St.empty (result both b ((doFlush t r).2 ++ [_])) j = _
      rw [overlay_empty, result_append]
      rw [show denote b (doFlush t r) = result both b (doFlush t r).2 from overlay_empty _]
      rfl
    rw [e1]
    simp only [apply, inter_both, hd.2, ht 7 p hd.2, Vals.put, Bool.false_eq_true, if_false, h3]
  | rawMask v p =>
    simp only [parsed, Bool.not_eq_true'] at hd
    obtain ⟨h1, h2⟩ := doFlush_ok t ht b r hr
    refine ⟨h1, fun j hj => ?_⟩
    have h3 := h2 j hj
    have e1 : denote b (handle t r (.rawMask v p)) j =
        apply both (denote b (doFlush t r)) (.rawMask v (t.pre 7 p)) j := by
      show overlay St.empty (result both b ((doFlush t r).2 ++ [_])) j = _
      rw [overlay_empty, result_append]
      rw [show denote b (doFlush t r) = result both b (doFlush t r).2 from overlay_empty _]
      rfl
    rw [e1]
    simp only [apply, inter_both, hd, ht 7 p hd, Bool.false_eq_true, if_false, show j ≤ 8 by omega, if_true]

theorem apply_congr (k : VP) (a b : Vals) (h : ∀ j, j < 8 → a j = b j) (d : Decl) : ∀ j, j < 8 → apply k a d j = apply k b d j := by
  intro j hj
  have hj' := h j hj
  cases d <;> simp only [apply] <;> (repeat' split) <;> simp_all [Vals.put] <;> (split <;> simp_all)

/-- C214 (partial): for every block of mask declarations, with whatever prefixes, shorthands and unparsed values, the handler writes
declarations that give each of the longhands of `mask` the value the block gives it, in browsers that know both the prefixed and
the unprefixed properties. Missing: browsers that know only the prefixed ones (`C214_drained`), `mask-border` (`C214_border`),
`-webkit-mask-composite` and `-webkit-mask-source-type` in the block (`C214_webkit_composite`). -/
theorem C214_partial (t : Targets) (ht : ∀ j p, p.isEmpty = false → (t.pre j p).isEmpty = false) (ds : List Decl)
    (hd : ∀ d ∈ ds, parsed d = true) (b : Vals) (j : Nat) (hj : j < 8) :
    result ⟨true, true⟩ b (run t ds) j = result ⟨true, true⟩ b ds j := by
  have key : ∀ (ds : List Decl), (∀ d ∈ ds, parsed d = true) → ∀ (r : Run) (c : Vals), WF r.1 → (∀ j, j < 8 → denote b r j = c j) →
      WF (ds.foldl (handle t) r).1 ∧ ∀ j, j < 8 → denote b (ds.foldl (handle t) r) j = result both c ds j := by
    intro ds
    induction ds with
    | nil => intro _ r c hr hc; exact ⟨hr, hc⟩
    | cons d ds ih =>
      intro hd r c hr hc
      obtain ⟨w, e⟩ := handle_ok t ht b r hr d (hd d List.mem_cons_self)
      exact ih (fun x hx => hd x (List.mem_cons_of_mem _ hx)) _ _ w
        (fun j hj => (e j hj).trans (apply_congr both _ _ hc d j hj))
  obtain ⟨w, e⟩ := key ds hd (St.empty, []) b wf_empty (fun j _ => by simp [denote, overlay_empty, result])
  have h1 := (doFlush_ok t ht b _ w).2 j hj
  rw [e j hj] at h1
  rw [← h1]
  show result both b (doFlush t _).2 j = overlay St.empty _ j
  rw [overlay_empty]

/-- No targets. -/
def t0 : Targets := ⟨fun _ p => p, fun _ _ => true⟩

/-- Targets that need `-webkit-`. -/
def t1 : Targets := ⟨fun _ p => p.union ⟨false, p.std⟩, fun _ _ => true⟩

/-- Initial values. -/
def init : Vals := fun _ => .list [0]

/-- A layer with image `i`, composite `c` and the defaults (0). -/
def layer (i c : Nat) : Layer := fun j => if j = 0 then i else if j = 6 then c else 0

/-- `-webkit-mask-image: 1; mask-size: 2; mask: 3 / exclude; mask-mode: 1; -webkit-mask-image: 4`. -/
def ex1 : List Decl :=
  [.long 0 [1] ⟨false, true⟩, .long 2 [2] ⟨true, false⟩, .mask [layer 3 2] ⟨true, false⟩, .mode [1], .long 0 [4] ⟨false, true⟩]

example (j : Nat) (hj : j < 8) : result ⟨true, true⟩ init (run t1 ex1) j = result ⟨true, true⟩ init ex1 j :=
  C214_partial t1 (by rintro j ⟨a, b⟩ h; cases a <;> simp_all [VP.isEmpty, t1, VP.union]) ex1 (by decide) init j hj
example : (run t1 ex1).length = 7 := by decide
example : (List.range 8).map (result ⟨true, true⟩ init (run t1 ex1)) =
    [.list [4], .list [0], .list [0], .list [0], .list [0], .list [0], .list [2], .list [1]] := by decide

/-- The full statement fails for a browser that knows only `-webkit-mask`: of `-webkit-mask-image: 1; mask: 1` it is left with
`-webkit-mask-image:` without a value, since the list of images is emptied for the shorthand before it is written. -/
theorem C214_drained :
    let ds : List Decl := [.long 0 [1] ⟨false, true⟩, .mask [layer 1 0] ⟨true, false⟩]
    result ⟨false, true⟩ init ds 0 = .list [1] ∧ result ⟨false, true⟩ init (run t0 ds) 0 = .list [0] ∧
      ∃ p, Decl.long 0 [] p ∈ run t0 ds :=
  ⟨by decide, by decide, ⟨false, true⟩, by simp [run, handle, setProp, maybeFlush, doFlush, St.empty, VP.contains, t0, flush,
    flushMask, shorthand, VP.inter, VP.union, VP.isEmpty, flushLong, flushShorthand, zipLayers, layer, range6, VP.sub]⟩

/-- The full statement fails for `mask-border`: `mask-border: 1; mask: 2` resets it, what is written sets it. -/
theorem C214_border :
    let ds : List Decl := [.border 1, .mask [layer 2 0] ⟨true, false⟩]
    result ⟨true, true⟩ init ds 8 = .list [] ∧ result ⟨true, true⟩ init (run t0 ds) 8 = .list [1] := by
  decide

/-- The full statement fails with `-webkit-mask-composite`, which is not handled and so comes to stand before what it overrides. -/
theorem C214_webkit_composite :
    let ds : List Decl := [.mask [layer 2 0] ⟨true, false⟩, .wkComp [3]]
    result ⟨true, true⟩ init ds 6 = .list [3] ∧ result ⟨true, true⟩ init (run t0 ds) 6 = .list [0] := by
  decide

end Verif.Mask
