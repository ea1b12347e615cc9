import Verif.Align.Spec
/-!
# C207–C209: minifying alignment
-/
namespace Verif.Align
open Verif.Flex (Vp)
variable {V : Type}

theorem final_append (r : Decl V → Option (Value V)) (a b : List (Decl V)) (s : Value V) : final r (a ++ b) s = final r b (final r a s) := by
  induction a generalizing s with
  | nil => rfl
  | cons d a ih => exact ih _

theorem final_none (r : Decl V → Option (Value V)) (a : List (Decl V)) (h : ∀ d ∈ a, r d = none) (s : Value V) : final r a s = s := by
  induction a generalizing s with
  | nil => rfl
  | cons d a ih =>
    show final r a ((r d).getD s) = s
    rw [h d List.mem_cons_self]
    exact ih (fun x hx => h x (List.mem_cons_of_mem _ hx)) s

/-- What a browser sees of a value with prefixes. -/
def see (b : Browser) (o : Option (V × Vp)) (s : Value V) : Value V := match o with
  | some (v, vp) => if meets b.known vp then .val v else s
  | none => s

/-- What is assumed of a browser for a property: for a standard one, it knows the unprefixed property, `gap`, and the shorthands that the targets have;
for an older one, no standard property is held. -/
structure Fits (env : Env V) (b : Browser) (k : Key) (h : Handler V) : Prop where
  std : ∀ p, k = .std p → b.known.none = true ∧ b.gap = true ∧ ∀ c, env.place c = true → b.place c = true
  leg : ∀ q, k = .leg q → h.slot (.std (standard q)) = none

theorem meets_none (known vp : Vp) (hk : known.none = true) (h : vp.none = true) : meets known vp = true := by simp [meets, hk, h]

theorem stdPrefixes_none (env : Env V) (he : Prefixes env) (p : Long) : (stdPrefixes env p).none = true := by
  have := he.plain p Vp.plain rfl
  simp [stdPrefixes, Vp.remove, Vp.mozOnly, Vp.msOnly, this]

theorem reads_one (b : Browser) (k k' : Key) (v : V) (vp : Vp) :
    b.reads k (.one k' v vp) = if meets b.known vp = true then (if k' = k then some (.val v) else none) else none := rfl

theorem one_other (b : Browser) (k k' : Key) (v : V) (vp : Vp) (h : k' ≠ k) : b.reads k (.one k' v vp) = none := by
  rw [reads_one, if_neg h]; simp

theorem one_reads (b : Browser) (k k' : Key) (v : V) (vp : Vp) (s : Value V) :
    final (b.reads k) [.one k' v vp] s = if k' = k then (if meets b.known vp then .val v else s) else s := by
  show ((b.reads k (.one k' v vp)).getD s) = _
  simp only [Browser.reads, Browser.has, says]
  by_cases hm : meets b.known vp = true <;> by_cases hk : k' = k <;> simp [hm, hk]

theorem stdOut_see (env : Env V) (he : Prefixes env) (b : Browser) (k : Key) (hk : ∀ p, k = .std p → b.known.none = true) (q : Long) (o : Option (V × Vp)) (s : Value V) :
    final (b.reads k) (stdOut env q o) s = if k = .std q then see b o s else s := by
  cases o with
  | none => simp [stdOut, final, see]
  | some x =>
    obtain ⟨v, vp⟩ := x
    simp only [stdOut, one_reads]
    by_cases hq : k = .std q
    · rw [if_pos hq, if_pos hq.symm]
      simp only [see]
      by_cases hc : (q.prefixed && vp.none) = true
      · rw [if_pos hc, meets_none _ _ (hk q hq) (stdPrefixes_none env he q), meets_none _ _ (hk q hq) (Bool.and_eq_true_iff.1 hc).2]
      · rw [if_neg hc]
    · rw [if_neg hq, if_neg (fun h => hq h.symm)]

theorem legacy_see (env : Env V) (b : Browser) (k : Key) (p : Long) (l9 : Option Leg) (l12 : Leg) (o : Option (V × Vp)) (s : Value V)
    (h9 : ∀ q, l9 = some q → standard q = p) (h12 : standard l12 = p) (hk : ∀ q, k = .leg q → standard q = p → o = none) :
    final (b.reads k) (legacy env p l9 l12 o) s = s := by
  cases o with
  | none => rfl
  | some x =>
    obtain ⟨v, vp⟩ := x
    have hn : ∀ q, standard q = p → k ≠ .leg q := fun q h e => by have := hk q e h; cases this
    refine final_none _ _ (fun d hd => ?_) s
    simp only [legacy, List.mem_append] at hd
    rcases hd with hd | hd
    · cases l9 with
      | none => cases hd
      | some q =>
        simp only at hd
        split at hd
        · split at hd
          · next w _ =>
            rw [List.mem_singleton.1 hd]
            exact one_other b k _ w _ (fun e => hn q (h9 q rfl) e.symm)
          · cases hd
        · cases hd
    · split at hd
      · split at hd
        · rw [List.mem_singleton.1 hd]
          exact one_other b k _ _ _ (fun e => hn _ h12 e.symm)
        · cases hd
      · cases hd

theorem before_one (env : Env V) (b : Browser) (k : Key) (p : Long) (v : V) (s : Value V) (h : k ≠ .std p) : final (b.reads k) (before env p v) s = s := by
  simp only [before]
  split
  · split
    · rfl
    · rw [one_reads, if_neg (fun e => h e.symm)]
  · rfl

theorem align_ne_justify (k k' : Place) : k.align ≠ k'.justify := by cases k <;> cases k' <;> simp [Place.align, Place.justify]

theorem group_see (env : Env V) (he : Prefixes env) (b : Browser) (k : Key) (h : Handler V) (hf : Fits env b k h) (c : Place) (s : Value V) :
    final (b.reads k) (group env c h) s =
      if k = .std c.align then see b (h.slot (.std c.align)) s else if k = .std c.justify then see b (h.slot (.std c.justify)) s else s := by
  have hlong : final (b.reads k) (stdOut env c.align (h.slot (.std c.align)) ++ stdOut env c.justify (h.slot (.std c.justify))) s =
      if k = .std c.align then see b (h.slot (.std c.align)) s else if k = .std c.justify then see b (h.slot (.std c.justify)) s else s := by
    rw [final_append, stdOut_see env he b k (fun p e => (hf.std p e).1), stdOut_see env he b k (fun p e => (hf.std p e).1)]
    by_cases h1 : k = .std c.align
    · have : k ≠ .std c.justify := by rw [h1]; simpa using align_ne_justify c c
      simp [h1, align_ne_justify]
    · simp [h1]
  unfold group
  simp only
  split
  · next a avp j jvp ha hj =>
    split
    · next hc =>
      rw [Bool.and_eq_true] at hc
      obtain ⟨hc1, hc2⟩ := hc
      simp only [Vp.and, Bool.and_eq_true] at hc2
      rw [final_append, final_append]
      show (b.reads k (.place c a j)).getD _ = _
      simp only [Browser.reads, Browser.has, says, ha, hj, see]
      by_cases h1 : k = .std c.align
      · obtain ⟨g1, g2, g3⟩ := hf.std _ h1
        simp [h1, g3 c hc1, meets_none _ _ g1 hc2.1]
      · by_cases h2 : k = .std c.justify
        · obtain ⟨g1, g2, g3⟩ := hf.std _ h2
          have hne : ¬ c.justify = c.align := fun e => align_ne_justify c c e.symm
          simp [h2, hne, g3 c hc1, meets_none _ _ g1 hc2.2]
        · rw [before_one env b k _ _ _ h2, before_one env b k _ _ _ h1]
          simp [h1, h2]
    · exact hlong
  · exact hlong

theorem gap_see (env : Env V) (b : Browser) (k : Key) (h : Handler V) (hf : Fits env b k h)
    (hp : ∀ v vp p, (p = .rowGap ∨ p = .columnGap) → h.slot (.std p) = some (v, vp) → vp = Vp.plain) (s : Value V) :
    final (b.reads k) (gapOut h) s = if k = .std .rowGap ∨ k = .std .columnGap then see b (h.slot k) s else s := by
  have hm : ∀ p, k = .std p → meets b.known Vp.plain = true := fun p e => meets_none _ _ (hf.std p e).1 rfl
  unfold gapOut
  cases hr : h.slot (.std .rowGap) with
  | none =>
    cases hc : h.slot (.std .columnGap) with
    | none =>
      by_cases h1 : k = .std .rowGap
      · simp [h1, hr, see, final]
      · by_cases h2 : k = .std .columnGap <;> simp [h1, h2, hc, see, final]
    | some c =>
      obtain ⟨c, cvp⟩ := c
      have e := hp c cvp _ (.inr rfl) hc
      simp only [one_reads]
      by_cases h1 : k = .std .rowGap
      · simp [h1, hr, see]
      · by_cases h2 : k = .std .columnGap
        · simp [h2, hc, see, e]
        · rw [if_neg (fun e => h2 e.symm), if_neg (fun e => e.elim h1 h2)]
  | some r =>
    obtain ⟨r, rvp⟩ := r
    have er := hp r rvp _ (.inl rfl) hr
    cases hc : h.slot (.std .columnGap) with
    | none =>
      simp only [one_reads]
      by_cases h1 : k = .std .rowGap
      · simp [h1, hr, see, er]
      · by_cases h2 : k = .std .columnGap
        · simp [h2, hc, see]
        · rw [if_neg (fun e => h1 e.symm), if_neg (fun e => e.elim h1 h2)]
    | some c =>
      obtain ⟨c, cvp⟩ := c
      have ec := hp c cvp _ (.inr rfl) hc
      show (b.reads k (.gap r c)).getD s = _
      simp only [Browser.reads, Browser.has, says]
      by_cases h1 : k = .std .rowGap
      · have := (hf.std _ h1).2.1
        have hm' := hm _ h1
        simp [h1, hr, see, er, this, hm']
      · by_cases h2 : k = .std .columnGap
        · have := (hf.std _ h2).2.1
          have hm' := hm _ h2
          simp [h2, hc, see, ec, this, hm']
        · simp [h1, h2]

theorem legOut_see (b : Browser) (k : Key) (q : Leg) (o : Option (V × Vp)) (s : Value V) :
    final (b.reads k) (legOut q o) s = if k = .leg q then see b o s else s := by
  cases o with
  | none => simp [legOut, final, see]
  | some x =>
    obtain ⟨v, vp⟩ := x
    simp only [legOut, one_reads, see]
    by_cases h : k = .leg q
    · simp [h]
    · rw [if_neg h, if_neg (fun e => h e.symm)]

theorem legs_see (b : Browser) (k : Key) (h : Handler V) (s : Value V) :
    final (b.reads k) (legs h) s = match k with
      | .leg q => see b (h.slot (.leg q)) s
      | .std _ => s := by
  simp only [legs, List.flatMap_cons, List.flatMap_nil, final_append, legOut_see, List.append_nil]
  cases k with
  | std p => simp
  | leg q => cases q <;> simp

/-- What is written by `flush` is seen like what is held. -/
theorem flushOut_see (env : Env V) (he : Prefixes env) (b : Browser) (k : Key) (h : Handler V) (hf : Fits env b k h)
    (hp : ∀ v vp p, (p = .rowGap ∨ p = .columnGap) → h.slot (.std p) = some (v, vp) → vp = Vp.plain) (s : Value V) :
    final (b.reads k) (flushOut env h) s = see b (h.slot k) s := by
  have hl : ∀ p q, k = .leg q → standard q = p → h.slot (.std p) = none := fun p q e e' => e' ▸ hf.leg q e
  simp only [flushOut, final_append]
  rw [gap_see env b k h hf hp, group_see env he b k h hf, legacy_see env b k .alignItems (some .boxAlign) .flexAlign _ _ (by rintro q ⟨⟩; rfl) rfl (hl _),
    group_see env he b k h hf, legacy_see env b k .alignSelf none .itemAlign _ _ (by rintro q ⟨⟩) rfl (hl _), group_see env he b k h hf,
    legacy_see env b k .justifyContent (some .boxPack) .flexPack _ _ (by rintro q ⟨⟩; rfl) rfl (hl _),
    legacy_see env b k .alignContent none .linePack _ _ (by rintro q ⟨⟩) rfl (hl _), legs_see]
  cases k with
  | leg q => simp
  | std p => cases p <;> simp [Place.align, Place.justify]

/-- The invariant for a property. -/
structure Inv (env : Env V) (b : Browser) (k : Key) (x : Handler V × List (Decl V)) (seen : Bool) (s t : Value V) : Prop where
  fits : Fits env b k x.1
  plain : ∀ v vp p, (p = .rowGap ∨ p = .columnGap) → x.1.slot (.std p) = some (v, vp) → vp = Vp.plain
  none : x.1.any = false → x.1.slot k = none
  eq : see b (x.1.slot k) (final (b.reads k) x.2 s) = t
  seen : ∀ v vp, x.1.slot k = some (v, vp) → meets b.known vp = true → seen = true

theorem flush_inv (env : Env V) (he : Prefixes env) (b : Browser) (k : Key) (x : Handler V × List (Decl V)) (seen : Bool) (s t : Value V) (h : Inv env b k x seen s t) :
    Inv env b k (flush env x) seen s t ∧ (flush env x).1.slot k = none ∧ final (b.reads k) (flush env x).2 s = t := by
  unfold flush
  by_cases ha : x.1.any = true
  · rw [if_pos ha]
    have e : final (b.reads k) (x.2 ++ flushOut env x.1) s = t := by rw [final_append, flushOut_see env he b k x.1 h.fits h.plain]; exact h.eq
    exact ⟨⟨⟨h.fits.std, fun _ _ => rfl⟩, (by intro _ _ _ _ h; cases h), fun _ => rfl, e, (by intro _ _ h; cases h)⟩, rfl, e⟩
  · rw [if_neg ha]
    have hn := h.none (by simpa using ha)
    refine ⟨h, hn, ?_⟩
    have := h.eq
    rwa [hn] at this

/-- What is cleared is not the property. -/
theorem clear_inv (env : Env V) (b : Browser) (k : Key) (x : Handler V × List (Decl V)) (c : Leg → Bool) (seen : Bool) (s t : Value V) (h : Inv env b k x seen s t)
    (hc : ∀ q, k = .leg q → c q = false) : Inv env b k (clear x c) seen s t := by
  have e : (clear x c).1.slot k = x.1.slot k := by
    cases k with
    | std p => rfl
    | leg q => simp [clear, hc q rfl]
  refine ⟨⟨h.fits.std, h.fits.leg⟩, h.plain, fun ha => ?_, ?_, ?_⟩
  · rw [e]; exact h.none ha
  · rw [e]; exact h.eq
  · rw [e]; exact h.seen

variable [DecidableEq V]

theorem maybe_inv (env : Env V) (he : Prefixes env) (b : Browser) (k q : Key) (v : V) (vp : Vp) (x : Handler V × List (Decl V)) (seen : Bool) (s t : Value V)
    (h : Inv env b k x seen s t) : Inv env b k (maybeFlush env x q v vp) seen s t := by
  unfold maybeFlush
  cases hq : x.1.slot q with
  | none => exact h
  | some y =>
    obtain ⟨w, hv⟩ := y
    simp only
    by_cases hc : w ≠ v ∧ hv.contains vp = false
    · rw [if_pos hc]; exact (flush_inv env he b k x seen s t h).1
    · rw [if_neg hc]; exact h

omit [DecidableEq V] in
theorem or_meets (known a c : Vp) : meets known (a.or c) = (meets known a || meets known c) := by
  obtain ⟨k1, k2, k3, k4⟩ := known
  obtain ⟨a1, a2, a3, a4⟩ := a
  obtain ⟨c1, c2, c3, c4⟩ := c
  simp only [meets, Vp.or]
  cases k1 <;> cases k2 <;> cases k3 <;> cases k4 <;> simp [Bool.or_assoc, Bool.or_left_comm, Bool.or_comm]

theorem property_inv (env : Env V) (he : Prefixes env) (b : Browser) (k q : Key) (v : V) (vp : Vp) (x : Handler V × List (Decl V)) (seen : Bool) (s t : Value V)
    (h : Inv env b k x seen s t) (hs : q = k → seen = true → meets b.known vp = true) (hg : ∀ l, k = .leg l → q ≠ .std (standard l))
    (hp : q = .std .rowGap ∨ q = .std .columnGap → vp = Vp.plain) :
    Inv env b k (property env x q v vp) (seen || (q = k && meets b.known vp)) s (if q = k ∧ meets b.known vp = true then .val v else t) := by
  have h1 := maybe_inv env he b k q v vp x seen s t h
  unfold property
  simp only
  generalize maybeFlush env x q v vp = y at h1 ⊢
  have hfits : Fits env b k ⟨fun k' => if k' = q then some (merged (y.1.slot q) v vp) else y.1.slot k', y.1.any || (y.1.slot q).isNone⟩ := by
    refine ⟨h1.fits.std, fun l e => ?_⟩
    have := hg l e
    show (if Key.std (standard l) = q then _ else _) = none
    rw [if_neg (fun e => this e.symm)]
    exact h1.fits.leg l e
  have hplain : ∀ v' vp' p, (p = .rowGap ∨ p = .columnGap) →
      (if Key.std p = q then some (merged (y.1.slot q) v vp) else y.1.slot (.std p)) = some (v', vp') → vp' = Vp.plain := by
    intro v' vp' p hp' hw
    by_cases e : Key.std p = q
    · rw [if_pos e] at hw
      have hq := hp (by rcases hp' with rfl | rfl <;> simp [← e])
      subst hq
      have hw' := Option.some.inj hw
      cases hy : y.1.slot q with
      | none => rw [hy] at hw'; simp only [merged, Prod.mk.injEq] at hw'; exact hw'.2.symm
      | some z =>
        obtain ⟨w, hv⟩ := z
        rw [hy] at hw'; simp only [merged, Prod.mk.injEq] at hw'
        have := h1.plain w hv p hp' (by rw [e]; exact hy)
        rw [← hw'.2, this]; rfl
    · rw [if_neg e] at hw
      exact h1.plain v' vp' p hp' hw
  by_cases hq : q = k
  · subst hq
    refine ⟨hfits, hplain, ?_, ?_, ?_⟩
    · intro ha
      simp only at ha
      have ⟨h2, h3⟩ := Bool.or_eq_false_iff.1 ha
      have := h1.none h2
      rw [this] at h3; cases h3
    · simp only [if_true]
      cases hy : y.1.slot q with
      | none =>
        have := h1.eq
        rw [hy] at this
        simp only [merged, see]
        rw [show final (b.reads q) y.2 s = t from this]
        by_cases hm : meets b.known vp = true <;> simp [hm]
      | some z =>
        obtain ⟨w, hv⟩ := z
        have he' := h1.eq
        rw [hy] at he'
        simp only [merged, see, or_meets] at he' ⊢
        cases hm : meets b.known vp with
        | true => simp
        | false =>
          cases hm2 : meets b.known hv with
          | true =>
            have := hs rfl (h1.seen w hv hy hm2)
            rw [hm] at this; cases this
          | false => rw [hm2] at he'; simpa using he'
    · intro w wp hw hm
      simp only [if_true] at hw
      have hw' := Option.some.inj hw
      cases hy : y.1.slot q with
      | none =>
        rw [hy] at hw'; simp only [merged, Prod.mk.injEq] at hw'
        rw [← hw'.2] at hm; simp [hm]
      | some z =>
        obtain ⟨w', hv⟩ := z
        rw [hy] at hw'; simp only [merged, Prod.mk.injEq] at hw'
        rw [← hw'.2, or_meets] at hm
        cases hm2 : meets b.known hv with
        | true => rw [h1.seen w' hv hy hm2]; rfl
        | false => rw [hm2] at hm; simp only [Bool.false_or] at hm; simp [hm]
  · have hqp : ¬ (k = q) := fun e => hq e.symm
    refine ⟨hfits, hplain, ?_, ?_, ?_⟩
    · intro ha
      simp only [if_neg hqp] at ha ⊢
      exact h1.none (Bool.or_eq_false_iff.1 ha).1
    · simp only [if_neg hqp]
      rw [if_neg (fun h => hq h.1)]; exact h1.eq
    · intro w wp hw hm
      simp only [if_neg hqp] at hw
      rw [h1.seen w wp hw hm]; rfl

/-- Two declarations of different properties without prefixes. -/
theorem two_inv (env : Env V) (he : Prefixes env) (b : Browser) (k : Key) (q q' : Long) (hne : q ≠ q') (v v' : V) (x : Handler V × List (Decl V)) (seen : Bool) (s t : Value V)
    (h : Inv env b k x seen s t) (hg : ∀ l, k = .leg l → standard l ≠ q ∧ standard l ≠ q') :
    Inv env b k (property env (property env x (.std q) v Vp.plain) (.std q') v' Vp.plain) (seen || k = .std q || k = .std q') s
      (if k = .std q then .val v else if k = .std q' then .val v' else t) := by
  have hm : ∀ p, k = .std p → meets b.known Vp.plain = true := fun p e => meets_none _ _ (h.fits.std p e).1 rfl
  have h1 := property_inv env he b k (.std q) v Vp.plain x seen s t h (fun e _ => hm q e.symm) (fun l e e' => (hg l e).1 (by simpa using e'.symm)) (fun _ => rfl)
  have h2 := property_inv env he b k (.std q') v' Vp.plain _ _ s _ h1 (fun e _ => hm q' e.symm) (fun l e e' => (hg l e).2 (by simpa using e'.symm)) (fun _ => rfl)
  by_cases e1 : k = .std q
  · have := hm q e1
    subst e1
    have hne' : q' ≠ q := fun e => hne e.symm
    simpa [this, hne, hne'] using h2
  · have e1' : ¬ Key.std q = k := fun e => e1 e.symm
    by_cases e2 : k = .std q'
    · have := hm q' e2
      subst e2
      have hne' : q' ≠ q := fun e => hne e.symm
      simpa [this, hne, hne'] using h2
    · have e2' : ¬ Key.std q' = k := fun e => e2 e.symm
      simpa [e1, e2, e1', e2'] using h2

theorem handle_inv (env : Env V) (he : Prefixes env) (b : Browser) (k : Key) (d : Decl V) (hw : WellFormed d) (hd : ∀ l, k = .leg l → says (.std (standard l)) d = none)
    (hb : ∀ p a j, d = .place p a j → b.place p = true) (x : Handler V × List (Decl V)) (seen : Bool) (s t : Value V) (h : Inv env b k x seen s t)
    (hs : seen = true → (says k d).isSome → (b.reads k d).isSome) :
    Inv env b k (handle env x d) (seen || (b.reads k d).isSome) s ((b.reads k d).getD t) := by
  cases d with
  | one q v vp =>
    have hone : ∀ y, Inv env b k y seen s t → Inv env b k (property env y q v vp) (seen || (b.reads k (.one q v vp)).isSome) s ((b.reads k (.one q v vp)).getD t) := by
      intro y hy
      have h1 := property_inv env he b k q v vp y seen s t hy (by
        intro hq hse
        have := hs hse (by simp [says, hq])
        rw [reads_one] at this
        by_cases hm : meets b.known vp = true
        · exact hm
        · rw [if_neg hm] at this; cases this) (by
        intro l e e'
        have := hd l e
        simp [says, e'] at this) (by
        rintro (rfl | rfl) <;> rcases hw with hw | hw <;> first | exact hw | cases hw)
      rw [reads_one]
      by_cases hq : q = k <;> cases hm : meets b.known vp <;> simpa [hq, hm] using h1
    cases q with
    | leg q => exact hone x h
    | std p =>
      refine hone _ (clear_inv env b k x (clears p) seen s t h fun q e => ?_)
      have h1 := hd q e
      simp only [says, Key.std.injEq] at h1
      split at h1
      · cases h1
      · next hne => cases p <;> cases q <;> first | rfl | exact absurd rfl hne
  | place p a j =>
    have hne : ∀ l, k = .leg l → standard l ≠ p.align ∧ standard l ≠ p.justify := by
      intro l e
      have h1 := hd l e
      simp only [says, Key.std.injEq] at h1
      split at h1
      · cases h1
      · next h2 => split at h1
                   · cases h1
                   · next h3 => exact ⟨h2, h3⟩
    have hc := clear_inv env b k x (fun q => clears p.align q || clears p.justify q) seen s t h (fun q e => by
      have := hne q e
      cases p <;> cases q <;> first | rfl | exact absurd rfl this.1 | exact absurd rfl this.2)
    have m2 := maybe_inv env he b k (.std p.justify) j Vp.plain _ seen s t (maybe_inv env he b k (.std p.align) a Vp.plain _ seen s t hc)
    have h1 := two_inv env he b k p.align p.justify (align_ne_justify p p) a j _ seen s t m2 hne
    have hbp := hb p a j rfl
    simp only [handle, Browser.reads, Browser.has, says, hbp, if_true]
    by_cases e1 : k = .std p.align
    · simpa [e1] using h1
    · by_cases e2 : k = .std p.justify
      · have : ¬ p.justify = p.align := fun e => align_ne_justify p p e.symm
        simpa [e2, this] using h1
      · simpa [e1, e2] using h1
  | gap r c =>
    have hne : ∀ l, k = .leg l → standard l ≠ Long.rowGap ∧ standard l ≠ Long.columnGap := by intro l _; cases l <;> simp [standard]
    have h1 := two_inv env he b k .rowGap .columnGap (by simp) r c x seen s t h hne
    simp only [handle, Browser.reads, Browser.has, says]
    by_cases e1 : k = .std .rowGap
    · have := (h.fits.std _ e1).2.1
      simpa [e1, this] using h1
    · by_cases e2 : k = .std .columnGap
      · have := (h.fits.std _ e2).2.1
        simpa [e2, this] using h1
      · simpa [e1, e2] using h1
  | raw id vp u =>
    obtain ⟨hi, hn, e⟩ := flush_inv env he b k x seen s t h
    refine ⟨hi.fits, hi.plain, fun _ => hn, ?_, ?_⟩
    · show see b ((flush env x).1.slot k) (final (b.reads k) ((flush env x).2 ++ [.raw id vp u]) s) = _
      rw [hn, final_append, e]
      rfl
    · intro v vp' hv
      have hv' : (flush env x).1.slot k = some (v, vp') := hv
      rw [hn] at hv'; cases hv'

theorem run_inv (env : Env V) (he : Prefixes env) (b : Browser) (k : Key) (s : Value V) (ds : List (Decl V)) : ∀ (x : Handler V × List (Decl V)) (seen : Bool) (t : Value V),
    Inv env b k x seen s t → (∀ d ∈ ds, WellFormed d) → (∀ d ∈ ds, ∀ l, k = .leg l → says (.std (standard l)) d = none) → Shorthands b ds →
    PrefixedFirst b k ds → (seen = true → ∀ d ∈ ds, (says k d).isSome → (b.reads k d).isSome) →
    ∃ seen', Inv env b k (ds.foldl (handle env) x) seen' s (final (b.reads k) ds t) := by
  induction ds with
  | nil => intro x seen t h _ _ _ _ _; exact ⟨seen, h⟩
  | cons d ds ih =>
    intro x seen t h hw hd hb ho hs
    have hp := List.pairwise_cons.1 ho
    have h1 := handle_inv env he b k d (hw d List.mem_cons_self) (hd d List.mem_cons_self) (fun p a j e => hb p a j (by simp [e])) x seen s t h (fun hse => hs hse d List.mem_cons_self)
    refine ih _ _ _ h1 (fun e he => hw e (List.mem_cons_of_mem _ he)) (fun e he => hd e (List.mem_cons_of_mem _ he)) (fun p a j e => hb p a j (List.mem_cons_of_mem _ e)) hp.2 ?_
    intro hse e hm hv
    rcases Bool.or_eq_true_iff.1 hse with h1 | h1
    · exact hs h1 e (List.mem_cons_of_mem _ hm) hv
    · exact hp.1 e hm h1 hv

/-- **C207 (partial)** Minifying alignment declarations leaves the eight longhands the same in a browser that knows the properties without prefixes (and with
any prefixes besides), `gap`, and those shorthands that are in the block or that the targets have, for all blocks in which no declaration with prefixes that
the browser does not know follows one that it reads. What is missing: `C207_overwritten`, `C207_gap`. -/
theorem C207_standard_partial (env : Env V) (he : Prefixes env) (b : Browser) (hn : b.known.none = true) (hg : b.gap = true)
    (ht : ∀ c, env.place c = true → b.place c = true) (p : Long) (ds : List (Decl V)) (hw : ∀ d ∈ ds, WellFormed d) (hb : Shorthands b ds)
    (ho : PrefixedFirst b (.std p) ds) (s : Value V) :
    final (b.reads (.std p)) (run env ds) s = final (b.reads (.std p)) ds s := by
  have h0 : Inv env b (.std p) (({}, []) : Handler V × List (Decl V)) false s s :=
    ⟨⟨fun _ _ => ⟨hn, hg, ht⟩, fun _ _ => rfl⟩, (by intro _ _ _ _ h; cases h), fun _ => rfl, rfl, (by intro _ _ h; cases h)⟩
  obtain ⟨seen, h⟩ := run_inv env he b (.std p) s ds _ false s h0 hw (by intro _ _ l e; cases e) hb ho (fun h => nomatch h)
  exact (flush_inv env he b (.std p) _ seen s _ h).2.2

/-- **C209 (partial)** Declarations of the older drafts in the source stay in effect for every browser if nothing in the block sets the standard property
that they stand for. What is missing: `C209_lost`, `C209_overridden`. -/
theorem C209_older_partial (env : Env V) (he : Prefixes env) (b : Browser) (q : Leg) (ds : List (Decl V)) (hw : ∀ d ∈ ds, WellFormed d) (hb : Shorthands b ds)
    (hd : ∀ d ∈ ds, says (.std (standard q)) d = none) (ho : PrefixedFirst b (.leg q) ds) (s : Value V) :
    final (b.reads (.leg q)) (run env ds) s = final (b.reads (.leg q)) ds s := by
  have h0 : Inv env b (.leg q) (({}, []) : Handler V × List (Decl V)) false s s :=
    ⟨⟨(by intro _ e; cases e), fun _ _ => rfl⟩, (by intro _ _ _ _ h; cases h), fun _ => rfl, rfl, (by intro _ _ h; cases h)⟩
  obtain ⟨seen, h⟩ := run_inv env he b (.leg q) s ds _ false s h0 hw (by rintro d hm l ⟨⟩; exact hd d hm) hb ho (fun h => nomatch h)
  exact (flush_inv env he b (.leg q) _ seen s _ h).2.2

/-! ### Blocks of unprefixed declarations: what older browsers get -/

/-- What the handler holds after unprefixed declarations. -/
structure Held (x : Handler V × List (Decl V)) (f : Long → Option V) : Prop where
  dest : x.2 = []
  leg : ∀ q, x.1.slot (.leg q) = none
  std : ∀ p, x.1.slot (.std p) = (f p).map fun v => (v, Vp.plain)
  any : x.1.any = false → ∀ p, f p = none

omit [DecidableEq V] in
theorem clear_held (x : Handler V × List (Decl V)) (f : Long → Option V) (c : Leg → Bool) (h : Held x f) : Held (clear x c) f :=
  ⟨h.dest, fun q => by show (if c q then none else x.1.slot (.leg q)) = none; rw [h.leg q]; split <;> rfl, h.std, h.any⟩

theorem maybe_held (env : Env V) (x : Handler V × List (Decl V)) (f : Long → Option V) (p : Long) (v : V) (h : Held x f) : maybeFlush env x (.std p) v Vp.plain = x := by
  unfold maybeFlush
  rw [h.std p]
  cases f p with
  | none => rfl
  | some w =>
    show (if w ≠ v ∧ Vp.plain.contains Vp.plain = false then _ else _) = _
    rw [if_neg (fun h => by cases h.2)]

theorem property_held (env : Env V) (x : Handler V × List (Decl V)) (f : Long → Option V) (p : Long) (v : V) (h : Held x f) :
    Held (property env x (.std p) v Vp.plain) (fun q => if q = p then some v else f q) := by
  unfold property
  rw [maybe_held env x f p v h]
  refine ⟨h.dest, fun q => h.leg q, fun q => ?_, fun ha q => ?_⟩
  · show (if Key.std q = Key.std p then some (merged (x.1.slot (.std p)) v Vp.plain) else x.1.slot (.std q)) = _
    by_cases hq : q = p
    · subst hq
      rw [if_pos rfl]
      simp only [if_true]
      rw [h.std q]
      cases f q <;> rfl
    · rw [if_neg (fun e => hq (Key.std.inj e))]
      simp only [if_neg hq]
      exact h.std q
  · have ha' : (x.1.any || (x.1.slot (.std p)).isNone) = false := ha
    have ⟨h1, h2⟩ := Bool.or_eq_false_iff.1 ha'
    rw [h.std p, h.any h1 p] at h2
    cases h2

/-- The values after an unprefixed declaration. -/
def after (f : Long → Option V) (d : Decl V) : Long → Option V := fun p => match says (.std p) d with
  | some (.val v) => some v
  | _ => f p

theorem handle_held (env : Env V) (x : Handler V × List (Decl V)) (f : Long → Option V) (d : Decl V) (hd : Plain d) (h : Held x f) : Held (handle env x d) (after f d) := by
  cases d with
  | one k v vp =>
    cases k with
    | leg q => exact hd.elim
    | std p =>
      obtain rfl : vp = Vp.plain := hd
      have := property_held env _ f p v (clear_held x f (clears p) h)
      have e : after f (.one (.std p) v Vp.plain) = fun q => if q = p then some v else f q := by
        funext q
        by_cases hq : q = p
        · subst hq; simp [after, says]
        · have : ¬ p = q := fun e => hq e.symm
          simp [after, says, hq, this]
      rw [e]; exact this
  | place k a j =>
    have hc := clear_held x f (fun q => clears k.align q || clears k.justify q) h
    have := property_held env _ _ k.justify j (property_held env _ f k.align a hc)
    have e : after f (.place k a j) = fun q => if q = k.justify then some j else if q = k.align then some a else f q := by
      funext q
      by_cases h1 : q = k.align
      · subst h1; simp [after, says, align_ne_justify]
      · by_cases h2 : q = k.justify
        · subst h2; simp [after, says, h1]
        · simp [after, says, h1, h2]
    rw [e]
    simp only [handle]
    rw [maybe_held env _ f k.align a hc, maybe_held env _ f k.justify j hc]
    exact this
  | gap r c =>
    have := property_held env _ _ .columnGap c (property_held env _ f .rowGap r h)
    have e : after f (.gap r c) = fun q => if q = .columnGap then some c else if q = .rowGap then some r else f q := by
      funext q; cases q <;> rfl
    rw [e]; exact this
  | raw _ _ _ => exact hd.elim

theorem foldl_held (env : Env V) (ds : List (Decl V)) : ∀ (x : Handler V × List (Decl V)) (f : Long → Option V), (∀ d ∈ ds, Plain d) → Held x f → Held (ds.foldl (handle env) x) (ds.foldl after f) := by
  induction ds with
  | nil => intro x f _ h; exact h
  | cons d ds ih =>
    intro x f hd h
    exact ih _ _ (fun e he => hd e (List.mem_cons_of_mem _ he)) (handle_held env x f d (hd d List.mem_cons_self) h)

/-- The value, or as before. -/
def valueOf : Option V → Value V
  | some v => .val v
  | none => .before

omit [DecidableEq V] in
theorem after_final (p : Long) (ds : List (Decl V)) : ∀ (f : Long → Option V), (∀ d ∈ ds, Plain d) →
    final (modern.reads (.std p)) ds (valueOf (f p)) = valueOf (ds.foldl after f p) := by
  induction ds with
  | nil => intro f _; rfl
  | cons d ds ih =>
    intro f hd
    have hp := hd d List.mem_cons_self
    have e : (modern.reads (.std p) d).getD (valueOf (f p)) = valueOf (after f d p) := by
      cases d with
      | one k v vp =>
        cases k with
        | leg q => exact hp.elim
        | std q =>
          obtain rfl : vp = Vp.plain := hp
          by_cases hq : q = p <;> simp [Browser.reads, Browser.has, says, after, hq, meets, modern, Vp.plain, valueOf]
      | place k a j =>
        by_cases h1 : p = k.align
        · simp [Browser.reads, Browser.has, says, after, h1, modern, valueOf]
        · by_cases h2 : p = k.justify
          · have : ¬ k.justify = k.align := fun e => align_ne_justify k k e.symm
            simp [Browser.reads, Browser.has, says, after, h2, this, modern, valueOf]
          · simp [Browser.reads, Browser.has, says, after, h1, h2, modern, valueOf]
      | gap r c => cases p <;> rfl
      | raw _ _ _ => exact hp.elim
    show final (modern.reads (.std p)) ds ((modern.reads (.std p) d).getD (valueOf (f p))) = _
    rw [e]
    exact ih _ (fun e he => hd e (List.mem_cons_of_mem _ he))

section
omit [DecidableEq V]

/-- Standard declarations are not read as older ones. -/
theorem std_other (b : Browser) (q : Leg) (ds : List (Decl V)) (h : ∀ d ∈ ds, (∃ p v vp, d = .one (.std p) v vp) ∨ (∃ k a j, d = .place k a j) ∨ ∃ r c, d = .gap r c)
    (s : Value V) : final (b.reads (.leg q)) ds s = s := by
  refine final_none _ _ (fun d hd => ?_) s
  rcases h d hd with ⟨p, v, vp, rfl⟩ | ⟨k, a, j, rfl⟩ | ⟨r, c, rfl⟩ <;> simp [Browser.reads, says]

theorem stdOut_kinds (env : Env V) (p : Long) (o : Option (V × Vp)) : ∀ d ∈ stdOut env p o, ∃ p v vp, d = .one (.std p) v vp := by
  intro d hd
  cases o with
  | none => cases hd
  | some x => rw [List.mem_singleton.1 hd]; exact ⟨_, _, _, rfl⟩

theorem before_kinds (env : Env V) (p : Long) (v : V) : ∀ d ∈ before env p v, ∃ p v vp, d = .one (.std p) v vp := by
  intro d hd
  simp only [before] at hd
  split at hd
  · split at hd
    · cases hd
    · rw [List.mem_singleton.1 hd]; exact ⟨_, _, _, rfl⟩
  · cases hd

theorem group_other (env : Env V) (b : Browser) (q : Leg) (c : Place) (h : Handler V) (s : Value V) : final (b.reads (.leg q)) (group env c h) s = s := by
  refine std_other b q _ (fun d hd => ?_) s
  have hl : ∀ d ∈ stdOut env c.align (h.slot (.std c.align)) ++ stdOut env c.justify (h.slot (.std c.justify)), ∃ p v vp, d = .one (.std p) v vp := by
    intro d hd
    rcases List.mem_append.1 hd with hd | hd <;> exact stdOut_kinds env _ _ d hd
  unfold group at hd
  simp only at hd
  split at hd
  · split at hd
    · simp only [List.mem_append, List.mem_singleton] at hd
      rcases hd with (hd | hd) | rfl
      · exact .inl (before_kinds env _ _ d hd)
      · exact .inl (before_kinds env _ _ d hd)
      · exact .inr (.inl ⟨_, _, _, rfl⟩)
    · exact .inl (hl d hd)
  · exact .inl (hl d hd)

theorem gap_other (b : Browser) (q : Leg) (h : Handler V) (s : Value V) : final (b.reads (.leg q)) (gapOut h) s = s := by
  refine std_other b q _ (fun d hd => ?_) s
  unfold gapOut at hd
  split at hd
  · rw [List.mem_singleton.1 hd]; exact .inr (.inr ⟨_, _, rfl⟩)
  · rw [List.mem_singleton.1 hd]; exact .inl ⟨_, _, _, rfl⟩
  · rw [List.mem_singleton.1 hd]; exact .inl ⟨_, _, _, rfl⟩
  · cases hd

/-- The value for the older property. -/
def converted (env : Env V) (q : Leg) (o : Option V) (s : Value V) : Value V := match o with
  | some v => match env.conv q v with
    | some w => .val w
    | none => s
  | none => s

theorem legacy_gives (env : Env V) (he : Prefixes env) (b : Browser) (q : Leg) (l9 : Option Leg) (l12 : Leg) (o : Option V) (ha : Asks env b q)
    (h : (of2009 q = true ∧ l9 = some q ∧ l12 ≠ q) ∨ (of2009 q = false ∧ l12 = q ∧ l9 ≠ some q)) (s : Value V) :
    final (b.reads (.leg q)) (legacy env (standard q) l9 l12 (o.map fun v => (v, Vp.plain))) s = converted env q o s := by
  cases o with
  | none => rfl
  | some v =>
    simp only [legacy, Option.map_some, final_append, converted]
    rcases h with ⟨h1, rfl, h3⟩ | ⟨h1, rfl, h3⟩
    · simp only [Asks, h1, if_true] at ha
      have hm : meets b.known (prefixes2009 env (env.prefixes (standard q) Vp.plain)) = true := by
        simp only [meets, prefixes2009]
        rcases ha.2 with h | h <;> simp [h]
      have hne : (prefixes2009 env (env.prefixes (standard q) Vp.plain)).isEmpty = false := by
        rcases ha.2 with h | h <;> simp [prefixes2009, Vp.isEmpty, h]
      have hp := he.plain (standard q) Vp.plain rfl
      simp only [hp, ha.1, hne, Bool.not_false, Bool.and_true, if_true]
      rw [final_none]
      · cases env.conv q v with
        | none => rfl
        | some w => simp only [one_reads, if_true, hm]
      · intro d hd
        split at hd
        · split at hd
          · rw [List.mem_singleton.1 hd]
            exact one_other b _ _ _ _ (fun e => h3 (Key.leg.inj e))
          · cases hd
        · cases hd
    · simp only [Asks, h1, Bool.false_eq_true, if_false] at ha
      have h9 : ∀ l : List (Decl V), (∀ d ∈ l, (b.reads (.leg l12)) d = none) → final (b.reads (.leg l12)) l s = s := fun l h => final_none _ l h s
      rw [h9]
      · simp only [ha.1, if_true]
        cases env.conv l12 v with
        | none => rfl
        | some w =>
          have : meets b.known Vp.msOnly = true := by simp [meets, Vp.msOnly, ha.2]
          simp only [one_reads, if_true, this]
      · intro d hd
        split at hd
        · split at hd
          · split at hd
            · rw [List.mem_singleton.1 hd]
              refine one_other b _ _ _ _ (fun e => h3 ?_)
              rw [Key.leg.inj e]
            · cases hd
          · cases hd
        · cases hd

end

/-- **C208** From unprefixed declarations, browsers of the drafts of 2009 and 2012 that the targets include get, for their own properties, the converted
last value of the standard ones. -/
theorem C208_older (env : Env V) (he : Prefixes env) (b : Browser) (q : Leg) (ha : Asks env b q) (ds : List (Decl V)) (hd : ∀ d ∈ ds, Plain d) :
    final (b.reads (.leg q)) (run env ds) .before = (final (modern.reads (.std (standard q))) ds .before).convert (env.conv q) := by
  have h0 : Held (({}, []) : Handler V × List (Decl V)) (fun _ => none) := ⟨rfl, fun _ => rfl, fun _ => rfl, fun _ _ => rfl⟩
  have h := foldl_held env ds _ _ hd h0
  have hv := after_final (standard q) ds (fun _ => none) hd
  have hv' : final (modern.reads (.std (standard q))) ds .before = valueOf (ds.foldl after (fun _ => none) (standard q)) := hv
  rw [hv']
  generalize hf : ds.foldl after (fun _ => none) = f at h ⊢
  have goal : final (b.reads (.leg q)) (flushOut env (ds.foldl (handle env) ({}, [])).1) .before = (valueOf (f (standard q))).convert (env.conv q) := by
    have hc : (valueOf (f (standard q))).convert (env.conv q) = converted env q (f (standard q)) .before := by cases f (standard q) <;> rfl
    have hs : ∀ (p : Long) (l9 : Option Leg) (l12 : Leg) (s : Value V), (∀ q, l9 = some q → standard q = p) → standard l12 = p → standard q ≠ p →
        final (b.reads (.leg q)) (legacy env p l9 l12 ((ds.foldl (handle env) ({}, [])).1.slot (.std p))) s = s :=
      fun p l9 l12 s h9 h12 hne => legacy_see env b _ p l9 l12 _ s h9 h12 (fun q' e e' => absurd (by rw [Key.leg.inj e]; exact e') hne)
    have hg : ∀ (l9 : Option Leg) (l12 : Leg) (s : Value V), ((of2009 q = true ∧ l9 = some q ∧ l12 ≠ q) ∨ (of2009 q = false ∧ l12 = q ∧ l9 ≠ some q)) →
        final (b.reads (.leg q)) (legacy env (standard q) l9 l12 ((ds.foldl (handle env) ({}, [])).1.slot (.std (standard q)))) s = converted env q (f (standard q)) s :=
      fun l9 l12 s hq => by rw [h.std]; exact legacy_gives env he b q l9 l12 _ ha hq s
    rw [hc]
    simp only [flushOut, final_append, gap_other, group_other, legs_see, h.leg, see]
    cases q with
    | linePack =>
      rw [hs .alignItems _ _ _ (by rintro q ⟨⟩; rfl) rfl (by decide), hs .alignSelf _ _ _ (by rintro q ⟨⟩) rfl (by decide),
        hs .justifyContent _ _ _ (by rintro q ⟨⟩; rfl) rfl (by decide)]
      exact hg none .linePack _ (by decide)
    | boxPack =>
      rw [hs .alignItems _ _ _ (by rintro q ⟨⟩; rfl) rfl (by decide), hs .alignSelf _ _ _ (by rintro q ⟨⟩) rfl (by decide),
        hs .alignContent _ _ _ (by rintro q ⟨⟩) rfl (by decide)]
      exact hg (some .boxPack) .flexPack _ (by decide)
    | flexPack =>
      rw [hs .alignItems _ _ _ (by rintro q ⟨⟩; rfl) rfl (by decide), hs .alignSelf _ _ _ (by rintro q ⟨⟩) rfl (by decide),
        hs .alignContent _ _ _ (by rintro q ⟨⟩) rfl (by decide)]
      exact hg (some .boxPack) .flexPack _ (by decide)
    | itemAlign =>
      rw [hs .alignItems _ _ _ (by rintro q ⟨⟩; rfl) rfl (by decide), hs .justifyContent _ _ _ (by rintro q ⟨⟩; rfl) rfl (by decide),
        hs .alignContent _ _ _ (by rintro q ⟨⟩) rfl (by decide)]
      exact hg none .itemAlign _ (by decide)
    | boxAlign =>
      rw [hs .alignSelf _ _ _ (by rintro q ⟨⟩) rfl (by decide), hs .justifyContent _ _ _ (by rintro q ⟨⟩; rfl) rfl (by decide),
        hs .alignContent _ _ _ (by rintro q ⟨⟩) rfl (by decide)]
      exact hg (some .boxAlign) .flexAlign _ (by decide)
    | flexAlign =>
      rw [hs .alignSelf _ _ _ (by rintro q ⟨⟩) rfl (by decide), hs .justifyContent _ _ _ (by rintro q ⟨⟩; rfl) rfl (by decide),
        hs .alignContent _ _ _ (by rintro q ⟨⟩) rfl (by decide)]
      exact hg (some .boxAlign) .flexAlign _ (by decide)
  unfold run flush
  by_cases hany : (ds.foldl (handle env) ({}, [])).1.any = true
  · rw [if_pos hany, h.dest]; exact goal
  · rw [if_neg hany, h.dest, h.any (by simpa using hany)]; rfl

/-! ### The values -/

/-- **C208** A converted value has the same layout, and the older property has it. -/
theorem convert_sound (q : Leg) (v : Val) (o : Old) (h : convert q v = some o) : v.layout = some o.layout ∧ o ∈ q.has := by
  cases q <;> cases v <;> simp only [convert, toBoxAlign, toBoxPack, toFlexPack, toItemAlign, toLinePack, Option.some.injEq, reduceCtorEq] at h <;>
    subst h <;> decide

/-- **C208 (partial)** Every value except `baseline` is converted if the older property has one for the same layout. What is missing: `C208_baseline`. -/
theorem convert_complete_partial (q : Leg) (v : Val) (o : Old) (ho : o ∈ q.has) (h : v.layout = some o.layout) (hb : v ≠ .baseline) : convert q v = some o := by
  cases q <;> cases v <;> cases o <;> first | rfl | (exact absurd rfl hb) | (exact absurd h (by decide)) | (exact absurd ho (by decide))

/-- `align-items: baseline` and `align-self: baseline` are not written for the older drafts, though these have `baseline`: the items are stretched. -/
theorem C208_baseline : Val.baseline.layout = some Old.baseline.layout ∧ Old.baseline ∈ Leg.boxAlign.has ∧ convert .boxAlign .baseline = none ∧
    Old.baseline ∈ Leg.flexAlign.has ∧ convert .flexAlign .baseline = none ∧ Old.baseline ∈ Leg.itemAlign.has ∧ convert .itemAlign .baseline = none := by decide

/-! ### What goes wrong -/

/-- No targets. -/
def noTargets : Env Nat := ⟨false, false, fun _ vp => vp, fun _ => true, fun _ v => some v⟩

/-- Internet Explorer 10, which has the drafts of 2012, among the targets. -/
def withIE : Env Nat := ⟨true, false, fun _ vp => if vp.none then ⟨true, false, false, true⟩ else vp, fun _ => false, fun _ v => some v⟩

/-- A browser with `-ms-` only. -/
def ie : Browser := ⟨⟨false, false, false, true⟩, fun _ => false, false⟩

example : Prefixes noTargets := ⟨fun _ _ h => h, fun _ _ _ => rfl⟩
example : Prefixes withIE := ⟨fun _ vp h => by simp [withIE, h], fun _ vp h => by simp [withIE, h]⟩

/-- `-webkit-align-items: 1; align-items: 1; -webkit-align-items: 2`: the last value also replaces that of the unprefixed property. -/
theorem C207_overwritten : ∃ ds : List (Decl Nat), final (modern.reads (.std .alignItems)) ds .before = .val 1 ∧
    final (modern.reads (.std .alignItems)) (run noTargets ds) .before = .val 2 :=
  ⟨[.one (.std .alignItems) 1 ⟨false, true, false, false⟩, .one (.std .alignItems) 1 Vp.plain, .one (.std .alignItems) 2 ⟨false, true, false, false⟩], by decide, by decide⟩

/-- `column-gap: 1; row-gap: 2` is written as `gap` for all targets: a browser that only has `column-gap`, from multi-column layout, loses it. -/
theorem C207_gap : ∃ (b : Browser) (ds : List (Decl Nat)), b.known = Vp.plain ∧ final (b.reads (.std .columnGap)) ds .before = .val 1 ∧
    final (b.reads (.std .columnGap)) (run withIE ds) .before = .before :=
  ⟨⟨Vp.plain, fun _ => false, false⟩, [.one (.std .columnGap) 1 Vp.plain, .one (.std .rowGap) 2 Vp.plain], rfl, by decide, by decide⟩

/-- Without targets, `-webkit-align-items: 1; align-items: 1` loses the prefixed declaration: a browser that needs it gets nothing. -/
theorem C209_prefix_lost : ∃ (b : Browser) (ds : List (Decl Nat)), final (b.reads (.std .alignItems)) ds .before = .val 1 ∧
    final (b.reads (.std .alignItems)) (run noTargets ds) .before = .before :=
  ⟨⟨⟨false, true, false, false⟩, fun _ => false, false⟩, [.one (.std .alignItems) 1 ⟨false, true, false, false⟩, .one (.std .alignItems) 1 Vp.plain], by decide, by decide⟩

/-- Without targets, `-ms-flex-align: 1; align-items: 1` loses the former. -/
theorem C209_lost : ∃ ds : List (Decl Nat), final (ie.reads (.leg .flexAlign)) ds .before = .val 1 ∧ final (ie.reads (.leg .flexAlign)) (run noTargets ds) .before = .before :=
  ⟨[.one (.leg .flexAlign) 1 Vp.msOnly, .one (.std .alignItems) 1 Vp.plain], by decide, by decide⟩

/-- `align-items: 1; -ms-flex-align: 2`, with Internet Explorer 10 among the targets: the declaration made from the former is written after the latter. -/
theorem C209_overridden : ∃ ds : List (Decl Nat), final (ie.reads (.leg .flexAlign)) ds .before = .val 2 ∧ final (ie.reads (.leg .flexAlign)) (run withIE ds) .before = .val 1 :=
  ⟨[.one (.std .alignItems) 1 Vp.plain, .one (.leg .flexAlign) 2 Vp.msOnly], by decide, by decide⟩

/-! ### Examples -/

/-- The hypotheses of C207 and C209 hold for `-webkit-align-items: 1; place-items: 2 3; -ms-flex-pack: 4; justify-self: 5; align-self: 6`. -/
def exampleBlock : List (Decl Nat) :=
  [.one (.std .alignItems) 1 ⟨false, true, false, false⟩, .place .items 2 3, .one (.leg .flexPack) 4 Vp.msOnly, .one (.std .justifySelf) 5 Vp.plain, .one (.std .alignSelf) 6 Vp.plain]

example : (∀ d ∈ exampleBlock, WellFormed d) ∧ Shorthands modern exampleBlock ∧ PrefixedFirst modern (.std .alignItems) exampleBlock ∧
    (∀ d ∈ exampleBlock, says (.std (standard .flexPack)) d = none) := by
  refine ⟨?_, fun _ _ _ _ => rfl, ?_, by decide⟩
  · intro d hd
    simp only [exampleBlock, List.mem_cons, List.not_mem_nil, or_false] at hd
    rcases hd with rfl | rfl | rfl | rfl | rfl
    · exact .inl rfl
    · trivial
    · trivial
    · exact .inr rfl
    · exact .inr rfl
  · unfold PrefixedFirst exampleBlock; decide

example : run noTargets exampleBlock = [.one (.std .alignItems) 1 ⟨false, true, false, false⟩, .one (.leg .flexPack) 4 Vp.msOnly, .place .self 6 5, .place .items 2 3] := by decide

example : Asks withIE ie .flexAlign ∧ run withIE [.place .items 2 3, .one (.std .alignItems) 4 Vp.plain] =
    [.one (.leg .flexAlign) 4 Vp.msOnly, .one (.std .alignItems) 4 Vp.plain, .one (.std .justifyItems) 3 Vp.plain] := by
  refine ⟨by simp [Asks, of2009, withIE, Vp.plain, ie], by decide⟩

end Verif.Align
