import Verif.Flex.Spec
namespace Verif.Flex
open Spec
variable {V : Type}

theorem final_append (r : Decl V → Option (Value V)) (a b : List (Decl V)) (s : Value V) : final r (a ++ b) s = final r b (final r a s) := by
  induction a generalizing s with
  | nil => rfl
  | cons d a ih => exact ih _

theorem final_none (r : Decl V → Option (Value V)) (a : List (Decl V)) (h : ∀ d ∈ a, r d = none) (s : Value V) : final r a s = s := by
  induction a generalizing s with
  | nil => rfl
  | cons d a ih =>
    show final r a ((r d).getD s) = s
    rw [h d List.mem_cons_self]
    exact ih (fun x hx => h x (List.mem_cons_of_mem _ hx)) s

/-- What a browser sees of a value with prefixes. -/
def see (al : Bool) (o : Option (V × Vp)) (s : Value V) : Value V := match o with
  | some (v, vp) => if meets (browser al) vp then .val v else s
  | none => s

theorem meets_browser (al : Bool) (vp : Vp) : meets (browser al) vp = (vp.none || (al && vp.webkit)) := by
  cases al <;> simp [meets, browser]

theorem legacies_none (al : Bool) (p : Std) (h : Handler V) : ∀ d ∈ legacies h, modern (browser al) p d = none := by
  intro d hd
  unfold legacies at hd
  obtain ⟨q, _, hq⟩ := List.mem_flatMap.1 hd
  unfold legacy at hq
  cases hl : h.leg q with
  | none => rw [hl] at hq; cases hq
  | some x =>
    rw [hl] at hq
    simp only at hq
    by_cases hx : x.2.isEmpty = true
    · rw [if_pos hx] at hq; cases hq
    · rw [if_neg hx] at hq; rw [List.mem_singleton.1 hq]; rfl

theorem direction2009_none (al : Bool) (p : Std) (env : Env V) (o : Option (V × Vp)) : ∀ d ∈ direction2009 env o, modern (browser al) p d = none := by
  intro d hd
  cases o with
  | none => cases hd
  | some x =>
    unfold direction2009 at hd
    simp only at hd
    by_cases hx : (env.browsers && !(prefixes2009 env (env.prefixes (.std .direction) Vp.plain)).isEmpty) = true
    · rw [if_pos hx] at hd
      simp only [List.mem_cons, List.not_mem_nil, or_false] at hd
      rcases hd with rfl | rfl <;> rfl
    · rw [if_neg hx] at hd; cases hd

theorem grow2009_none (al : Bool) (p : Std) (env : Env V) (o : Option (V × Vp)) : ∀ d ∈ grow2009 env o, modern (browser al) p d = none := by
  intro d hd
  cases o with
  | none => cases hd
  | some x =>
    unfold grow2009 at hd
    simp only at hd
    by_cases hx : (env.browsers && !(prefixes2009 env (env.prefixes (.std .grow) Vp.plain)).isEmpty) = true
    · rw [if_pos hx] at hd; rw [List.mem_singleton.1 hd]; rfl
    · rw [if_neg hx] at hd; cases hd

/-- The prefixes that are written meet those of the browser if and only if those that are held do. -/
theorem prefixes_meet (env : Env V) (he : Prefixes env) (al : Bool) (f : Feature) (vp : Vp) (b : Bool) :
    meets (browser al) (((if b then (env.prefixes f vp).remove Vp.msOnly else env.prefixes f vp)).remove Vp.mozOnly) = meets (browser al) vp := by
  simp only [meets_browser]
  cases hn : vp.none with
  | true =>
    have := he.plain f vp hn
    cases b <;> simp [Vp.remove, Vp.msOnly, Vp.mozOnly, this]
  | false =>
    rw [he.other f vp hn]
    cases b <;> simp [Vp.remove, Vp.msOnly, Vp.mozOnly, hn]

theorem single_see (env : Env V) (he : Prefixes env) (al : Bool) (q : Std) (l2 : Option Leg) (l9 : Option (Leg × (V → Option V))) (o : Option (V × Vp)) (p : Std) (s : Value V) :
    final (modern (browser al) p) (single env q l2 l9 o) s = if q = p then see al o s else s := by
  cases o with
  | none => simp [single, final, see]
  | some x =>
    obtain ⟨v, vp⟩ := x
    unfold single
    simp only
    by_cases hx : vp.isEmpty = true
    · rw [if_pos hx]
      have : meets (browser al) vp = false := by
        rw [meets_browser]; simp only [Vp.isEmpty, Bool.and_eq_true, Bool.not_eq_true'] at hx; simp [hx]
      simp [final, see, this]
    · rw [if_neg hx, final_append, final_none _ (_ ++ _)]
      · show (modern (browser al) p (.std q v _)).getD s = _
        unfold modern valueFor
        by_cases hq : q = p
        · simp only [if_pos hq]
          rw [prefixes_meet env he al (.std q) vp]
          unfold see
          simp only
          by_cases hm : meets (browser al) vp = true
          · rw [if_pos hm, if_pos hm]; rfl
          · rw [if_neg hm, if_neg hm]; rfl
        · simp only [if_neg hq]; rfl
      · intro d hd
        rw [List.mem_append] at hd
        rcases hd with hd | hd
        · cases l9 with
          | none => cases hd
          | some y =>
            obtain ⟨q', fr⟩ := y
            simp only at hd
            by_cases hc : ((env.prefixes (.std q) vp).none && env.browsers && !(prefixes2009 env (env.prefixes (.std q) vp)).isEmpty) = true
            · rw [if_pos hc] at hd
              cases hf : fr v with
              | none => rw [hf] at hd; cases hd
              | some w => rw [hf] at hd; rw [List.mem_singleton.1 hd]; rfl
            · rw [if_neg hc] at hd; cases hd
        · cases l2 with
          | none => cases hd
          | some q' =>
            simp only at hd
            by_cases hc : (env.prefixes (.std q) vp).ms = true
            · rw [if_pos hc] at hd; rw [List.mem_singleton.1 hd]; rfl
            · rw [if_neg hc] at hd; cases hd

theorem meet_split (al : Bool) (vp c : Vp) (hc : ∀ a : Vp → Bool, a = Vp.none ∨ a = Vp.webkit → a c = true → a vp = true) : meets (browser al) vp = (meets (browser al) c || meets (browser al) (vp.remove c)) := by
  rw [meets_browser, meets_browser, meets_browser]
  have h1 := hc Vp.none (.inl rfl)
  have h2 := hc Vp.webkit (.inr rfl)
  obtain ⟨a1, a2, a3, a4⟩ := vp
  obtain ⟨c1, c2, c3, c4⟩ := c
  simp only [Vp.remove] at *
  cases a1 <;> cases a2 <;> cases c1 <;> cases c2 <;> cases al <;> simp_all

theorem not_empty (al : Bool) (c : Vp) (h : c.isEmpty = true) : meets (browser al) c = false := by
  rw [meets_browser]; simp only [Vp.isEmpty, Bool.and_eq_true, Bool.not_eq_true'] at h; simp [h]

/-- A shorthand with the common prefixes and a longhand with the others are seen like the held value. -/
theorem see_rest (al : Bool) (v : V) (vp c : Vp) (s : Value V) (hc : ∀ a : Vp → Bool, a = Vp.none ∨ a = Vp.webkit → a c = true → a vp = true) :
    see al (rest (some (v, vp)) c) (if meets (browser al) c then .val v else s) = see al (some (v, vp)) s := by
  unfold rest see
  simp only [Option.map_some]
  rw [meet_split al vp c hc]
  cases meets (browser al) c <;> cases meets (browser al) (vp.remove c) <;> simp

theorem rest_empty (al : Bool) (o : Option (V × Vp)) (s : Value V) : see al (rest o Vp.empty) s = see al o s := by
  cases o with
  | none => rfl
  | some x =>
    obtain ⟨v, a, b, c, d⟩ := x
    simp [rest, see, Vp.remove, Vp.empty]

theorem and_sub (a b : Vp) : (∀ x : Vp → Bool, x = Vp.none ∨ x = Vp.webkit → x (a.and b) = true → x a = true) ∧ (∀ x : Vp → Bool, x = Vp.none ∨ x = Vp.webkit → x (a.and b) = true → x b = true) := by
  constructor <;> · rintro x (rfl | rfl) h <;> simp_all [Vp.and]

theorem flow_see (env : Env V) (he : Prefixes env) (al : Bool) (h : Handler V) (p : Std) (s : Value V) :
    final (modern (browser al) p) (flowOut env h) s = match p, h.std .direction, h.std .wrap with
      | .direction, some d, some _ => if meets (browser al) (flowCommon h) then .val d.1 else s
      | .wrap, some _, some w => if meets (browser al) (flowCommon h) then .val w.1 else s
      | _, _, _ => s := by
  unfold flowOut
  cases hd : h.std .direction with
  | none => cases p <;> rfl
  | some d =>
    cases hw : h.std .wrap with
    | none => cases p <;> rfl
    | some w =>
      simp only
      by_cases hc : (flowCommon h).isEmpty = true
      · rw [if_pos hc]
        have := not_empty al _ hc
        cases p <;> simp [final, this]
      · rw [if_neg hc]
        have hm := prefixes_meet env he al .flow (flowCommon h) false
        simp only [Bool.false_eq_true, if_false] at hm
        show (modern (browser al) p (.flow d.1 w.1 _)).getD s = _
        unfold modern valueFor
        cases p <;> simp only [hm] <;> first | rfl | (cases meets (browser al) (flowCommon h) <;> rfl)

theorem flex_see (env : Env V) (he : Prefixes env) (al : Bool) (h : Handler V) (p : Std) (s : Value V) :
    final (modern (browser al) p) (flexOut env h) s = match p, h.std .grow, h.std .shrink, h.std .basis with
      | .grow, some g, some _, some _ => if meets (browser al) (flexCommon h) then .val g.1 else s
      | .shrink, some _, some sh, some _ => if meets (browser al) (flexCommon h) then .val sh.1 else s
      | .basis, some _, some _, some b => if meets (browser al) (flexCommon h) then .val b.1 else s
      | _, _, _, _ => s := by
  unfold flexOut
  cases hg : h.std .grow with
  | none => cases p <;> rfl
  | some g =>
    cases hs : h.std .shrink with
    | none => cases p <;> rfl
    | some sh =>
      cases hb : h.std .basis with
      | none => cases p <;> rfl
      | some b =>
        simp only
        by_cases hc : (flexCommon h).isEmpty = true
        · rw [if_pos hc]
          have := not_empty al _ hc
          cases p <;> simp [final, this]
        · rw [if_neg hc]
          have hm := prefixes_meet env he al .flex (flexCommon h) false
          simp only [Bool.false_eq_true, if_false] at hm
          show (modern (browser al) p (.flex g.1 sh.1 b.1 _)).getD s = _
          unfold modern valueFor
          cases p <;> simp only [hm] <;> first | rfl | (cases meets (browser al) (flexCommon h) <;> rfl)

theorem flushOut_see (env : Env V) (he : Prefixes env) (al : Bool) (h : Handler V) (p : Std) (s : Value V) :
    final (modern (browser al) p) (flushOut env h) s = see al (h.std p) s := by
  unfold flushOut
  simp only [final_append]
  rw [final_none _ _ (legacies_none al p h), final_none _ _ (direction2009_none al p env _), flow_see env he]
  simp only [single_see env he]
  rw [final_none _ _ (grow2009_none al p env _), flex_see env he]
  cases p with
  | direction =>
    simp only [if_true, reduceCtorEq, if_false]
    cases hd : h.std .direction with
    | none => simp [rest, see]
    | some d =>
      cases hw : h.std .wrap with
      | none =>
        simp only
        have : flowCommon h = Vp.empty := by simp [flowCommon, hd, hw]
        rw [this]; exact rest_empty al _ s
      | some w =>
        simp only
        have : flowCommon h = d.2.and w.2 := by simp [flowCommon, hd, hw]
        rw [this]; exact see_rest al d.1 d.2 _ s (and_sub _ _).1
  | wrap =>
    simp only [if_true, reduceCtorEq, if_false]
    cases hd : h.std .direction with
    | none =>
      have : flowCommon h = Vp.empty := by simp [flowCommon, hd]
      rw [this]; exact rest_empty al _ s
    | some d =>
      cases hw : h.std .wrap with
      | none => simp [rest, see]
      | some w =>
        simp only
        have : flowCommon h = d.2.and w.2 := by simp [flowCommon, hd, hw]
        rw [this]; exact see_rest al w.1 w.2 _ s (and_sub _ _).2
  | order => simp only [if_true, reduceCtorEq, if_false]
  | grow =>
    simp only [if_true, reduceCtorEq, if_false]
    cases hg : h.std .grow with
    | none => simp [rest, see]
    | some g =>
      cases hs : h.std .shrink with
      | none =>
        have : flexCommon h = Vp.empty := by simp [flexCommon, hg, hs]
        rw [this]; exact rest_empty al _ s
      | some sh =>
        cases hb : h.std .basis with
        | none =>
          have : flexCommon h = Vp.empty := by simp [flexCommon, hg, hs, hb]
          rw [this]; exact rest_empty al _ s
        | some b =>
          simp only
          have : flexCommon h = (g.2.and sh.2).and b.2 := by simp [flexCommon, hg, hs, hb]
          rw [this]; exact see_rest al g.1 g.2 _ s (fun x hx hc => (and_sub _ _).1 x hx ((and_sub _ _).1 x hx hc))
  | shrink =>
    simp only [if_true, reduceCtorEq, if_false]
    cases hg : h.std .grow with
    | none =>
      have : flexCommon h = Vp.empty := by simp [flexCommon, hg]
      rw [this]; exact rest_empty al _ s
    | some g =>
      cases hs : h.std .shrink with
      | none => simp [rest, see]
      | some sh =>
        cases hb : h.std .basis with
        | none =>
          have : flexCommon h = Vp.empty := by simp [flexCommon, hg, hs, hb]
          rw [this]; exact rest_empty al _ s
        | some b =>
          simp only
          have : flexCommon h = (g.2.and sh.2).and b.2 := by simp [flexCommon, hg, hs, hb]
          rw [this]; exact see_rest al sh.1 sh.2 _ s (fun x hx hc => (and_sub _ _).2 x hx ((and_sub _ _).1 x hx hc))
  | basis =>
    simp only [if_true, reduceCtorEq, if_false]
    cases hg : h.std .grow with
    | none =>
      have : flexCommon h = Vp.empty := by simp [flexCommon, hg]
      rw [this]; exact rest_empty al _ s
    | some g =>
      cases hs : h.std .shrink with
      | none =>
        have : flexCommon h = Vp.empty := by simp [flexCommon, hg, hs]
        rw [this]; exact rest_empty al _ s
      | some sh =>
        cases hb : h.std .basis with
        | none => simp [rest, see]
        | some b =>
          simp only
          have : flexCommon h = (g.2.and sh.2).and b.2 := by simp [flexCommon, hg, hs, hb]
          rw [this]; exact see_rest al b.1 b.2 _ s (and_sub _ _).2

/-- The invariant for a longhand: what is written and held is what the browser has read so far; what it sees of the held value, it has read before. -/
structure Inv (al : Bool) (p : Std) (x : Handler V × List (Decl V)) (seen : Bool) (s t : Value V) : Prop where
  none : x.1.any = false → x.1.std p = none
  eq : see al (x.1.std p) (final (modern (browser al) p) x.2 s) = t
  seen : ∀ v vp, x.1.std p = some (v, vp) → meets (browser al) vp = true → seen = true

theorem flush_inv (env : Env V) (he : Prefixes env) (al : Bool) (p : Std) (x : Handler V × List (Decl V)) (seen : Bool) (s t : Value V) (h : Inv al p x seen s t) :
    Inv al p (flush env x) seen s t ∧ (flush env x).1.std p = none ∧ final (modern (browser al) p) (flush env x).2 s = t := by
  unfold flush
  by_cases ha : x.1.any = true
  · rw [if_pos ha]
    have e : final (modern (browser al) p) (x.2 ++ flushOut env x.1) s = t := by rw [final_append, flushOut_see env he]; exact h.eq
    exact ⟨⟨fun _ => rfl, e, (by intro _ _ h; cases h)⟩, rfl, e⟩
  · rw [if_neg ha]
    have hn := h.none (by simpa using ha)
    refine ⟨h, hn, ?_⟩
    have := h.eq
    rwa [hn] at this

theorem clear_inv (env : Env V) (al : Bool) (p : Std) (x : Handler V × List (Decl V)) (c : Leg → Bool) (seen : Bool) (s t : Value V) (h : Inv al p x seen s t) : Inv al p (clear env x c) seen s t := by
  unfold clear
  by_cases hb : env.browsers = true
  · rw [if_pos hb]; exact ⟨h.none, h.eq, h.seen⟩
  · rw [if_neg hb]; exact h

variable [DecidableEq V]

theorem maybe_inv (env : Env V) (he : Prefixes env) (al : Bool) (p q : Std) (v : V) (vp : Vp) (x : Handler V × List (Decl V)) (seen : Bool) (s t : Value V) (h : Inv al p x seen s t) : Inv al p (maybeFlush env x q v vp) seen s t := by
  unfold maybeFlush
  cases hq : x.1.std q with
  | none => exact h
  | some y =>
    obtain ⟨w, hv⟩ := y
    simp only
    by_cases hc : w ≠ v ∧ hv.contains vp = false
    · rw [if_pos hc]; exact (flush_inv env he al p x seen s t h).1
    · rw [if_neg hc]; exact h

omit [DecidableEq V] in
theorem or_meets (al : Bool) (a b : Vp) : meets (browser al) (a.or b) = (meets (browser al) a || meets (browser al) b) := by
  simp only [meets_browser, Vp.or]
  cases a.none <;> cases b.none <;> cases a.webkit <;> cases b.webkit <;> cases al <;> rfl

theorem property_inv (env : Env V) (he : Prefixes env) (al : Bool) (p q : Std) (v : V) (vp : Vp) (x : Handler V × List (Decl V)) (seen : Bool) (s t : Value V) (h : Inv al p x seen s t) (hs : q = p → seen = true → meets (browser al) vp = true) :
    Inv al p (property env x q v vp) (seen || (q = p && meets (browser al) vp)) s (if q = p ∧ meets (browser al) vp = true then .val v else t) := by
  have h1 := maybe_inv env he al p q v vp x seen s t h
  unfold property
  simp only
  generalize maybeFlush env x q v vp = y at h1 ⊢
  by_cases hq : q = p
  · subst hq
    refine ⟨?_, ?_, ?_⟩
    · intro ha
      simp only at ha
      have ⟨h2, h3⟩ := Bool.or_eq_false_iff.1 ha
      have := h1.none h2
      rw [this] at h3; cases h3
    · simp only [if_true]
      cases hy : y.1.std q with
      | none =>
        have := h1.eq
        rw [hy] at this
        simp only [merged, see]
        rw [show final (modern (browser al) q) y.2 s = t from this]
        by_cases hm : meets (browser al) vp = true <;> simp [hm]
      | some z =>
        obtain ⟨w, hv⟩ := z
        have he' := h1.eq
        rw [hy] at he'
        simp only [merged, see, or_meets] at he' ⊢
        cases hm : meets (browser al) vp with
        | true => simp
        | false =>
          cases hm2 : meets (browser al) hv with
          | true =>
            have := hs rfl (h1.seen w hv hy hm2)
            rw [hm] at this; cases this
          | false => rw [hm2] at he'; simpa using he'
    · intro w wp hw hm
      simp only [if_true] at hw
      have hw' := Option.some.inj hw
      cases hy : y.1.std q with
      | none =>
        rw [hy] at hw'; simp only [merged, Prod.mk.injEq] at hw'
        rw [← hw'.2] at hm; simp [hm]
      | some z =>
        obtain ⟨w', hv⟩ := z
        rw [hy] at hw'; simp only [merged, Prod.mk.injEq] at hw'
        rw [← hw'.2, or_meets] at hm
        cases hm2 : meets (browser al) hv with
        | true => rw [h1.seen w' hv hy hm2]; rfl
        | false => rw [hm2] at hm; simp only [Bool.false_or] at hm; simp [hm]
  · have hqp : ¬ (p = q) := fun e => hq e.symm
    refine ⟨?_, ?_, ?_⟩
    · intro ha
      simp only [if_neg hqp] at ha ⊢
      exact h1.none (Bool.or_eq_false_iff.1 ha).1
    · simp only [if_neg hqp]
      rw [if_neg (fun h => hq h.1)]; exact h1.eq
    · intro w wp hw hm
      simp only [if_neg hqp] at hw
      rw [h1.seen w wp hw hm]; rfl

theorem propertyLeg_inv (env : Env V) (he : Prefixes env) (al : Bool) (p : Std) (q : Leg) (v : V) (vp : Vp) (x : Handler V × List (Decl V)) (seen : Bool) (s t : Value V) (h : Inv al p x seen s t) : Inv al p (propertyLeg env x q v vp) seen s t := by
  have h1 : Inv al p (maybeFlushLeg env x q v vp) seen s t := by
    unfold maybeFlushLeg
    cases hq : x.1.leg q with
    | none => exact h
    | some y =>
      obtain ⟨w, hv⟩ := y
      simp only
      by_cases hc : w ≠ v ∧ hv.contains vp = false
      · rw [if_pos hc]; exact (flush_inv env he al p x seen s t h).1
      · rw [if_neg hc]; exact h
  unfold propertyLeg
  simp only
  generalize maybeFlushLeg env x q v vp = y at h1 ⊢
  exact ⟨fun ha => h1.none (Bool.or_eq_false_iff.1 ha).1, h1.eq, h1.seen⟩

theorem handle_inv (env : Env V) (he : Prefixes env) (al : Bool) (p : Std) (d : Decl V) (x : Handler V × List (Decl V)) (seen : Bool) (s t : Value V) (h : Inv al p x seen s t)
    (hs : seen = true → (valueFor p d).isSome → (modern (browser al) p d).isSome) :
    Inv al p (handle env x d) (seen || (modern (browser al) p d).isSome) s ((modern (browser al) p d).getD t) := by
  cases d with
  | std q v vp =>
    have := property_inv env he al p q v vp _ seen s t (clear_inv env al p x (clears q) seen s t h) (by
      intro hq hse
      have := hs hse (by simp [valueFor, hq])
      simp only [modern, valueFor, if_pos hq] at this
      by_cases hm : meets (browser al) vp = true
      · exact hm
      · rw [if_neg hm] at this; cases this)
    simp only [handle]
    by_cases hq : q = p
    · simp only [modern, valueFor, if_pos hq] at this ⊢
      cases hm : meets (browser al) vp <;> simpa [hq, hm] using this
    · simp only [modern, valueFor, if_neg hq] at this ⊢
      simpa [hq] using this
  | leg q v vp =>
    have := propertyLeg_inv env he al p q v vp x seen s t h
    simpa [handle, modern, valueFor] using this
  | flow d w vp =>
    simp only [handle]
    have hc := clear_inv env al p x (clears .direction) seen s t h
    have hm : seen = true → (p = .direction ∨ p = .wrap) → meets (browser al) vp = true := by
      intro hse hp
      have := hs hse (by rcases hp with rfl | rfl <;> rfl)
      rcases hp with rfl | rfl <;> (simp only [modern, valueFor] at this; by_cases hm : meets (browser al) vp = true; exact hm; rw [if_neg hm] at this; cases this)
    have h1 := property_inv env he al p .direction d vp _ seen s t hc (fun hq hse => hm hse (.inl hq.symm))
    have h2 := property_inv env he al p .wrap w vp _ _ s _ h1 (by
      intro hq hse
      subst hq
      simp only [reduceCtorEq, decide_false, Bool.false_and, Bool.or_false] at hse
      exact hm hse (.inr rfl))
    cases p <;> simp only [modern, valueFor, reduceCtorEq, decide_false, decide_true, Bool.false_and, Bool.or_false, Bool.true_and, false_and, true_and, if_false] at h2 ⊢ <;>
      first
      | exact h2
      | (simpa using h2)
      | (cases hm' : meets (browser al) vp <;> simpa [hm'] using h2)
  | flex g sh b vp =>
    simp only [handle]
    have hm : seen = true → (p = .grow ∨ p = .shrink ∨ p = .basis) → meets (browser al) vp = true := by
      intro hse hp
      have := hs hse (by rcases hp with rfl | rfl | rfl <;> rfl)
      rcases hp with rfl | rfl | rfl <;> (simp only [modern, valueFor] at this; by_cases hm : meets (browser al) vp = true; exact hm; rw [if_neg hm] at this; cases this)
    have hc := clear_inv env al p x (fun q => clears .grow q || clears .shrink q || clears .basis q) seen s t h
    have m1 := maybe_inv env he al p .grow g vp _ seen s t hc
    have m2 := maybe_inv env he al p .shrink sh vp _ seen s t m1
    have m3 := maybe_inv env he al p .basis b vp _ seen s t m2
    have h1 := property_inv env he al p .grow g vp _ seen s t m3 (fun hq hse => hm hse (.inl hq.symm))
    have h2 := property_inv env he al p .shrink sh vp _ _ s _ h1 (by
      intro hq hse
      subst hq
      simp only [reduceCtorEq, decide_false, Bool.false_and, Bool.or_false] at hse
      exact hm hse (.inr (.inl rfl)))
    have h3 := property_inv env he al p .basis b vp _ _ s _ h2 (by
      intro hq hse
      subst hq
      simp only [reduceCtorEq, decide_false, Bool.false_and, Bool.or_false] at hse
      exact hm hse (.inr (.inr rfl)))
    cases p <;> simp only [modern, valueFor, reduceCtorEq, decide_false, decide_true, Bool.false_and, Bool.or_false, Bool.true_and, false_and, true_and, if_false] at h3 ⊢ <;>
      first
      | exact h3
      | (simpa using h3)
      | (cases hm' : meets (browser al) vp <;> simpa [hm'] using h3)
  | raw id vp u =>
    obtain ⟨hi, hn, e⟩ := flush_inv env he al p x seen s t h
    refine ⟨fun _ => hn, ?_, ?_⟩
    · show see al ((flush env x).1.std p) (final (modern (browser al) p) ((flush env x).2 ++ [.raw id vp u]) s) = _
      rw [hn, final_append, e]
      rfl
    · intro v vp' hv
      have hv' : (flush env x).1.std p = some (v, vp') := hv
      rw [hn] at hv'; cases hv'
  | rawLeg q vp u =>
    obtain ⟨hi, hn, e⟩ := flush_inv env he al p x seen s t h
    refine ⟨fun _ => hn, ?_, ?_⟩
    · show see al ((flush env x).1.std p) (final (modern (browser al) p) ((flush env x).2 ++ [.rawLeg q vp u]) s) = _
      rw [hn, final_append, e]
      rfl
    · intro v vp' hv
      have hv' : (flush env x).1.std p = some (v, vp') := hv
      rw [hn] at hv'; cases hv'

theorem run_inv (env : Env V) (he : Prefixes env) (al : Bool) (p : Std) (s : Value V) (ds : List (Decl V)) : ∀ (x : Handler V × List (Decl V)) (seen : Bool) (t : Value V), Inv al p x seen s t →
    PrefixedFirst (browser al) p ds → (seen = true → ∀ d ∈ ds, (valueFor p d).isSome → (modern (browser al) p d).isSome) →
    ∃ seen', Inv al p (ds.foldl (handle env) x) seen' s (final (modern (browser al) p) ds t) := by
  induction ds with
  | nil => intro x seen t h _ _; exact ⟨seen, h⟩
  | cons d ds ih =>
    intro x seen t h ho hs
    have hp := List.pairwise_cons.1 ho
    refine ih _ _ _ (handle_inv env he al p d x seen s t h (fun hse => hs hse d List.mem_cons_self)) hp.2 ?_
    intro hse e hm hv
    rcases Bool.or_eq_true_iff.1 hse with h1 | h1
    · exact hs h1 e (List.mem_cons_of_mem _ hm) hv
    · exact hp.1 e hm h1 hv

/-- **C161 (partial)** Minifying flexbox declarations leaves the six longhands the same for a modern browser (with or without `-webkit-` as alias), for all blocks in which no declaration of the longhand with unknown prefixes comes after one that the browser reads. What is missing: `C161_overwritten`. -/
theorem C161_modern_partial (env : Env V) (he : Prefixes env) (al : Bool) (p : Std) (ds : List (Decl V)) (ho : PrefixedFirst (browser al) p ds) (s : Value V) :
    final (modern (browser al) p) (run env ds) s = final (modern (browser al) p) ds s := by
  have h0 : Inv al p (({}, []) : Handler V × List (Decl V)) false s s := ⟨fun _ => rfl, rfl, (by intro _ _ h; cases h)⟩
  obtain ⟨seen, h⟩ := run_inv env he al p s ds _ false s h0 ho (fun h => nomatch h)
  exact (flush_inv env he al p _ seen s _ h).2.2


/-! ### Blocks of unprefixed declarations: what older browsers get -/

/-- What the handler holds after unprefixed declarations. -/
structure Held (x : Handler V × List (Decl V)) (f : Std → Option V) : Prop where
  dest : x.2 = []
  leg : ∀ q, x.1.leg q = none
  std : ∀ p, x.1.std p = (f p).map fun v => (v, Vp.plain)
  any : x.1.any = false → ∀ p, f p = none

omit [DecidableEq V] in
theorem clear_held (env : Env V) (x : Handler V × List (Decl V)) (f : Std → Option V) (c : Leg → Bool) (h : Held x f) : Held (clear env x c) f := by
  unfold clear
  by_cases hb : env.browsers = true
  · rw [if_pos hb]
    refine ⟨h.dest, fun q => ?_, h.std, h.any⟩
    show (if c q then none else x.1.leg q) = none
    rw [h.leg q]; split <;> rfl
  · rw [if_neg hb]; exact h

theorem maybe_held (env : Env V) (x : Handler V × List (Decl V)) (f : Std → Option V) (p : Std) (v : V) (h : Held x f) : maybeFlush env x p v Vp.plain = x := by
  unfold maybeFlush
  rw [h.std p]
  cases f p with
  | none => rfl
  | some w =>
    show (if w ≠ v ∧ Vp.plain.contains Vp.plain = false then _ else _) = _
    rw [if_neg (fun h => by cases h.2)]

theorem property_held (env : Env V) (x : Handler V × List (Decl V)) (f : Std → Option V) (p : Std) (v : V) (h : Held x f) : Held (property env x p v Vp.plain) (fun q => if q = p then some v else f q) := by
  unfold property
  rw [maybe_held env x f p v h]
  refine ⟨h.dest, h.leg, fun q => ?_, fun ha q => ?_⟩
  · show (if q = p then some (merged (x.1.std p) v Vp.plain) else x.1.std q) = _
    by_cases hq : q = p
    · rw [if_pos hq]
      simp only [if_pos hq]
      rw [h.std p]
      cases f p <;> rfl
    · rw [if_neg hq]
      simp only [if_neg hq]
      exact h.std q
  · have ha' : (x.1.any || (x.1.std p).isNone) = false := ha
    have ⟨h1, h2⟩ := Bool.or_eq_false_iff.1 ha'
    rw [h.std p, h.any h1 p] at h2
    cases h2

/-- The values after an unprefixed declaration. -/
def after (f : Std → Option V) (d : Decl V) : Std → Option V := fun p => match valueFor p d with
  | some (.val v, _) => some v
  | _ => f p

theorem handle_held (env : Env V) (x : Handler V × List (Decl V)) (f : Std → Option V) (d : Decl V) (hd : Plain d) (h : Held x f) : Held (handle env x d) (after f d) := by
  cases d with
  | std p v vp =>
    obtain rfl : vp = Vp.plain := hd
    have := property_held env _ f p v (clear_held env x f (clears p) h)
    have e : after f (.std p v Vp.plain) = fun q => if q = p then some v else f q := by
      funext q
      unfold after valueFor
      by_cases hq : q = p
      · simp [hq]
      · have : ¬ p = q := fun e => hq e.symm
        simp [hq, this]
    rw [e]; exact this
  | flow a b vp =>
    obtain rfl : vp = Vp.plain := hd
    have := property_held env _ _ .wrap b (property_held env _ f .direction a (clear_held env x f (clears .direction) h))
    have e : after f (.flow a b Vp.plain) = fun q => if q = .wrap then some b else if q = .direction then some a else f q := by
      funext q; cases q <;> rfl
    rw [e]; exact this
  | flex a b c vp =>
    obtain rfl : vp = Vp.plain := hd
    have hc := clear_held env x f (fun q => clears .grow q || clears .shrink q || clears .basis q) h
    have := property_held env _ _ .basis c (property_held env _ _ .shrink b (property_held env _ f .grow a hc))
    have e : after f (.flex a b c Vp.plain) = fun q => if q = .basis then some c else if q = .shrink then some b else if q = .grow then some a else f q := by
      funext q; cases q <;> rfl
    rw [e]
    simp only [handle]
    rw [maybe_held env _ f .grow a hc, maybe_held env _ f .shrink b hc, maybe_held env _ f .basis c hc]
    exact this
  | leg _ _ _ => exact hd.elim
  | raw _ _ _ => exact hd.elim
  | rawLeg _ _ _ => exact hd.elim

theorem foldl_held (env : Env V) (ds : List (Decl V)) : ∀ (x : Handler V × List (Decl V)) (f : Std → Option V), (∀ d ∈ ds, Plain d) → Held x f → Held (ds.foldl (handle env) x) (ds.foldl after f) := by
  induction ds with
  | nil => intro x f _ h; exact h
  | cons d ds ih =>
    intro x f hd h
    exact ih _ _ (fun e he => hd e (List.mem_cons_of_mem _ he)) (handle_held env x f d (hd d List.mem_cons_self) h)

/-- The value, or as before. -/
def valueOf : Option V → Value V
  | some v => .val v
  | none => .before

omit [DecidableEq V] in
theorem after_final (p : Std) (ds : List (Decl V)) : ∀ (f : Std → Option V), (∀ d ∈ ds, Plain d) → final (modern (browser false) p) ds (valueOf (f p)) = valueOf (ds.foldl after f p) := by
  induction ds with
  | nil => intro f _; rfl
  | cons d ds ih =>
    intro f hd
    have hp := hd d List.mem_cons_self
    have e : (modern (browser false) p d).getD (valueOf (f p)) = valueOf (after f d p) := by
      cases d with
      | std q v vp =>
        obtain rfl : vp = Vp.plain := hp
        by_cases hq : q = p <;> simp [modern, valueFor, after, hq, meets, browser, Vp.plain, valueOf]
      | flow a b vp =>
        obtain rfl : vp = Vp.plain := hp
        cases p <;> rfl
      | flex a b c vp =>
        obtain rfl : vp = Vp.plain := hp
        cases p <;> rfl
      | leg _ _ _ => exact hp.elim
      | raw _ _ _ => exact hp.elim
      | rawLeg _ _ _ => exact hp.elim
    show final (modern (browser false) p) ds ((modern (browser false) p d).getD (valueOf (f p))) = _
    rw [e]
    exact ih _ (fun e he => hd e (List.mem_cons_of_mem _ he))

/-- A block of unprefixed declarations is written at once. -/
theorem run_plain (env : Env V) (ds : List (Decl V)) (hd : ∀ d ∈ ds, Plain d) :
    ∃ (h : Handler V) (f : Std → Option V), (∀ q, h.leg q = none) ∧ (∀ p, h.std p = (f p).map fun v => (v, Vp.plain)) ∧ (∀ p, final (modern (browser false) p) ds .before = valueOf (f p)) ∧
      (run env ds = flushOut env h ∨ (run env ds = [] ∧ ∀ p, f p = none)) := by
  have h0 : Held (({}, []) : Handler V × List (Decl V)) (fun _ => none) := ⟨rfl, fun _ => rfl, fun _ => rfl, fun _ _ => rfl⟩
  have h := foldl_held env ds _ _ hd h0
  refine ⟨(ds.foldl (handle env) ({}, [])).1, ds.foldl after (fun _ => none), h.leg, h.std, fun p => after_final p ds (fun _ => none) hd, ?_⟩
  unfold run flush
  by_cases ha : (ds.foldl (handle env) ({}, [])).1.any = true
  · rw [if_pos ha, h.dest]; exact .inl rfl
  · rw [if_neg ha]; exact .inr ⟨h.dest, h.any (by simpa using ha)⟩


section
omit [DecidableEq V]

/-- Whether the draft of 2009 gets its own declarations: a browser with known prefixes among those that are added. -/
def asks (env : Env V) (known : Vp) (f : Feature) : Prop := meets known (prefixes2009 env (env.prefixes f Vp.plain)) = true

theorem asks_not_empty (known a : Vp) (h : meets known a = true) : a.isEmpty = false := by
  obtain ⟨a1, a2, a3, a4⟩ := a
  cases a1 <;> cases a2 <;> cases a3 <;> cases a4 <;> simp_all [meets, Vp.isEmpty]

theorem legacies_nil (h : Handler V) (hl : ∀ q, h.leg q = none) : legacies h = [] := by
  simp [legacies, hl, legacy]

theorem old_flow (known : Vp) (q : Leg) (env : Env V) (h : Handler V) : ∀ d ∈ flowOut env h, old known q d = none := by
  intro d hd
  unfold flowOut at hd
  cases h1 : h.std .direction with
  | none => rw [h1] at hd; cases hd
  | some a =>
    cases h2 : h.std .wrap with
    | none => rw [h1, h2] at hd; cases hd
    | some b =>
      rw [h1, h2] at hd
      simp only at hd
      by_cases hc : (flowCommon h).isEmpty = true
      · rw [if_pos hc] at hd; cases hd
      · rw [if_neg hc] at hd; rw [List.mem_singleton.1 hd]; rfl

theorem old_flex (known : Vp) (q : Leg) (env : Env V) (h : Handler V) : ∀ d ∈ flexOut env h, old known q d = none := by
  intro d hd
  unfold flexOut at hd
  cases h1 : h.std .grow with
  | none => rw [h1] at hd; cases hd
  | some a =>
    cases h2 : h.std .shrink with
    | none => rw [h1, h2] at hd; cases hd
    | some b =>
      cases h3 : h.std .basis with
      | none => rw [h1, h2, h3] at hd; cases hd
      | some c =>
        rw [h1, h2, h3] at hd
        simp only at hd
        by_cases hc : (flexCommon h).isEmpty = true
        · rw [if_pos hc] at hd; cases hd
        · rw [if_neg hc] at hd; rw [List.mem_singleton.1 hd]; rfl

theorem old_single (known : Vp) (q : Leg) (env : Env V) (p : Std) (l2 : Option Leg) (l9 : Option (Leg × (V → Option V))) (o : Option (V × Vp)) (h2 : l2 ≠ some q) (h9 : ∀ x ∈ l9, x.1 ≠ q) :
    ∀ d ∈ single env p l2 l9 o, old known q d = none := by
  intro d hd
  cases o with
  | none => cases hd
  | some x =>
    obtain ⟨v, vp⟩ := x
    unfold single at hd
    simp only at hd
    by_cases hx : vp.isEmpty = true
    · rw [if_pos hx] at hd; cases hd
    · rw [if_neg hx] at hd
      simp only [List.mem_append] at hd
      rcases hd with (hd | hd) | hd
      · cases l9 with
        | none => cases hd
        | some y =>
          obtain ⟨q', fr⟩ := y
          simp only at hd
          by_cases hc : ((env.prefixes (.std p) vp).none && env.browsers && !(prefixes2009 env (env.prefixes (.std p) vp)).isEmpty) = true
          · rw [if_pos hc] at hd
            cases hf : fr v with
            | none => rw [hf] at hd; cases hd
            | some w =>
              rw [hf] at hd; rw [List.mem_singleton.1 hd]
              have : ¬ q' = q := h9 _ rfl
              simp [old, this]
          · rw [if_neg hc] at hd; cases hd
      · cases l2 with
        | none => cases hd
        | some q' =>
          simp only at hd
          by_cases hc : (env.prefixes (.std p) vp).ms = true
          · rw [if_pos hc] at hd; rw [List.mem_singleton.1 hd]
            have : ¬ q' = q := fun e => h2 (by rw [e])
            simp [old, this]
          · rw [if_neg hc] at hd; cases hd
      · rw [List.mem_singleton.1 hd]; rfl

theorem none_some_ne {q : Leg} (l : Option (Leg × (V → Option V))) (h : l = none) : ∀ x ∈ l, x.1 ≠ q := by
  subst h; intro _ h; cases h

theorem direction_old (env : Env V) (hb : env.browsers = true) (known : Vp) (ha : asks env known (.std .direction)) (o : Option V) (s : Value V) :
    final (old known .orient) (direction2009 env (o.map fun v => (v, Vp.plain))) s = (match o with | some v => .val (env.orient v) | none => s) ∧
    final (old known .boxDirection) (direction2009 env (o.map fun v => (v, Vp.plain))) s = (match o with | some v => .val (env.boxDirection v) | none => s) := by
  cases o with
  | none => exact ⟨rfl, rfl⟩
  | some v =>
    have ha' : meets known (prefixes2009 env (env.prefixes (.std .direction) Vp.plain)) = true := ha
    simp [direction2009, hb, asks_not_empty known _ ha', final, old, ha']

theorem grow_old (env : Env V) (hb : env.browsers = true) (known : Vp) (ha : asks env known (.std .grow)) (o : Option V) (s : Value V) :
    final (old known .boxFlex) (grow2009 env (o.map fun v => (v, Vp.plain))) s = (match o with | some v => .val v | none => s) := by
  cases o with
  | none => rfl
  | some v =>
    have ha' : meets known (prefixes2009 env (env.prefixes (.std .grow) Vp.plain)) = true := ha
    simp [grow2009, hb, asks_not_empty known _ ha', final, old, ha']

theorem direction_other (env : Env V) (known : Vp) (q : Leg) (h1 : q ≠ .orient) (h2 : q ≠ .boxDirection) (o : Option (V × Vp)) : ∀ d ∈ direction2009 env o, old known q d = none := by
  intro d hd
  cases o with
  | none => cases hd
  | some x =>
    unfold direction2009 at hd
    simp only at hd
    by_cases hx : (env.browsers && !(prefixes2009 env (env.prefixes (.std .direction) Vp.plain)).isEmpty) = true
    · rw [if_pos hx] at hd
      simp only [List.mem_cons, List.not_mem_nil, or_false] at hd
      rcases hd with rfl | rfl
      · simp [old, h1.symm]
      · simp [old, h2.symm]
    · rw [if_neg hx] at hd; cases hd

theorem grow_other (env : Env V) (known : Vp) (q : Leg) (h1 : q ≠ .boxFlex) (o : Option (V × Vp)) : ∀ d ∈ grow2009 env o, old known q d = none := by
  intro d hd
  cases o with
  | none => cases hd
  | some x =>
    unfold grow2009 at hd
    simp only at hd
    by_cases hx : (env.browsers && !(prefixes2009 env (env.prefixes (.std .grow) Vp.plain)).isEmpty) = true
    · rw [if_pos hx] at hd; rw [List.mem_singleton.1 hd]; simp [old, h1.symm]
    · rw [if_neg hx] at hd; cases hd

theorem order_old (env : Env V) (he : Prefixes env) (hb : env.browsers = true) (known : Vp) (ha : asks env known (.std .order)) (o : Option V) (s : Value V) :
    final (old known .ordinal) (single env .order (some .flexOrder) (some (.ordinal, env.ordinal)) (o.map fun v => (v, Vp.plain))) s = (match o.bind env.ordinal with | some v => .val v | none => s) := by
  cases o with
  | none => rfl
  | some v =>
    have ha' : meets known (prefixes2009 env (env.prefixes (.std .order) Vp.plain)) = true := ha
    have hn := he.plain (.std .order) Vp.plain rfl
    have e1 : Vp.plain.isEmpty = false := rfl
    simp only [single, Option.map_some, e1, Bool.false_eq_true, if_false, hn, hb, asks_not_empty known _ ha', Option.bind_some, final_append, Bool.not_false, Bool.and_self, if_true]
    cases env.ordinal v with
    | none => cases hm : (env.prefixes (.std .order) Vp.plain).ms <;> simp [final, old]
    | some w => cases hm : (env.prefixes (.std .order) Vp.plain).ms <;> simp [final, old, ha']
end


section
omit [DecidableEq V]

/-- All that a browser of 2009 reads of what is written for unprefixed declarations. -/
theorem flushOut_old (env : Env V) (he : Prefixes env) (hb : env.browsers = true) (known : Vp) (ha : ∀ f, asks env known f) (h : Handler V) (f : Std → Option V) (hl : ∀ q, h.leg q = none) (hs : ∀ p, h.std p = (f p).map fun v => (v, Vp.plain)) :
    final (old known .orient) (flushOut env h) .before = (valueOf (f .direction)).map env.orient ∧
    final (old known .boxDirection) (flushOut env h) .before = (valueOf (f .direction)).map env.boxDirection ∧
    final (old known .boxFlex) (flushOut env h) .before = valueOf (f .grow) ∧
    final (old known .ordinal) (flushOut env h) .before = valueOf ((f .order).bind env.ordinal) := by
  have n9 : ∀ q, ∀ x ∈ (none : Option (Leg × (V → Option V))), x.1 ≠ q := fun q => none_some_ne _ rfl
  have nl : ∀ q (fr : V → Option V) (q' : Leg), q' ≠ q → ∀ x ∈ some (q', fr), x.1 ≠ q := by
    rintro q fr q' hne x ⟨rfl⟩; exact hne
  unfold flushOut
  simp only [final_append, legacies_nil h hl]
  have s1 : ∀ q : Leg, ∀ (p : Std) (l2 : Option Leg) (l9 : Option (Leg × (V → Option V))) (o : Option (V × Vp)) (s : Value V), l2 ≠ some q → (∀ x ∈ l9, x.1 ≠ q) → final (old known q) (single env p l2 l9 o) s = s :=
    fun q p l2 l9 o s h2 h9 => final_none _ _ (old_single known q env p l2 l9 o h2 h9) s
  refine ⟨?_, ?_, ?_, ?_⟩
  · rw [s1 .orient .order _ _ _ _ (by decide) (nl _ _ _ (by decide)), s1 .orient .basis _ _ _ _ (by decide) (n9 _), s1 .orient .shrink _ _ _ _ (by decide) (n9 _), s1 .orient .grow _ _ _ _ (by decide) (n9 _), final_none _ _ (old_flex known _ env h), final_none _ _ (grow_other env known _ (by decide) _), s1 .orient .wrap _ _ _ _ (by decide) (nl _ _ _ (by decide)), s1 .orient .direction _ _ _ _ (by decide) (n9 _), final_none _ _ (old_flow known _ env h), hs, (direction_old env hb known (ha _) _ _).1]
    cases f .direction <;> rfl
  · rw [s1 .boxDirection .order _ _ _ _ (by decide) (nl _ _ _ (by decide)), s1 .boxDirection .basis _ _ _ _ (by decide) (n9 _), s1 .boxDirection .shrink _ _ _ _ (by decide) (n9 _), s1 .boxDirection .grow _ _ _ _ (by decide) (n9 _), final_none _ _ (old_flex known _ env h), final_none _ _ (grow_other env known _ (by decide) _), s1 .boxDirection .wrap _ _ _ _ (by decide) (nl _ _ _ (by decide)), s1 .boxDirection .direction _ _ _ _ (by decide) (n9 _), final_none _ _ (old_flow known _ env h), hs, (direction_old env hb known (ha _) _ _).2]
    cases f .direction <;> rfl
  · rw [s1 .boxFlex .order _ _ _ _ (by decide) (nl _ _ _ (by decide)), s1 .boxFlex .basis _ _ _ _ (by decide) (n9 _), s1 .boxFlex .shrink _ _ _ _ (by decide) (n9 _), s1 .boxFlex .grow _ _ _ _ (by decide) (n9 _), final_none _ _ (old_flex known _ env h), s1 .boxFlex .wrap _ _ _ _ (by decide) (nl _ _ _ (by decide)), s1 .boxFlex .direction _ _ _ _ (by decide) (n9 _), final_none _ _ (old_flow known _ env h), final_none _ _ (direction_other env known _ (by decide) (by decide) _), hs, grow_old env hb known (ha _)]
    cases f .grow <;> rfl
  · rw [s1 .ordinal .basis _ _ _ _ (by decide) (n9 _), s1 .ordinal .shrink _ _ _ _ (by decide) (n9 _), s1 .ordinal .grow _ _ _ _ (by decide) (n9 _), final_none _ _ (old_flex known _ env h), final_none _ _ (grow_other env known _ (by decide) _), s1 .ordinal .wrap _ _ _ _ (by decide) (nl _ _ _ (by decide)), s1 .ordinal .direction _ _ _ _ (by decide) (n9 _), final_none _ _ (old_flow known _ env h), final_none _ _ (direction_other env known _ (by decide) (by decide) _), hs, order_old env he hb known (ha _)]
    cases (f .order).bind env.ordinal <;> rfl
end

/-- **C162 (partial)** For a block of unprefixed flexbox declarations, a browser of the 2009 draft (with `-webkit-` if targets include such a one, with `-moz-` if the prefix is needed) gets `box-orient` and `box-direction` for the `flex-direction` that modern browsers get, the same factor as `flex-grow`, and as `box-ordinal-group` the value chosen for `order`. What is missing: `box-lines` (`C162_lines`), what `order` and groups mean (`C162_ordinal`), and blocks that have prefixed declarations of their own (`C162_own`). -/
theorem C162_old_partial (env : Env V) (he : Prefixes env) (hb : env.browsers = true) (known : Vp)
    (hk : (known = webkit2009 ∧ env.is2009 = true) ∨ (known = moz2009 ∧ ∀ f, (env.prefixes f Vp.plain).moz = true)) (ds : List (Decl V)) (hd : ∀ d ∈ ds, Plain d) :
    final (old known .orient) (run env ds) .before = (final (modern (browser false) .direction) ds .before).map env.orient ∧
    final (old known .boxDirection) (run env ds) .before = (final (modern (browser false) .direction) ds .before).map env.boxDirection ∧
    final (old known .boxFlex) (run env ds) .before = final (modern (browser false) .grow) ds .before ∧
    final (old known .ordinal) (run env ds) .before = match final (modern (browser false) .order) ds .before with
      | .val v => (match env.ordinal v with | some w => .val w | none => .before)
      | x => x := by
  obtain ⟨h, f, hl, hs, hf, hr⟩ := run_plain env ds hd
  have ha : ∀ f, asks env known f := by
    intro f
    rcases hk with ⟨rfl, h2⟩ | ⟨rfl, h2⟩
    · simp [asks, meets, webkit2009, prefixes2009, h2]
    · simp [asks, meets, moz2009, prefixes2009, h2]
  rw [hf, hf, hf]
  have e : (match valueOf (f .order) with
      | .val v => (match env.ordinal v with | some w => .val w | none => .before)
      | x => x) = valueOf ((f .order).bind env.ordinal) := by
    cases f .order with
    | none => rfl
    | some v =>
      show (match env.ordinal v with | some w => Value.val w | none => .before) = valueOf (env.ordinal v)
      cases env.ordinal v <;> rfl
  rw [e]
  rcases hr with hr | ⟨hr, hn⟩
  · rw [hr]; exact flushOut_old env he hb known ha h f hl hs
  · rw [hr, hn, hn, hn]; exact ⟨rfl, rfl, rfl, rfl⟩

section
omit [DecidableEq V]

theorem ie10_direction2009 (env : Env V) (p : Std) (o : Option (V × Vp)) : ∀ d ∈ direction2009 env o, ie10 p d = none := by
  intro d hd
  cases o with
  | none => cases hd
  | some x =>
    unfold direction2009 at hd
    simp only at hd
    by_cases hx : (env.browsers && !(prefixes2009 env (env.prefixes (.std .direction) Vp.plain)).isEmpty) = true
    · rw [if_pos hx] at hd
      simp only [List.mem_cons, List.not_mem_nil, or_false] at hd
      rcases hd with rfl | rfl <;> (cases p <;> simp [ie10, name2012])
    · rw [if_neg hx] at hd; cases hd

theorem ie10_grow2009 (env : Env V) (p : Std) (o : Option (V × Vp)) : ∀ d ∈ grow2009 env o, ie10 p d = none := by
  intro d hd
  cases o with
  | none => cases hd
  | some x =>
    unfold grow2009 at hd
    simp only at hd
    by_cases hx : (env.browsers && !(prefixes2009 env (env.prefixes (.std .grow) Vp.plain)).isEmpty) = true
    · rw [if_pos hx] at hd; rw [List.mem_singleton.1 hd]; cases p <;> simp [ie10, name2012]
    · rw [if_neg hx] at hd; cases hd

/-- What Internet Explorer 10 reads of a longhand. -/
theorem ie10_single (env : Env V) (hm : ∀ f, (env.prefixes f Vp.plain).ms = true) (q p : Std) (l9 : Option (Leg × (V → Option V))) (h9 : ∀ x ∈ l9, name2012 p ≠ some x.1) (o : Option V) (common : Vp) (hc : common = Vp.plain ∨ common = Vp.empty) (s : Value V) :
    final (ie10 p) (single env q (name2012 q) l9 (rest (o.map fun v => (v, Vp.plain)) common)) s = if q = p ∧ common = Vp.empty then (match o with | some v => .val v | none => s) else s := by
  cases o with
  | none => simp [rest, single, final]
  | some v =>
    rcases hc with rfl | rfl
    · simp [rest, single, Vp.plain, Vp.remove, Vp.isEmpty, Vp.empty, final]
    · have e : rest ((some v).map fun v => (v, Vp.plain)) Vp.empty = some (v, Vp.plain) := rfl
      rw [e]
      unfold single
      have e1 : Vp.plain.isEmpty = false := rfl
      simp only [e1, Bool.false_eq_true, if_false, hm, final_append, and_true, if_true, Bool.and_true]
      refine Eq.trans (congrArg (fun z => final (ie10 p) _ (final (ie10 p) _ z)) (final_none (ie10 p) _ ?_ s)) ?_
      rotate_left
      · by_cases hq : q = p
        · subst hq
          cases q <;> simp [name2012, final, ie10, Vp.remove, Vp.msOnly, Vp.mozOnly, hm]
        · rw [if_neg hq]
          cases q <;> cases p <;> simp_all [name2012, final, ie10, Vp.remove, Vp.msOnly, Vp.mozOnly]
      · intro d hd
        cases l9 with
        | none => cases hd
        | some y =>
          obtain ⟨q', fr⟩ := y
          have hq' := h9 _ rfl
          simp only at hd hq'
          by_cases hcc : ((env.prefixes (.std q) Vp.plain).none && env.browsers && !(prefixes2009 env (env.prefixes (.std q) Vp.plain)).isEmpty) = true
          · rw [if_pos hcc] at hd
            cases hf : fr v with
            | none => rw [hf] at hd; cases hd
            | some w =>
              rw [hf] at hd; rw [List.mem_singleton.1 hd]
              simp [ie10, hq']
          · rw [if_neg hcc] at hd; cases hd
end


section
omit [DecidableEq V]

theorem rest_none (o : Option V) : rest (o.map fun v => (v, Vp.plain)) Vp.empty = o.map fun v => (v, Vp.plain) := by cases o <;> rfl

theorem ie10_flow (env : Env V) (hm : ∀ f, (env.prefixes f Vp.plain).ms = true) (h : Handler V) (f : Std → Option V) (hs : ∀ p, h.std p = (f p).map fun v => (v, Vp.plain)) (p : Std) (s : Value V) :
    (flowCommon h = Vp.plain ∧ (∃ d w, f .direction = some d ∧ f .wrap = some w) ∧ final (ie10 p) (flowOut env h) s = if p = .direction ∨ p = .wrap then valueOf (f p) else s) ∨
    (flowCommon h = Vp.empty ∧ final (ie10 p) (flowOut env h) s = s) := by
  cases h1 : f .direction with
  | none => exact .inr ⟨by simp [flowCommon, hs, h1], by simp [flowOut, hs, h1, final]⟩
  | some d =>
    cases h2 : f .wrap with
    | none => exact .inr ⟨by simp [flowCommon, hs, h1, h2], by simp [flowOut, hs, h1, h2, final]⟩
    | some w =>
      have e : flowCommon h = Vp.plain := by simp [flowCommon, hs, h1, h2, Vp.and, Vp.plain]
      refine .inl ⟨e, ⟨d, w, rfl, rfl⟩, ?_⟩
      have e1 : Vp.plain.isEmpty = false := rfl
      simp only [flowOut, e, hs, h1, h2, Option.map_some, e1, Bool.false_eq_true, if_false, final]
      cases p <;> simp [ie10, Vp.remove, Vp.mozOnly, hm, h1, h2, valueOf]

theorem ie10_flex (env : Env V) (hm : ∀ f, (env.prefixes f Vp.plain).ms = true) (h : Handler V) (f : Std → Option V) (hs : ∀ p, h.std p = (f p).map fun v => (v, Vp.plain)) (p : Std) (s : Value V) :
    (flexCommon h = Vp.plain ∧ (∃ a b c, f .grow = some a ∧ f .shrink = some b ∧ f .basis = some c) ∧ final (ie10 p) (flexOut env h) s = if p = .grow ∨ p = .shrink ∨ p = .basis then valueOf (f p) else s) ∨
    (flexCommon h = Vp.empty ∧ final (ie10 p) (flexOut env h) s = s) := by
  cases h1 : f .grow with
  | none => exact .inr ⟨by simp [flexCommon, hs, h1], by simp [flexOut, hs, h1, final]⟩
  | some d =>
    cases h2 : f .shrink with
    | none => exact .inr ⟨by simp [flexCommon, hs, h1, h2], by simp [flexOut, hs, h1, h2, final]⟩
    | some w =>
      cases h3 : f .basis with
      | none => exact .inr ⟨by simp [flexCommon, hs, h1, h2, h3], by simp [flexOut, hs, h1, h2, h3, final]⟩
      | some b =>
        have e : flexCommon h = Vp.plain := by simp [flexCommon, hs, h1, h2, h3, Vp.and, Vp.plain]
        refine .inl ⟨e, ⟨d, w, b, rfl, rfl, rfl⟩, ?_⟩
        have e1 : Vp.plain.isEmpty = false := rfl
        simp only [flexOut, e, hs, h1, h2, h3, Option.map_some, e1, Bool.false_eq_true, if_false, final]
        cases p <;> simp [ie10, Vp.remove, Vp.mozOnly, hm, h1, h2, h3, valueOf]

theorem flushOut_ie10 (env : Env V) (hm : ∀ f, (env.prefixes f Vp.plain).ms = true) (h : Handler V) (f : Std → Option V) (hl : ∀ q, h.leg q = none) (hs : ∀ p, h.std p = (f p).map fun v => (v, Vp.plain)) (p : Std) :
    final (ie10 p) (flushOut env h) .before = valueOf (f p) := by
  have n9 : ∀ x ∈ (none : Option (Leg × (V → Option V))), name2012 p ≠ some x.1 := by intro _ h; cases h
  have nl : ∀ x ∈ some (Leg.lines, env.lines), name2012 p ≠ some x.1 := by rintro x ⟨rfl⟩; cases p <;> simp [name2012]
  have no : ∀ x ∈ some (Leg.ordinal, env.ordinal), name2012 p ≠ some x.1 := by rintro x ⟨rfl⟩; cases p <;> simp [name2012]
  have S : ∀ (q : Std) (l9 : Option (Leg × (V → Option V))), (∀ x ∈ l9, name2012 p ≠ some x.1) → ∀ (common : Vp), common = Vp.plain ∨ common = Vp.empty → ∀ s,
      final (ie10 p) (single env q (name2012 q) l9 (rest (h.std q) common)) s = if q = p ∧ common = Vp.empty then (match f q with | some v => .val v | none => s) else s := by
    intro q l9 h9 c hc s; rw [hs]; exact ie10_single env hm q p l9 h9 (f q) c hc s
  have So := S .order _ no Vp.empty (.inr rfl)
  rw [hs .order, rest_none, ← hs .order] at So
  unfold flushOut
  simp only [final_append, legacies_nil h hl]
  rw [final_none _ _ (ie10_direction2009 env p _), final_none _ _ (ie10_grow2009 env p _)]
  have F := ie10_flow env hm h f hs p (final (ie10 p) [] .before)
  have hcf : flowCommon h = Vp.plain ∨ flowCommon h = Vp.empty := by rcases F with F | F; exact .inl F.1; exact .inr F.1
  have hcx : flexCommon h = Vp.plain ∨ flexCommon h = Vp.empty := by
    rcases ie10_flex env hm h f hs p .before with F | F; exact .inl F.1; exact .inr F.1
  have Sd := S .direction none n9 _ hcf
  have Sw := S .wrap _ nl _ hcf
  have Sg := S .grow none n9 _ hcx
  have Ss := S .shrink none n9 _ hcx
  have Sb := S .basis none n9 _ hcx
  simp only [name2012] at Sd Sw Sg Ss Sb So
  rw [So, Sb, Ss, Sg, Sw, Sd]
  have ne : Vp.plain ≠ Vp.empty := by decide
  cases p
  case order =>
    rcases F with ⟨a, _, c⟩ | ⟨a, c⟩ <;> rw [c] <;> (rcases ie10_flex env hm h f hs .order .before with ⟨a', _, c'⟩ | ⟨a', c'⟩) <;> simp [final, c', valueOf] <;> cases f .order <;> rfl
  case direction =>
    rcases F with ⟨a, ⟨d, w, h1, h2⟩, c⟩ | ⟨a, c⟩
    · rw [c, a]
      rcases ie10_flex env hm h f hs .direction (valueOf (f .direction)) with ⟨a', _, c'⟩ | ⟨a', c'⟩ <;> simp [ne, c']
    · rw [c, a]
      simp only [and_self, if_true, reduceCtorEq, false_and, if_false]
      generalize hX : (match f .direction with | some v => Value.val v | none => final (ie10 .direction) [] .before) = X
      have hX' : X = valueOf (f .direction) := by rw [← hX]; cases f .direction <;> rfl
      rcases ie10_flex env hm h f hs .direction X with ⟨a', _, c'⟩ | ⟨a', c'⟩ <;> rw [c'] <;> simp [hX']
  case wrap =>
    rcases F with ⟨a, ⟨d, w, h1, h2⟩, c⟩ | ⟨a, c⟩
    · rw [c, a]
      rcases ie10_flex env hm h f hs .wrap (valueOf (f .wrap)) with ⟨a', _, c'⟩ | ⟨a', c'⟩ <;> simp [ne, c']
    · rw [c, a]
      simp only [and_self, if_true, reduceCtorEq, false_and, if_false]
      generalize hX : (match f .wrap with | some v => Value.val v | none => final (ie10 .wrap) [] .before) = X
      have hX' : X = valueOf (f .wrap) := by rw [← hX]; cases f .wrap <;> rfl
      rcases ie10_flex env hm h f hs .wrap X with ⟨a', _, c'⟩ | ⟨a', c'⟩ <;> rw [c'] <;> simp [hX']
  case grow =>
    have e : final (ie10 .grow) (flowOut env h) (final (ie10 .grow) [] .before) = .before := by rcases F with ⟨_, _, c⟩ | ⟨_, c⟩ <;> rw [c] <;> rfl
    simp only [e, reduceCtorEq, false_and, if_false, true_and]
    rcases ie10_flex env hm h f hs .grow .before with ⟨a', _, c'⟩ | ⟨a', c'⟩ <;> rw [c', a'] <;> simp [ne]
    cases f .grow <;> rfl
  case shrink =>
    have e : final (ie10 .shrink) (flowOut env h) (final (ie10 .shrink) [] .before) = .before := by rcases F with ⟨_, _, c⟩ | ⟨_, c⟩ <;> rw [c] <;> rfl
    simp only [e, reduceCtorEq, false_and, if_false, true_and]
    rcases ie10_flex env hm h f hs .shrink .before with ⟨a', _, c'⟩ | ⟨a', c'⟩ <;> rw [c', a'] <;> simp [ne]
    cases f .shrink <;> rfl
  case basis =>
    have e : final (ie10 .basis) (flowOut env h) (final (ie10 .basis) [] .before) = .before := by rcases F with ⟨_, _, c⟩ | ⟨_, c⟩ <;> rw [c] <;> rfl
    simp only [e, reduceCtorEq, false_and, if_false, true_and]
    rcases ie10_flex env hm h f hs .basis .before with ⟨a', _, c'⟩ | ⟨a', c'⟩ <;> rw [c', a'] <;> simp [ne]
    cases f .basis <;> rfl
end

/-- **C163** For every block of unprefixed flexbox declarations and targets that need `-ms-`, Internet Explorer 10 gets the same direction, wrap, grow, shrink, basis and order as modern browsers get from the source. -/
theorem C163_ie10 (env : Env V) (hm : ∀ f, (env.prefixes f Vp.plain).ms = true) (ds : List (Decl V)) (hd : ∀ d ∈ ds, Plain d) (p : Std) :
    final (ie10 p) (run env ds) .before = final (modern (browser false) p) ds .before := by
  obtain ⟨h, f, hl, hs, hf, hr⟩ := run_plain env ds hd
  rw [hf]
  rcases hr with hr | ⟨hr, hn⟩
  · rw [hr]; exact flushOut_ie10 env hm h f hl hs p
  · rw [hr, hn]; rfl

/-! ### Counterexamples and examples -/

/-- Targets with a browser of 2009 and Internet Explorer 10; values are numbers. -/
def sampleEnv : Env Nat where
  browsers := true
  is2009 := true
  prefixes := fun _ vp => if vp.none then ⟨true, true, vp.moz, true⟩ else vp
  orient := fun v => v % 2
  boxDirection := fun v => v / 2
  lines := fun v => some v
  ordinal := fun v => some v

theorem sampleEnv_prefixes : Prefixes sampleEnv := ⟨fun f vp h => by simp [sampleEnv, h], fun f vp h => by simp [sampleEnv, h]⟩

/-- **C161** is false in general: in `-webkit-order: 1; order: 1; -webkit-order: 2`, the last value replaces the unprefixed one as well, so a browser without the alias gets 2 instead of 1. -/
theorem C161_overwritten : final (modern (browser false) .order) [Decl.std .order 1 ⟨false, true, false, false⟩, .std .order 1 Vp.plain, .std .order 2 ⟨false, true, false, false⟩] (.before : Value Nat) = .val 1 ∧
    final (modern (browser false) .order) (run sampleEnv [Decl.std .order 1 ⟨false, true, false, false⟩, .std .order 1 Vp.plain, .std .order 2 ⟨false, true, false, false⟩]) .before = .val 2 := by decide

example : final (modern (browser true) .grow) (run sampleEnv [Decl.std .grow 1 ⟨false, true, false, false⟩, .flex 2 3 4 Vp.plain, .flow 1 5 Vp.plain]) .before = .val 2 := by decide

example : PrefixedFirst (browser false) .grow [Decl.std .grow 1 ⟨false, true, false, false⟩, .flex 2 3 4 Vp.plain, .flow 1 5 Vp.plain] := by
  unfold PrefixedFirst; decide

/-- **C162** is false for `box-lines`: `flex-flow` sets the wrap for modern browsers, but browsers of 2009 get nothing. -/
theorem C162_lines : final (modern (browser false) .wrap) [Decl.flow 0 1 Vp.plain] (.before : Value Nat) = .val 1 ∧
    final (old webkit2009 .lines) (run sampleEnv [Decl.flow 0 1 Vp.plain]) .before = .before ∧
    final (old webkit2009 .lines) (run sampleEnv [Decl.std .wrap 1 Vp.plain]) .before = .val 1 := by decide

/-- **C162** is false for blocks with `box-*` of their own: `flex-direction: row; -webkit-box-orient: vertical` has the second for old browsers, but the generated one is written after it. -/
theorem C162_own : final (old webkit2009 .orient) [Decl.std .direction 0 Vp.plain, .leg .orient 1 webkit2009] (.before : Value Nat) = .val 1 ∧
    final (old webkit2009 .orient) (run sampleEnv [Decl.std .direction 0 Vp.plain, .leg .orient 1 webkit2009]) .before = .val 0 := by decide

/-- **C162** is false for what `order` means: `order: 0` (the initial value) and `order: 1` become `box-ordinal-group: 0`, which is not valid (groups start at 1), and `box-ordinal-group: 1`, the initial group; so an item with `order: 1` does not come after one without. -/
theorem C162_ordinal : ordinalFromOrder 0 = some 0 ∧ ordinalFromOrder 1 = some 1 := ⟨rfl, rfl⟩

example : final (old webkit2009 .orient) (run sampleEnv [Decl.std .direction 3 Vp.plain, .flex 2 3 4 Vp.plain]) .before = .val 1 ∧ final (old webkit2009 .boxDirection) (run sampleEnv [Decl.std .direction 3 Vp.plain, .flex 2 3 4 Vp.plain]) .before = .val 1 ∧
    final (ie10 .basis) (run sampleEnv [Decl.std .direction 3 Vp.plain, .flex 2 3 4 Vp.plain, .std .basis 7 Vp.plain]) .before = .val 7 := by decide

/-- **C162** `box-orient` and `box-direction` for a `flex-direction` say the same: the axis is vertical if and only if it is for columns, and the direction is reversed if and only if it is; so different directions stay different. -/
theorem C162_direction (d : Dir) : ((d.to2009).1 = .vertical ↔ d = .column ∨ d = .columnReverse) ∧ ((d.to2009).1 = .horizontal ↔ d = .row ∨ d = .rowReverse) ∧ ((d.to2009).2 = .reverse ↔ d = .rowReverse ∨ d = .columnReverse) := by
  cases d <;> decide

end Verif.Flex
