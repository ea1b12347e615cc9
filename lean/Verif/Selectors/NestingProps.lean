import Verif.Selectors.NestingLemmas
/-!
# Selectors: compiling `&` away keeps the meaning (C53)
-/
namespace Verif.Selectors.Nesting

variable {E : Type} {d : Dom E} {out atom : Component → E → Prop} {compiling : Bool}
  {nest : Bool → List Text} {P : E → Prop} {pt pf : Prop}

/-! ### Compounds and combinators -/

theorem exists_matchOrder (cs : List Component) :
    ∃ first rev, Compounds first rev ∧ cs = matchOrder first rev := by
  induction cs with
  | nil => exact ⟨[], [], ⟨by intro c hc; simp at hc, by simp⟩, rfl⟩
  | cons c cs ih =>
    obtain ⟨first, rev, hc, rfl⟩ := ih
    by_cases h : ∃ k, c = .combinator k
    · obtain ⟨k, rfl⟩ := h
      refine ⟨first, (k, []) :: rev, ⟨hc.1, ?_⟩, by simp [matchOrder]⟩
      intro p hp
      rcases List.mem_cons.1 hp with rfl | hp
      · intro c hc; simp at hc
      · exact hc.2 p hp
    · have hn : c.isCombinator = false := by
        cases c <;> simp_all [Component.isCombinator]
      cases rev with
      | nil =>
        refine ⟨c :: first, [], ⟨?_, by simp⟩, by simp [matchOrder]⟩
        intro x hx
        rcases List.mem_cons.1 hx with rfl | hx
        · exact hn
        · exact hc.1 x hx
      | cons p rev =>
        obtain ⟨k, x⟩ := p
        refine ⟨first, (k, c :: x) :: rev, ⟨hc.1, ?_⟩, by simp [matchOrder]⟩
        intro p hp
        rcases List.mem_cons.1 hp with rfl | hp
        · intro y hy
          rcases List.mem_cons.1 hy with rfl | hy
          · exact hn
          · exact hc.2 (k, x) (by simp) y hy
        · exact hc.2 p (by simp [hp])

theorem splitPieces_map (cs : List Component) :
    splitPieces (cs.map (piece compiling nest))
      = (splitCompounds cs).map (List.map (piece compiling nest)) := by
  induction cs with
  | nil => simp [splitPieces, splitCompounds]
  | cons c cs ih =>
    rw [List.map_cons, splitPieces, splitCompounds, ih]
    cases h : c.isCombinator with
    | true => simp [piece, h]
    | false => cases splitCompounds cs <;> simp [piece, h]

theorem layout_matchOrder (first : List Component) (rest : List (Combinator × List Component))
    (h : Compounds first rest) :
    layout compiling nest ((matchOrder first rest.reverse).map (piece compiling nest))
      = printLoop compiling nest true (first.map (piece compiling nest) ::
          rest.map fun p => p.2.map (piece compiling nest)) (rest.map (·.1)) := by
  have hr : Compounds first rest.reverse := ⟨h.1, fun p hp => h.2 p (List.mem_reverse.1 hp)⟩
  unfold layout
  rw [splitPieces_map, splitCompounds_matchOrder _ _ hr]
  congr 1
  · simp
  · rw [← List.map_reverse, List.filterMap_map]
    rw [show ((fun p : Piece => p.1.asCombinator) ∘ piece compiling nest)
      = (fun c : Component => c.asCombinator) from rfl]
    rw [List.filterMap_reverse, combinators_matchOrder _ _ hr]
    simp

/-- The meaning of compounds read from left to right. -/
def srcSem (d : Dom E) (Q : Component → E → Prop) (acc : E → Prop) :
    List (Combinator × List Component) → E → Prop
  | [] => acc
  | (k, c) :: rest =>
      srcSem d Q (fun e => (∃ x, d.Rel k e x ∧ acc x) ∧ ∀ x ∈ c, x.Sem d Q e) rest

theorem complexSem_append (Q : Component → E → Prop) (c r : List Component) (hc : NoComb c) (e : E) :
    ComplexSem d Q (c ++ r) e ↔ (∀ x ∈ c, x.Sem d Q e) ∧ ComplexSem d Q r e := by
  induction c with
  | nil => simp
  | cons x xs ih =>
    rw [List.cons_append, ComplexSem, ih (fun c h => hc c (by simp [h]))]
    · simp [and_assoc]
    · rintro k rfl
      simpa [Component.isCombinator] using hc (.combinator k) (by simp)

theorem srcSem_snoc (Q : Component → E → Prop) (acc : E → Prop)
    (rest : List (Combinator × List Component)) (k : Combinator) (c : List Component) :
    srcSem d Q acc (rest ++ [(k, c)]) = fun e =>
      (∃ x, d.Rel k e x ∧ srcSem d Q acc rest x) ∧ ∀ x ∈ c, x.Sem d Q e := by
  induction rest generalizing acc with
  | nil => rfl
  | cons p rest ih => simp only [List.cons_append, srcSem, ih]

theorem complexSem_matchOrder (Q : Component → E → Prop) (first : List Component)
    (rev : List (Combinator × List Component)) (h : Compounds first rev) (e : E) :
    ComplexSem d Q (matchOrder first rev) e ↔
      srcSem d Q (fun e => ∀ x ∈ first, x.Sem d Q e) rev.reverse e := by
  induction rev generalizing e with
  | nil =>
    have := complexSem_append (d := d) Q first [] h.1 e
    simp only [List.append_nil, ComplexSem, and_true] at this
    simpa [matchOrder, srcSem] using this
  | cons p rev ih =>
    obtain ⟨k, c⟩ := p
    rw [matchOrder, complexSem_append Q c _ (h.2 (k, c) (by simp)), List.reverse_cons, srcSem_snoc]
    simp only [ComplexSem]
    have : ∀ x, ComplexSem d Q (matchOrder first rev) x ↔
        srcSem d Q (fun e => ∀ x ∈ first, x.Sem d Q e) rev.reverse x :=
      fun x => ih ⟨h.1, fun p hp => h.2 p (by simp [hp])⟩ x
    simp only [this]
    exact and_comm

theorem compsOk_matchOrder (first : List Component) (rev : List (Combinator × List Component))
    (h : Compounds first rev) (hok : CompsOk compiling pt pf .start (matchOrder first rev)) :
    CompoundOk compiling pt pf true .start first ∧
      ∀ p ∈ rev, CompoundOk compiling pt pf false .start p.2 := by
  induction rev with
  | nil => exact ⟨compsOk_compound first h.1 .start (by simpa [matchOrder] using hok), by simp⟩
  | cons p rev ih =>
    obtain ⟨k, c⟩ := p
    rw [matchOrder] at hok
    obtain ⟨h1, h2⟩ := compsOk_append c (h.2 (k, c) (by simp)) .start k _ hok
    obtain ⟨h3, h4⟩ := ih ⟨h.1, fun p hp => h.2 p (by simp [hp])⟩ h2
    refine ⟨h3, ?_⟩
    intro p hp
    rcases List.mem_cons.1 hp with rfl | hp
    · exact h1
    · exact h4 p hp

theorem mem_matchOrder (first : List Component) (rev : List (Combinator × List Component)) :
    (∀ c ∈ first, c ∈ matchOrder first rev) ∧ ∀ p ∈ rev, ∀ c ∈ p.2, c ∈ matchOrder first rev := by
  induction rev with
  | nil => exact ⟨fun c hc => hc, by simp⟩
  | cons p rev ih =>
    obtain ⟨k, x⟩ := p
    rw [matchOrder]
    refine ⟨fun c hc => by simp [ih.1 c hc], ?_⟩
    intro p hp c hc
    rcases List.mem_cons.1 hp with rfl | hp
    · simp only [List.mem_append]; exact .inl hc
    · simp [ih.2 p hp c hc]

/-- The rest of the loop, after the first compound. -/
theorem printLoop_rest (henv : Env d atom out compiling nest P pt pf)
    (rest : List (Combinator × List Component)) (c : List Component) (hne : c ≠ [])
    (first : Bool) (acc : E → Prop) (A : E → Prop)
    (hcomp : ∀ next, wf true (compoundText compiling nest first next (c.map (piece compiling nest))) ∧
      denote d out acc (compoundText compiling nest first next (c.map (piece compiling nest))) = A)
    (hnc : ∀ p ∈ rest, NoComb p.2)
    (hg : ∀ p ∈ rest, AllGood d atom out compiling nest P pt pf p.2)
    (hok : ∀ p ∈ rest, CompoundOk compiling pt pf false .start p.2) :
    wf true (printLoop compiling nest first (c.map (piece compiling nest) ::
      rest.map fun p => p.2.map (piece compiling nest)) (rest.map (·.1))) ∧
    denote d out acc (printLoop compiling nest first (c.map (piece compiling nest) ::
      rest.map fun p => p.2.map (piece compiling nest)) (rest.map (·.1)))
      = srcSem d (atomIn atom P) A rest := by
  induction rest generalizing c first acc A with
  | nil =>
    have hc := hcomp none
    have he : (c.map (piece compiling nest)).isEmpty = false := by
      cases c <;> simp_all
    simp only [printLoop, he, Bool.false_eq_true, if_false, List.map_nil, List.head?_nil,
      Option.map_none, Option.toList_none, List.append_nil]
    exact ⟨hc.1, by rw [hc.2]; rfl⟩
  | cons p rest ih =>
    obtain ⟨k, c'⟩ := p
    have hc := hcomp (some k)
    have he : (c.map (piece compiling nest)).isEmpty = false := by
      cases c <;> simp_all
    have hok' := hok (k, c') (by simp)
    have hne' : c' ≠ [] := by
      rintro rfl
      simp [CompoundOk] at hok'
    have hfol := fun next => compound_follow henv c' false next (hnc (k, c') (by simp))
      (hg (k, c') (by simp)) (by simp) hok'
    have := ih c' hne' false (fun e => ∃ x, d.Rel k e x ∧ A x) _
      (fun next => ⟨(hfol next).1, (hfol next).2 _⟩)
      (fun p hp => hnc p (by simp [hp])) (fun p hp => hg p (by simp [hp]))
      (fun p hp => hok p (by simp [hp]))
    rw [printLoop]
    simp only [he, Bool.false_eq_true, if_false, List.map_cons, List.head?_cons, Option.map_some,
      Option.toList_some, List.tail_cons, List.append_assoc, List.singleton_append]
    refine ⟨wf_append_comb _ _ _ _ hc.1 this.1, ?_⟩
    rw [denote_append, hc.2, denote_cons_comb, this.2]
    rfl

/-- A whole selector. -/
theorem layout_spec (henv : Env d atom out compiling nest P pt pf) (cs : List Component)
    (hg : AllGood d atom out compiling nest P pt pf cs) (hok : CompsOk compiling pt pf .start cs) :
    wf true (layout compiling nest (cs.map (piece compiling nest))) ∧
    ∀ e, denote d out (fun _ => True) (layout compiling nest (cs.map (piece compiling nest))) e ↔
      ComplexSem d (atomIn atom P) cs e := by
  obtain ⟨first, rev, hc, rfl⟩ := exists_matchOrder cs
  obtain ⟨rest, rfl⟩ : ∃ rest, rev = rest.reverse := ⟨rev.reverse, by simp⟩
  have hc' : Compounds first rest := ⟨hc.1, fun p hp => hc.2 p (List.mem_reverse.2 hp)⟩
  obtain ⟨h1, h2⟩ := compsOk_matchOrder first _ hc hok
  obtain ⟨m1, m2⟩ := mem_matchOrder first rest.reverse
  have hgf : AllGood d atom out compiling nest P pt pf first := fun c h => hg c (m1 c h)
  have hgr : ∀ p ∈ rest, AllGood d atom out compiling nest P pt pf p.2 :=
    fun p hp c h => hg c (m2 p (List.mem_reverse.2 hp) c h)
  have hne : first ≠ [] := by
    rintro rfl
    simp [CompoundOk] at h1
  have hcomp : ∀ next, wf true (compoundText compiling nest true next (first.map (piece compiling nest))) ∧
      denote d out (fun _ => True) (compoundText compiling nest true next (first.map (piece compiling nest)))
        = fun e => ∀ c ∈ first, c.Sem d (atomIn atom P) e := by
    intro next
    by_cases hlead : compiling = true ∧ first.head?.any isNesting = true
    · obtain ⟨rfl, hl⟩ := hlead
      cases first with
      | nil => exact absurd rfl hne
      | cons c cs =>
        have hcn : c = .nesting := by
          cases c <;> simp_all [isNesting]
        subst hcn
        simp only [CompoundOk, if_true, Bool.not_true, Bool.false_eq_true, if_false] at h1
        exact compound_lead henv cs next (fun c h => hc.1 c (by simp [h]))
          (fun c h => hgf c (by simp [h])) h1.1 h1.2
    · have := compound_follow henv first true next hc.1 hgf (by
        intro hcm _
        by_contra hx
        exact hlead ⟨hcm, by simpa using hx⟩) h1
      refine ⟨this.1, ?_⟩
      rw [this.2]
      simp
  have := printLoop_rest henv rest first hne true (fun _ => True) _ hcomp hc'.2 hgr
    (fun p hp => h2 p (List.mem_reverse.2 hp))
  rw [layout_matchOrder first rest hc']
  refine ⟨this.1, ?_⟩
  intro e
  rw [this.2, complexSem_matchOrder _ _ _ hc, List.reverse_reverse]

/-! ### Compounds without type selector -/

theorem plainGo_noComb (cs : List Component) (lead : Bool) (h : PlainGo compiling pt pf lead cs) :
    NoComb cs := by
  induction cs generalizing lead with
  | nil => intro c hc; simp at hc
  | cons c cs ih =>
    intro x hx
    by_cases hn : c = .nesting
    · subst hn
      simp only [PlainGo] at h
      rcases List.mem_cons.1 hx with rfl | hx
      · rfl
      · exact ih _ h.2 x hx
    · rw [PlainGo] at h
      · rcases List.mem_cons.1 hx with rfl | hx
        · exact h.2.1
        · exact ih _ h.2.2.2 x hx
      · exact hn

theorem plainGo_good (cs : List Component) (hg : AllGood d atom out compiling nest P pt pf cs)
    (h : PlainGo compiling pt pf false cs) : ∀ c ∈ cs, isType c = false ∧ Good d atom out compiling nest P c := by
  induction cs with
  | nil => intro c hc; simp at hc
  | cons c cs ih =>
    have hgs : AllGood d atom out compiling nest P pt pf cs := fun c h => hg c (by simp [h])
    intro x hx
    by_cases hn : c = .nesting
    · subst hn
      simp only [PlainGo, Bool.false_and, Bool.false_eq_true, if_false] at h
      rcases List.mem_cons.1 hx with rfl | hx
      · exact ⟨rfl, hg _ (by simp) rfl rfl (by simp only [CompOk]; exact h.1)⟩
      · exact ih hgs h.2 x hx
    · rw [PlainGo] at h
      · rcases List.mem_cons.1 hx with rfl | hx
        · exact ⟨h.1, hg _ (by simp) h.1 h.2.1 h.2.2.1⟩
        · exact ih hgs h.2.2.2 x hx
      · exact hn

theorem layout_plain (henv : Env d atom out compiling nest P pt pf) (cs : List Component)
    (hg : AllGood d atom out compiling nest P pt pf cs) (h : PlainGo compiling pt pf true cs) :
    PlainT (layout compiling nest (cs.map (piece compiling nest))) := by
  have hnc := plainGo_noComb cs true h
  have hl := layout_matchOrder (compiling := compiling) (nest := nest) cs [] ⟨hnc, by simp⟩
  simp only [List.reverse_nil, matchOrder, List.map_nil] at hl
  rw [hl]
  cases cs with
  | nil => intro t ht; simp [printLoop] at ht
  | cons c cs =>
    simp only [printLoop, List.map_cons, List.isEmpty_cons, Bool.false_eq_true, if_false,
      List.head?_nil, Option.map_none, Option.toList_none, List.append_nil]
    rw [← List.map_cons]
    by_cases hlead : c = .nesting ∧ compiling = true
    · obtain ⟨rfl, rfl⟩ := hlead
      simp only [PlainGo, Bool.and_self, if_true] at h
      have hgood := plainGo_good cs (fun c h => hg c (by simp [h])) h.2
      have hns : ∀ p, (cs.map (piece true nest)).head? = some p → isNamespace p.1 = false := by
        intro p hp
        cases cs with
        | nil => simp at hp
        | cons c cs =>
          simp only [List.map_cons, List.head?_cons, Option.some.injEq] at hp
          subst hp
          by_cases hn : c = .nesting
          · subst hn; rfl
          · have h2 := h.2
            rw [PlainGo] at h2
            · exact not_ns_of_ok (compiling := true) (pt := pt) (pf := pf) (fun _ => h2.2.2.1)
            · exact hn
      rw [List.map_cons]
      rcases compoundText_lead (nest := nest) none (piece true nest .nesting) (cs.map (piece true nest)) rfl hns with
        ⟨u, hu, hun, he⟩ | ⟨u, us, hu, hut, b, he⟩ | ⟨hnt, b, he⟩
      · exfalso
        cases cs with
        | nil => simp at hu
        | cons c cs =>
          simp only [List.map_cons, List.cons.injEq] at hu
          obtain ⟨rfl, _⟩ := hu
          have := (hgood c (by simp)).1
          simp only [piece] at hun
          cases c <;> simp_all [isUniversal, isType]
      · exfalso
        cases cs with
        | nil => simp at hu
        | cons c cs =>
          simp only [List.map_cons, List.cons.injEq] at hu
          obtain ⟨rfl, _⟩ := hu
          have h1 := (hgood c (by simp)).1
          have h2 : isType c = true := hut
          rw [h1] at h2
          cases h2
      · rw [he]
        exact (henv.plainT rfl h.1).append (plain_elided b cs fun c hc => (hgood c hc).2)
    · have hall : ∀ x ∈ c :: cs, Good d atom out compiling nest P x := by
        by_cases hn : c = .nesting
        · subst hn
          have hcm : compiling = false := by
            by_contra hx
            exact hlead ⟨rfl, by simpa using hx⟩
          have h' : PlainGo compiling pt pf false (.nesting :: cs) := by
            simp only [PlainGo, hcm, Bool.and_false, Bool.false_eq_true, if_false] at h ⊢
            exact h
          exact fun x hx => (plainGo_good _ hg h' x hx).2
        · have h' : PlainGo compiling pt pf false (c :: cs) := by
            rw [PlainGo] at h ⊢
            · exact h
            · exact hn
            · exact hn
          exact fun x hx => (plainGo_good _ hg h' x hx).2
      have hl' : (true && ((c :: cs).map (piece compiling nest)).head?.any (isNesting ·.1) && compiling) = false := by
        by_contra hx
        apply hlead
        simp only [Bool.true_and, Bool.not_eq_false, Bool.and_eq_true] at hx
        refine ⟨?_, hx.2⟩
        have h1 := hx.1
        simp only [List.map_cons, List.head?_cons, Option.any_some, piece] at h1
        cases c <;> simp_all [isNesting]
      rcases compoundText_plain_order (nest := nest) true none _ hl' with he | ⟨b, he⟩
      · rw [he]; exact plain_texts _ hall
      · rw [he]; exact plain_elided b _ hall

/-! ### All selectors -/

theorem needsIs_spec (s : Selector) (h : NeedsIs s) : hasType s = true ∨ isSimple s = false := by
  obtain ⟨n, cs⟩ := s
  simp only [NeedsIs] at h
  rcases h with ⟨k, hk⟩ | ⟨c, r, rfl, hc⟩ | ⟨n, c, r, rfl, hn, hc⟩
  · right
    simp only [isSimple, Selector.comps, Bool.not_eq_false', List.any_eq_true]
    exact ⟨_, hk, rfl⟩
  · left
    have : isNamespace c = false := by cases c <;> simp_all [isType, isNamespace]
    simp [hasType, Selector.comps, this, hc]
  · left
    simp [hasType, Selector.comps, hn, hc]

theorem listNeedsIs_spec (l : List Selector) (h : ListNeedsIs l) : shouldUnwrapIs l = false := by
  cases l with
  | nil => rfl
  | cons s ss =>
    cases ss with
    | cons _ _ => rfl
    | nil =>
      have := needsIs_spec s h
      rcases this with h | h <;> simp [shouldUnwrapIs, h]

mutual
theorem comp_good (henv : Env d atom out compiling nest P pt pf) : ∀ (c : Component),
    isType c = false → c.isCombinator = false → CompOk compiling pt pf c →
    Good d atom out compiling nest P c
  | .nesting, _, _, h => by
    simp only [CompOk] at h
    refine ⟨by simpa only [compText] using henv.plainF h, ?_⟩
    intro e
    simp only [compText, Component.Sem, atomIn]
    exact henv.semF h e
  | .is l, _, _, h => by
    simp only [CompOk] at h
    have hl := list_good henv l h.1
    cases hu : shouldUnwrapIs l with
    | true =>
      have hh := head_good henv l h.1 (h.2.resolve_left fun hx => by
        rw [listNeedsIs_spec l hx] at hu; cases hu)
      unfold Good
      simp only [compText, hu, if_true, Component.Sem]
      refine ⟨hh.1, ?_⟩
      intro e
      rw [hh.2 e]
      cases l with
      | nil => simp [shouldUnwrapIs] at hu
      | cons s ss =>
        cases ss with
        | nil => simp [AnySem]
        | cons _ _ => simp [shouldUnwrapIs] at hu
    | false =>
      unfold Good
      simp only [compText, hu, Bool.false_eq_true, if_false, Component.Sem]
      exact ⟨by intro t ht; simp only [List.mem_singleton] at ht; subst ht; exact hl.1,
        fun e => by simpa [Text.Sem] using hl.2 e⟩
  | .any l, _, _, h => by
    simp only [CompOk] at h
    have hl := list_good henv l h
    unfold Good
    simp only [compText, Component.Sem]
    exact ⟨by intro t ht; simp only [List.mem_singleton] at ht; subst ht; exact hl.1,
      fun e => by simpa [Text.Sem] using hl.2 e⟩
  | .where l, _, _, h => by
    simp only [CompOk] at h
    have hl := list_good henv l h
    unfold Good
    simp only [compText, Component.Sem]
    exact ⟨by intro t ht; simp only [List.mem_singleton] at ht; subst ht; exact hl.1,
      fun e => by simpa [Text.Sem] using hl.2 e⟩
  | .negation l, _, _, h => by
    simp only [CompOk] at h
    have hl := list_good henv l h
    unfold Good
    simp only [compText, Component.Sem]
    exact ⟨by intro t ht; simp only [List.mem_singleton] at ht; subst ht; exact hl.1,
      fun e => by simpa [Text.Sem] using not_congr (hl.2 e)⟩
  | .combinator _, _, hc, _ => by simp [Component.isCombinator] at hc
  | .universal, ht, _, _ => by simp [isType] at ht
  | .localName _ _, ht, _, _ => by simp [isType] at ht
  | .anyNamespace, _, _, h | .noNamespace, _, _, h | .defaultNamespace _, _, _, h
  | .namespace _ _, _, _, h => by simp [CompOk, isNamespace] at h
  | .id _, ht, _, _ | .cls _, ht, _, _ | .attrExists _, ht, _, _ | .attr _, ht, _, _
  | .attrOther _, ht, _, _ | .root, ht, _, _ | .empty, ht, _, _ | .scope, ht, _, _
  | .nth _, ht, _, _ | .nthOf _ _, ht, _, _ | .pseudoClass _, ht, _, _ | .local _, ht, _, _
  | .global _, ht, _, _ | .slotted _, ht, _, _ | .part _, ht, _, _ | .host, ht, _, _
  | .hostFn _, ht, _, _ | .has _, ht, _, _ | .pseudoElement _, ht, _, _
  | .viewTransitionAny _, ht, _, _ => by
    unfold Good
    simp only [compText, Component.Sem, atomIn]
    refine ⟨by intro t ht'; simp only [List.mem_singleton] at ht'; subst ht'; exact ht, ?_⟩
    intro e
    simp only [List.mem_singleton, forall_eq, Text.Sem]
    exact henv.agree _ e rfl
theorem list_good (henv : Env d atom out compiling nest P pt pf) : ∀ (l : List Selector),
    ListOk compiling pt pf l → wfList (listText compiling nest l) ∧
      ∀ e, AnyText d out (listText compiling nest l) e ↔ AnySem d (atomIn atom P) l e
  | [], _ => by simp [listText, wfList, AnyText, AnySem]
  | s :: ss, h => by
    simp only [ListOk] at h
    have h1 := sel_good henv s h.1
    have h2 := list_good henv ss h.2
    simp only [listText, wfList, AnyText, AnySem]
    exact ⟨⟨h1.1, h2.1⟩, fun e => or_congr (h1.2 e) (h2.2 e)⟩
theorem head_good (henv : Env d atom out compiling nest P pt pf) : ∀ (l : List Selector),
    ListOk compiling pt pf l → HeadPlain compiling pt pf l →
    PlainT (unwrapText compiling nest l) ∧
      ∀ e, (∀ t ∈ unwrapText compiling nest l, t.Sem d out e) ↔
        ∀ s, l.head? = some s → s.Sem d (atomIn atom P) e
  | [], _, _ => by simp [unwrapText, PlainT]
  | s :: ss, h, hp => by
    simp only [ListOk] at h
    simp only [HeadPlain] at hp
    have h1 := sel_good henv s h.1
    have h2 := sel_plain henv s hp
    simp only [unwrapText]
    refine ⟨h2, ?_⟩
    intro e
    have := h1.2 e
    rw [denote_plain _ _ h2] at this
    simp only [true_and] at this
    rw [this]
    simp
theorem sel_good (henv : Env d atom out compiling nest P pt pf) : ∀ (s : Selector),
    SelOk compiling pt pf s → wf true (selText compiling nest s) ∧
      ∀ e, denote d out (fun _ => True) (selText compiling nest s) e ↔ s.Sem d (atomIn atom P) e
  | .mk n cs, h => by
    simp only [SelOk] at h
    simp only [selText, Selector.Sem, pieces_eq]
    exact layout_spec henv cs (comps_good henv cs) h
theorem sel_plain (henv : Env d atom out compiling nest P pt pf) : ∀ (s : Selector),
    SelPlain compiling pt pf s → PlainT (selText compiling nest s)
  | .mk n cs, h => by
    simp only [SelPlain] at h
    simp only [selText, pieces_eq]
    exact layout_plain henv cs (comps_good henv cs) h
theorem comps_good (henv : Env d atom out compiling nest P pt pf) : ∀ (cs : List Component),
    AllGood d atom out compiling nest P pt pf cs
  | [] => by intro c hc; simp at hc
  | x :: xs => by
    have h1 := comp_good henv x
    have h2 := comps_good henv xs
    intro c hc
    rcases List.mem_cons.1 hc with h | h
    · rw [h]; exact h1
    · exact h2 c h
end

/-! ### Contexts -/

theorem hasType_plain (s : Selector) (h : SelPlain compiling pt pf s) : hasType s = false := by
  obtain ⟨n, cs⟩ := s
  simp only [SelPlain] at h
  have key : ∀ (lead : Bool) (c : Component) (cs : List Component),
      PlainGo compiling pt pf lead (c :: cs) → isType c = false ∧ isNamespace c = false := by
    intro lead c cs h
    by_cases hn : c = .nesting
    · subst hn; exact ⟨rfl, rfl⟩
    · rw [PlainGo] at h
      · exact ⟨h.1, not_ns_of_ok (compiling := compiling) (pt := pt) (pf := pf) fun _ => h.2.2.1⟩
      · exact hn
  cases cs with
  | nil => rfl
  | cons c cs =>
    have := key _ _ _ h
    simp [hasType, Selector.comps, this.1, this.2]

theorem isSimple_plain (s : Selector) (h : SelPlain compiling pt pf s) : isSimple s = true := by
  obtain ⟨n, cs⟩ := s
  simp only [SelPlain] at h
  have := plainGo_noComb cs true h
  simp only [isSimple, Selector.comps, Bool.not_eq_true', List.any_eq_false]
  intro c hc
  simp [this c hc]

theorem nest_env (d : Dom E) (atom : Component → E → Prop) (hu : ∀ e, atom .universal e) :
    ∀ (ctx : List (List Selector)), CtxOk ctx →
      Env d atom atom true (nestText ctx) (ctxSem d atom ctx) (NestPlain ctx true)
        (NestPlain ctx false)
  | [], _ => by
    have hp : PlainT ([.atom .scope] : List Text) := by
      intro t ht; simp only [List.mem_singleton] at ht; subst ht; rfl
    refine ⟨hu, fun _ _ _ => Iff.rfl, fun _ _ => hp, fun _ => hp, ?_, ?_, ?_, by simp⟩
    · intro _ e; simp [nestText, denote, Text.Sem, ctxSem]
    · intro _; exact wf_plain _ _ hp
    · intro _ e; simp [nestText, Text.Sem, ctxSem]
  | l :: ctx, hok => by
    simp only [CtxOk] at hok
    have henv := nest_env d atom hu ctx hok.2
    have hl := list_good henv l hok.1
    have hplainList : PlainT [.is (listText true (nestText ctx) l)] := by
      intro t ht; simp only [List.mem_singleton] at ht; subst ht; exact hl.1
    have hsemList : ∀ e, (∀ t ∈ [Text.is (listText true (nestText ctx) l)], t.Sem d atom e) ↔
        ctxSem d atom (l :: ctx) e := by
      intro e; simpa [Text.Sem, ctxSem] using hl.2 e
    have multi : (∀ first, nestText (l :: ctx) first = [.is (listText true (nestText ctx) l)]) →
        Env d atom atom true (nestText (l :: ctx)) (ctxSem d atom (l :: ctx))
          (NestPlain (l :: ctx) true) (NestPlain (l :: ctx) false) := by
      intro hn
      refine ⟨hu, fun _ _ _ => Iff.rfl, ?_, ?_, ?_, ?_, ?_, by simp⟩
      · intro _ _; rw [hn]; exact hplainList
      · intro _; rw [hn]; exact hplainList
      · intro _ e
        rw [hn, denote_plain _ _ hplainList]
        simp only [true_and]
        exact hsemList e
      · intro _; rw [hn]; exact wf_plain _ _ hplainList
      · intro _ e; rw [hn]; exact hsemList e
    cases l with
    | nil => exact multi fun _ => rfl
    | cons s ss =>
      cases ss with
      | cons s' ss => exact multi fun _ => rfl
      | nil =>
        simp only [ListOk, and_true] at hok
        have hs := sel_good henv s hok.1
        have hsem : ∀ e, s.Sem d (atomIn atom (ctxSem d atom ctx)) e ↔
            ctxSem d atom ([s] :: ctx) e := by
          intro e; simp [ctxSem, AnySem]
        have ht : nestText ([s] :: ctx) true = selText true (nestText ctx) s := by
          simp [nestText]
        have hf : ∀ (h : hasType s = true ∨ isSimple s = false), nestText ([s] :: ctx) false
            = [.is (listText true (nestText ctx) [s])] := by
          rintro (h | h) <;> simp [nestText, h]
        have hf' : SelPlain true (NestPlain ctx true) (NestPlain ctx false) s →
            nestText ([s] :: ctx) false = selText true (nestText ctx) s := by
          intro h
          simp [nestText, hasType_plain s h, isSimple_plain s h]
        refine ⟨hu, fun _ _ _ => Iff.rfl, ?_, ?_, ?_, ?_, ?_, by simp⟩
        · intro _ h
          simp only [NestPlain, Bool.true_eq_false, false_and, false_or] at h
          rw [ht]; exact sel_plain henv s h
        · intro h
          simp only [NestPlain, true_and] at h
          rcases h with h | h
          · rw [hf (needsIs_spec s h)]; exact hplainList
          · rw [hf' h]; exact sel_plain henv s h
        · intro _ e; rw [ht, hs.2 e]; exact hsem e
        · intro _; rw [ht]; exact hs.1
        · intro h e
          simp only [NestPlain, true_and] at h
          rcases h with h | h
          · rw [hf (needsIs_spec s h)]; exact hsemList e
          · have := hs.2 e
            rw [denote_plain _ _ (sel_plain henv s h)] at this
            simp only [true_and] at this
            rw [hf' h, this]
            exact hsem e

theorem amp_env (d : Dom E) (atom : Component → E → Prop) (P : E → Prop)
    (hu : ∀ e, atom .universal e) :
    Env d atom (atomIn atom P) false (fun _ => [.atom .nesting]) P True True := by
  have hp : PlainT ([.atom .nesting] : List Text) := by
    intro t ht; simp only [List.mem_singleton] at ht; subst ht; rfl
  refine ⟨hu, ?_, by simp, fun _ => hp, by simp, by simp, ?_, fun _ => rfl⟩
  · intro c e h
    rw [atomIn_of_not_nesting h]
  · intro _ e; simp [Text.Sem, atomIn]

/-! ### C53 -/

/-- **C53** Compiling `&` away: the text printed for a selector of a nested style rule is a
well-formed selector, and in every document it matches exactly the elements that the nested selector
matches when `&` stands for the elements matched by the parent rule's selector list. -/
theorem compiled_nesting_correct_partial (d : Dom E) (atom : Component → E → Prop)
    (hu : ∀ e, atom .universal e) (ctx : List (List Selector)) (s : Selector) (hctx : CtxOk ctx)
    (hs : SelOk true (NestPlain ctx true) (NestPlain ctx false) s) :
    wf true (compiledText ctx s) ∧
    ∀ e, denote d atom (fun _ => True) (compiledText ctx s) e ↔
      s.Sem d (atomIn atom (ctxSem d atom ctx)) e :=
  sel_good (nest_env d atom hu ctx hctx) s hs

/-- **C53** Printing without compiling keeps the meaning, whatever `&` stands for. -/
theorem nested_print_correct_partial (d : Dom E) (atom : Component → E → Prop) (P : E → Prop)
    (hu : ∀ e, atom .universal e) (s : Selector) (hs : SelOk false True True s) :
    wf true (nestedText s) ∧
    ∀ e, denote d (atomIn atom P) (fun _ => True) (nestedText s) e ↔ s.Sem d (atomIn atom P) e :=
  sel_good (amp_env d atom P hu) s hs

/-! #### No `&` is left -/

mutual
/-- No `&` occurs. -/
def NoAmp : List Text → Prop
  | [] => True
  | .comb _ :: ts => NoAmp ts
  | .atom c :: ts => isNesting c = false ∧ NoAmp ts
  | .is l :: ts | .where l :: ts | .not l :: ts => NoAmpL l ∧ NoAmp ts
/-- No `&` occurs in a list. -/
def NoAmpL : List (List Text) → Prop
  | [] => True
  | t :: ts => NoAmp t ∧ NoAmpL ts
end

theorem noAmp_append (a b : List Text) : NoAmp (a ++ b) ↔ NoAmp a ∧ NoAmp b := by
  induction a with
  | nil => simp [NoAmp]
  | cons t ts ih => cases t <;> simp [NoAmp, ih, and_assoc]

theorem noAmp_texts (l : List Piece) (h : ∀ p ∈ l, NoAmp p.2) : NoAmp (texts l) := by
  induction l with
  | nil => simp [texts, NoAmp]
  | cons p l ih =>
    have : texts (p :: l) = p.2 ++ texts l := by simp [texts]
    rw [this, noAmp_append]
    exact ⟨h p (by simp), ih fun q hq => h q (by simp [hq])⟩

theorem noAmp_elided (b : Bool) (l : List Piece) (h : ∀ p ∈ l, NoAmp p.2) : NoAmp (elided b l) :=
  noAmp_texts _ fun p hp => h p (List.mem_filter.1 hp).1

theorem noAmp_compound (hn : ∀ b, NoAmp (nest b)) (first : Bool) (next : Option Combinator)
    (c : List Piece) (h : ∀ p ∈ c, NoAmp p.2) :
    NoAmp (compoundText compiling nest first next c) := by
  have hd : ∀ n, ∀ p ∈ c.drop n, NoAmp p.2 := fun n p hp => h p (List.mem_of_mem_drop hp)
  unfold compoundText
  simp only
  repeat' split
  all_goals
    first
      | exact (noAmp_append _ _).2 ⟨noAmp_texts _ (hd _), hn _⟩
      | exact noAmp_texts _ h
      | exact (noAmp_append _ _).2 ⟨(noAmp_append _ _).2 ⟨noAmp_texts _ fun p hp =>
          hd _ p (List.mem_of_mem_take hp), hn _⟩, noAmp_elided _ _ (hd _)⟩
      | exact (noAmp_append _ _).2 ⟨hn _, noAmp_elided _ _ (hd _)⟩
      | exact noAmp_elided _ _ h

theorem noAmp_loop (hn : ∀ b, NoAmp (nest b)) (cs : List (List Piece))
    (h : ∀ c ∈ cs, ∀ p ∈ c, NoAmp p.2) (first : Bool) (ks : List Combinator) :
    NoAmp (printLoop compiling nest first cs ks) := by
  induction cs generalizing first ks with
  | nil => simp [printLoop, NoAmp]
  | cons c cs ih =>
    have hcs : ∀ c ∈ cs, ∀ p ∈ c, NoAmp p.2 := fun c hc => h c (by simp [hc])
    rw [printLoop]
    split
    · exact ih hcs _ _
    · rw [noAmp_append, noAmp_append]
      refine ⟨⟨noAmp_compound hn _ _ _ (h c (by simp)), ?_⟩, ih hcs _ _⟩
      cases ks.head? <;> simp [NoAmp]

theorem mem_splitPieces (l : List Piece) : ∀ c ∈ splitPieces l, ∀ p ∈ c, p ∈ l := by
  induction l with
  | nil => simp [splitPieces]
  | cons x xs ih =>
    rw [splitPieces]
    split
    · intro c hc p hp
      rcases List.mem_cons.1 hc with rfl | hc
      · simp at hp
      · exact List.mem_cons_of_mem _ (ih c hc p hp)
    · cases hsp : splitPieces xs with
      | nil =>
        intro c hc p hp
        simp only [List.mem_singleton] at hc
        subst hc
        simp only [List.mem_singleton] at hp
        simp [hp]
      | cons y ys =>
        intro c hc p hp
        rw [hsp] at ih
        rcases List.mem_cons.1 hc with rfl | hc
        · rcases List.mem_cons.1 hp with rfl | hp
          · simp
          · exact List.mem_cons_of_mem _ (ih y (by simp) p hp)
        · exact List.mem_cons_of_mem _ (ih c (by simp [hc]) p hp)

theorem noAmp_layout (hn : ∀ b, NoAmp (nest b)) (l : List Piece) (h : ∀ p ∈ l, NoAmp p.2) :
    NoAmp (layout compiling nest l) :=
  noAmp_loop hn _ (fun c hc p hp =>
    h p (mem_splitPieces l c (List.mem_reverse.1 hc) p hp)) _ _

mutual
theorem noAmp_comp (hn : ∀ b, NoAmp (nest b)) : ∀ c : Component, NoAmp (compText compiling nest c)
  | .nesting => by simpa only [compText] using hn false
  | .is l => by
    have h1 := noAmp_list hn l
    have h2 := noAmp_head hn l
    simp only [compText]
    split
    · exact h2
    · simpa [NoAmp] using h1
  | .any l => by simpa [compText, NoAmp] using noAmp_list hn l
  | .where l => by simpa [compText, NoAmp] using noAmp_list hn l
  | .negation l => by simpa [compText, NoAmp] using noAmp_list hn l
  | .combinator _ | .universal | .localName _ _ | .anyNamespace | .noNamespace
  | .defaultNamespace _ | .namespace _ _
  | .id _ | .cls _ | .attrExists _ | .attr _
  | .attrOther _ | .root | .empty | .scope
  | .nth _ | .nthOf _ _ | .pseudoClass _ | .local _
  | .global _ | .slotted _ | .part _ | .host
  | .hostFn _ | .has _ | .pseudoElement _
  | .viewTransitionAny _ => by simp [compText, NoAmp, isNesting]
theorem noAmp_list (hn : ∀ b, NoAmp (nest b)) : ∀ l : List Selector, NoAmpL (listText compiling nest l)
  | [] => by simp [listText, NoAmpL]
  | s :: ss => by
    have h1 := noAmp_sel hn s
    have h2 := noAmp_list hn ss
    simp only [listText, NoAmpL]
    exact ⟨h1, h2⟩
theorem noAmp_head (hn : ∀ b, NoAmp (nest b)) : ∀ l : List Selector, NoAmp (unwrapText compiling nest l)
  | [] => by simp [unwrapText, NoAmp]
  | s :: _ => by simpa only [unwrapText] using noAmp_sel hn s
theorem noAmp_sel (hn : ∀ b, NoAmp (nest b)) : ∀ s : Selector, NoAmp (selText compiling nest s)
  | .mk _ cs => by
    have h := noAmp_comps hn cs
    simp only [selText]
    exact noAmp_layout hn _ h
theorem noAmp_comps (hn : ∀ b, NoAmp (nest b)) : ∀ cs : List Component,
    ∀ p ∈ pieces compiling nest cs, NoAmp p.2
  | [] => by simp [pieces]
  | c :: cs => by
    have h1 := noAmp_comp hn c
    have h2 := noAmp_comps hn cs
    intro p hp
    rw [pieces] at hp
    rcases List.mem_cons.1 hp with h | h
    · rw [h]; exact h1
    · exact h2 p h
end

theorem noAmp_nest : ∀ (ctx : List (List Selector)) (first : Bool), NoAmp (nestText ctx first)
  | [], _ => by simp [nestText, NoAmp, isNesting]
  | l :: ctx, first => by
    have ih := noAmp_nest ctx
    have hl : NoAmp [.is (listText true (nestText ctx) l)] := by
      simpa [NoAmp] using noAmp_list ih l
    cases l with
    | nil => simpa only [nestText] using hl
    | cons s ss =>
      cases ss with
      | cons _ _ => simpa only [nestText] using hl
      | nil =>
        simp only [nestText]
        split
        · exact noAmp_sel ih s
        · exact hl

/-- **C53** The compiled text of every selector, in every context, has no `&` left in it (outside of
the arguments that are not modelled), even where it does not mean the same. -/
theorem compiled_has_no_nesting (ctx : List (List Selector)) (s : Selector) :
    NoAmp (compiledText ctx s) := noAmp_sel (noAmp_nest ctx) s

/-! #### Examples: the hypotheses can be met -/

/-- `.a .b`, in match order. -/
def exAB : Selector := .mk 0 [.cls cs!"b", .combinator .descendant, .cls cs!"a"]
/-- `div`. -/
def exDiv : Selector := .mk 0 [.localName cs!"div" cs!"div"]
/-- `&.c:not(.x &) > p`, in match order. -/
def exLead : Selector :=
  .mk 0 [.localName cs!"p" cs!"p", .combinator .child, .nesting, .cls cs!"c",
    .negation [.mk 0 [.nesting, .combinator .descendant, .cls cs!"x"]]]
/-- `&div`. -/
def exLeadDiv : Selector := .mk 0 [.nesting, .localName cs!"div" cs!"div"]

/-- `.a .b { &.c:not(.x &) > p }` becomes `.a .b.c:not(.x :is(.a .b)) > p`. -/
example : CtxOk [[exAB]] ∧ SelOk true (NestPlain [[exAB]] true) (NestPlain [[exAB]] false) exLead ∧
    compiledText [[exAB]] exLead =
      [.atom (.cls cs!"a"), .comb .descendant, .atom (.cls cs!"b"), .atom (.cls cs!"c"),
        .not [[.atom (.cls cs!"x"), .comb .descendant,
          .is [[.atom (.cls cs!"a"), .comb .descendant, .atom (.cls cs!"b")]]]],
        .comb .child, .atom (.localName cs!"p" cs!"p")] := by
  refine ⟨?_, ?_, by rfl⟩ <;>
    simp [CtxOk, ListOk, SelOk, CompsOk, CompOk, exAB, exLead, isType, isNamespace, NestPlain,
      Component.isCombinator, NeedsIs]

/-- `.a .b { &div { & > p } }`: three levels, the type selector moves to the front. -/
example : CtxOk [[exLeadDiv], [exAB]] ∧
    SelOk true (NestPlain [[exLeadDiv], [exAB]] true) (NestPlain [[exLeadDiv], [exAB]] false)
      (.mk 0 [.localName cs!"p" cs!"p", .combinator .child, .nesting]) ∧
    compiledText [[exLeadDiv], [exAB]] (.mk 0 [.localName cs!"p" cs!"p", .combinator .child, .nesting]) =
      [.atom (.localName cs!"div" cs!"div"),
        .is [[.atom (.cls cs!"a"), .comb .descendant, .atom (.cls cs!"b")]],
        .comb .child, .atom (.localName cs!"p" cs!"p")] := by
  refine ⟨?_, ?_, by rfl⟩ <;>
    simp [CtxOk, ListOk, SelOk, CompsOk, CompOk, exAB, exLeadDiv, isType, isNamespace, NestPlain,
      Component.isCombinator, NeedsIs]

example : SelOk false True True exLead ∧ nestedText exLeadDiv =
    [.atom .nesting, .atom (.localName cs!"div" cs!"div")] := by
  refine ⟨?_, by rfl⟩
  simp [SelOk, ListOk, CompsOk, CompOk, exLead, isType, isNamespace]

/-! #### Where the code gets it wrong -/

/-- `div { .foo:is(&) {} }` is printed as `.foodiv`: `:is(&)` is unwrapped as if it had no type
selector, and its text `div` is put after `.foo`. -/
theorem unwrapped_is_nesting_wrong :
    compiledText [[exDiv]] (.mk 0 [.cls cs!"foo", .is [.mk 0 [.nesting]]])
      = [.atom (.cls cs!"foo"), .atom (.localName cs!"div" cs!"div")] ∧
    ¬ wf true (compiledText [[exDiv]] (.mk 0 [.cls cs!"foo", .is [.mk 0 [.nesting]]])) := by
  have h : compiledText [[exDiv]] (.mk 0 [.cls cs!"foo", .is [.mk 0 [.nesting]]])
      = [.atom (.cls cs!"foo"), .atom (.localName cs!"div" cs!"div")] := by rfl
  rw [h]
  refine ⟨rfl, ?_⟩
  simp [wf, isType, isNesting]

/-- `.x { .foo > &div {} }` is printed as `.foo > .xdiv`: the type selector is moved in front of the
text of `&` only in the first compound. -/
theorem later_compound_type_wrong :
    compiledText [[.mk 0 [.cls cs!"x"]]]
        (.mk 0 [.nesting, .localName cs!"div" cs!"div", .combinator .child, .cls cs!"foo"])
      = [.atom (.cls cs!"foo"), .comb .child, .atom (.cls cs!"x"),
          .atom (.localName cs!"div" cs!"div")] ∧
    ¬ wf true (compiledText [[.mk 0 [.cls cs!"x"]]]
        (.mk 0 [.nesting, .localName cs!"div" cs!"div", .combinator .child, .cls cs!"foo"])) := by
  have h : compiledText [[.mk 0 [.cls cs!"x"]]]
        (.mk 0 [.nesting, .localName cs!"div" cs!"div", .combinator .child, .cls cs!"foo"])
      = [.atom (.cls cs!"foo"), .comb .child, .atom (.cls cs!"x"),
          .atom (.localName cs!"div" cs!"div")] := by rfl
  rw [h]
  refine ⟨rfl, ?_⟩
  simp [wf, isType, isNesting]

/-- `div { &.x { .foo & {} } }` is printed as `.foo div.x` (fine), but
`div { &.x { .foo& {} } }` is printed as `.foodiv.x`: the parent `&.x` is taken for a compound
without type selector although its `&` is `div`. -/
theorem nested_type_wrong :
    compiledText [[.mk 0 [.nesting, .cls cs!"x"]], [exDiv]] (.mk 0 [.cls cs!"foo", .nesting])
      = [.atom (.cls cs!"foo"), .atom (.localName cs!"div" cs!"div"), .atom (.cls cs!"x")] ∧
    ¬ wf true (compiledText [[.mk 0 [.nesting, .cls cs!"x"]], [exDiv]]
      (.mk 0 [.cls cs!"foo", .nesting])) := by
  have h : compiledText [[.mk 0 [.nesting, .cls cs!"x"]], [exDiv]] (.mk 0 [.cls cs!"foo", .nesting])
      = [.atom (.cls cs!"foo"), .atom (.localName cs!"div" cs!"div"), .atom (.cls cs!"x")] := by rfl
  rw [h]
  refine ⟨rfl, ?_⟩
  simp [wf, isType, isNesting]

/-- A document with three elements below each other: `2` in `1` in `0`. -/
def exDom : Dom Nat where
  parent e := if e = 0 then none else some (e - 1)
  prev _ := none
  rank e := e
  parent_prev := by simp
  rank_parent := by
    intro e e' h
    split at h <;> simp at h
    omega
  rank_prev := by simp

/-- `0` is `.foo.a`, and `2` is `.b`. -/
def exAtom' : Component → Nat → Prop
  | .cls s, e => (s = cs!"foo" ∧ e = 0) ∨ (s = cs!"a" ∧ e = 0) ∨ (s = cs!"b" ∧ e = 2)
  | .universal, _ => True
  | _, _ => False

/-- `.a .b { .foo:is(&) {} }` is printed as `.foo.a .b`, which is well-formed and matches another
element: here `2`, which is `.b` in a `.foo.a` but not `.foo`. -/
theorem unwrapped_is_complex_wrong :
    compiledText [[exAB]] (.mk 0 [.cls cs!"foo", .is [.mk 0 [.nesting]]])
      = [.atom (.cls cs!"foo"), .atom (.cls cs!"a"), .comb .descendant, .atom (.cls cs!"b")] ∧
    denote exDom exAtom' (fun _ => True)
      (compiledText [[exAB]] (.mk 0 [.cls cs!"foo", .is [.mk 0 [.nesting]]])) 2 ∧
    ¬ (Selector.mk 0 [.cls cs!"foo", .is [.mk 0 [.nesting]]]).Sem exDom
      (atomIn exAtom' (ctxSem exDom exAtom' [[exAB]])) 2 := by
  have h : compiledText [[exAB]] (.mk 0 [.cls cs!"foo", .is [.mk 0 [.nesting]]])
      = [.atom (.cls cs!"foo"), .atom (.cls cs!"a"), .comb .descendant, .atom (.cls cs!"b")] := by rfl
  rw [h]
  refine ⟨rfl, ?_, ?_⟩
  · simp only [denote, Text.Sem, exAtom', Dom.Rel]
    refine ⟨⟨0, ?_, by simp⟩, by simp⟩
    exact (Relation.TransGen.single (b := 1) (by simp [exDom])).trans
      (Relation.TransGen.single (by simp [exDom]))
  · simp [Selector.Sem, ComplexSem, Component.Sem, atomIn, exAtom']

/-- `.a .b { &.x { .foo &  {} } }` is printed as `.foo .a .b.x`, which asks for more than the
nested selector: that the `.foo` is around the `.a`. -/
theorem nested_complex_wrong :
    compiledText [[.mk 0 [.nesting, .cls cs!"x"]], [exAB]]
        (.mk 0 [.nesting, .combinator .descendant, .cls cs!"foo"])
      = [.atom (.cls cs!"foo"), .comb .descendant, .atom (.cls cs!"a"), .comb .descendant,
          .atom (.cls cs!"b"), .atom (.cls cs!"x")] ∧
    ∃ atom : Component → Nat → Prop, (∀ e, atom .universal e) ∧
      (Selector.mk 0 [.nesting, .combinator .descendant, .cls cs!"foo"]).Sem exDom
        (atomIn atom (ctxSem exDom atom [[.mk 0 [.nesting, .cls cs!"x"]], [exAB]])) 2 ∧
      ¬ denote exDom atom (fun _ => True)
        (compiledText [[.mk 0 [.nesting, .cls cs!"x"]], [exAB]]
          (.mk 0 [.nesting, .combinator .descendant, .cls cs!"foo"])) 2 := by
  have h : compiledText [[.mk 0 [.nesting, .cls cs!"x"]], [exAB]]
        (.mk 0 [.nesting, .combinator .descendant, .cls cs!"foo"])
      = [.atom (.cls cs!"foo"), .comb .descendant, .atom (.cls cs!"a"), .comb .descendant,
          .atom (.cls cs!"b"), .atom (.cls cs!"x")] := by rfl
  rw [h]
  refine ⟨rfl, fun c e => match c with
    | .cls s => (s = cs!"a" ∧ e = 0) ∨ (s = cs!"foo" ∧ e = 1) ∨ (s = cs!"b" ∧ e = 2) ∨
        (s = cs!"x" ∧ e = 2)
    | .universal => True
    | _ => False, by simp, ?_, ?_⟩
  · have h1 : exDom.Ancestor 2 1 := Relation.TransGen.single (by simp [exDom])
    have h2 : exDom.Ancestor 2 0 := h1.trans (Relation.TransGen.single (by simp [exDom]))
    simp [Selector.Sem, ComplexSem, Component.Sem, atomIn, ctxSem, AnySem, Dom.Rel, exAB, h1, h2]
  · simp only [denote, Text.Sem, Dom.Rel]
    rintro ⟨⟨⟨x, hx, ⟨y, hy, hyf⟩, hxa⟩, hb⟩, hxx⟩
    have hx0 : x = 0 := by simpa using hxa
    have hy1 : y = 1 := by simpa using hyf
    subst hx0 hy1
    have hrank : ∀ {a b : Nat}, exDom.Ancestor a b → b < a := by
      intro a b hab
      induction hab with
      | single h => exact exDom.rank_parent _ _ h
      | tail _ h ih => exact Nat.lt_trans (exDom.rank_parent _ _ h) ih
    exact absurd (hrank hy) (by omega)

end Verif.Selectors.Nesting
