import Verif.SelParse.Lemmas
/-!
# The parser against the grammar: simple selectors
-/
namespace Verif.SelParse

/-- The entry points of the parser on an argument agree with the grammar. -/
structure EntriesOK (o : Opts) (D : Drop) (args : List Tok) : Prop where
  list : ∀ cx inh b f l, okv (SelParse.list o f .none (stOf cx inh b) (liftL o args)) = some l ↔
    ∃ ps, Pieces ps args ∧ ReadsP code D o cx inh f none l ps
  relative : ∀ cx inh b l, okv (relativeList o true .none (stOf cx inh b) (liftL o args)) = some l ↔
    ∃ ps, Pieces ps args ∧ ReadsP code D o cx inh true (some (.pclass cs!"scope")) l ps
  inner : ∀ cx inh b s, okv (selector o .none (stOf cx inh b) (liftL o args)) = some s ↔
    ∃ w r, args = w ++ r ∧ AllWs w ∧ ReadsS code D o cx inh .no [] s r
  nth0 : ∀ cx inh b p x y, nth o (stOf cx inh b) p (liftL o args) = some (x, y, none) ↔
    ∃ w₁ w₂, args = w₁ ++ .anb x y :: w₂ ∧ AllWs w₁ ∧ AllWs w₂
  nth1 : ∀ cx inh b p x y l, nth o (stOf cx inh b) p (liftL o args) = some (x, y, some l) ↔
    ∃ w₁ w₂ f as ps, args = w₁ ++ .anb x y :: (w₂ ++ .ident f :: as) ∧ p = true ∧ AllWs w₁ ∧ AllWs w₂ ∧ lower f = cs!"of" ∧
      Pieces ps as ∧ ReadsP code D o (cx.inner code) inh true none l ps

/-- The argument of a token agrees with the grammar. -/
def OKTok (o : Opts) (D : Drop) : Tok → Prop
  | .func _ args => EntriesOK o D args
  | _ => True

/-- Not a combinator and not a type selector. -/
def Comp.isSimple : Comp → Bool
  | .comb _ => false
  | .type _ _ => false
  | _ => true

theorem okv_some {α β : Type} {x : Out (α × β)} {a : α} : okv x = some a ↔ ∃ b, x = .ok (a, b) := by
  cases x with
  | ok y => obtain ⟨a', b⟩ := y; simp [okv]
  | error e => simp [okv]

theorem stOf_inner (cx : Cx) (l : List Comp) (b : Bool) : { stOf cx l b with noPseudo := true } = stOf (cx.inner code) l b := by
  simp [stOf, Cx.inner, code]
theorem stOf_has (cx : Cx) (l : List Comp) (b : Bool) : stOf cx l b = stOf (cx.has code) l b := by
  simp [stOf, Cx.has, code]
theorem stOf_host (cx : Cx) (l : List Comp) (b : Bool) : { stOf cx l b with noPseudo := true, noComb := true } = stOf cx.host l b := by
  simp [stOf, Cx.host]
theorem stOf_top : ({} : St) = stOf .top [] false := by
  simp [stOf, Cx.top]
theorem stOf_nesting (cx : Cx) (l : List Comp) (b b' : Bool) : { stOf cx l b with nesting := b' } = stOf cx l b' := by
  simp [stOf]
theorem stOf_plain {c : Comp} (cx : Cx) (l : List Comp) (b : Bool)
    (h : (c.isSlotted || c.isPart || c.isElem || c.isScrollbar || c.isViewTransition) = false) : stOf cx (c :: l) b = stOf cx l b := by
  simp only [Bool.or_eq_false_iff] at h
  simp [stOf, h]

theorem allowsPseudos_iff (cx : Cx) (l : List Comp) (b : Bool) : (stOf cx l b).allowsPseudos = true ↔ cx.elems = true ∧ NoElem l := by
  rw [noElem_iff]
  simp only [St.allowsPseudos, stOf]
  cases cx.elems <;> cases l.any Comp.isElem <;> simp
theorem allowsPart_iff (cx : Cx) (l : List Comp) (b : Bool) : (stOf cx l b).allowsPart = true ↔ cx.elems = true ∧ NoPseudo l := by
  rw [noPseudo_iff cx l b, St.allowsPart]
  have : (stOf cx l b).noPseudo = !cx.elems := rfl
  rw [this]
  cases cx.elems <;> cases (stOf cx l b).pseudo <;> simp

theorem elemName_eq (n : Str) : elemName n =
    if lower n = cs!"-ms-input-placeholder" ∧ code.msIsMoz = true then cs!"-moz-placeholder" else lower n := by
  simp [elemName, code]

/-- A pseudo-element without argument. -/
theorem pseudoElem_iff (cx : Cx) (before pre : List Comp) (b : Bool) (n : Str) (r : List LTok) (c : Comp) (st : St) (r' : List LTok) :
    pseudoElem (stOf cx before b) n r = .ok c st r' ↔
      c = .pelem (elemName n) ∧ Allowed code cx before pre c ∧ st = stOf cx (c :: before) b ∧ r' = r := by
  have e : ∀ m, (stOf cx before b).afterElem m = stOf cx (.pelem m :: before) b := by
    intro m
    simp [St.afterElem, stOf, Comp.isElem, Comp.isSlotted, Comp.isPart, Comp.isScrollbar, Comp.isViewTransition, Bool.or_comm]
  have hs : (stOf cx before b).slotted = before.any Comp.isSlotted := rfl
  unfold pseudoElem
  rw [e]
  constructor
  · intro h
    split at h
    · simp at h
    · next ha =>
      simp at ha
      split at h
      · simp at h
      · next hb =>
        simp at h
        obtain ⟨rfl, rfl, rfl⟩ := h
        refine ⟨rfl, ?_, rfl, rfl⟩
        have := (allowsPseudos_iff cx before b).1 ha
        refine ⟨this.1, this.2, ?_⟩
        rw [noSlotted_iff]
        rw [hs] at hb
        by_cases hq : elemName n ∈ treeAbiding
        · exact .inl hq
        · right
          simp only [List.contains_eq_mem, hq, decide_false, Bool.not_false, Bool.and_true, Bool.not_eq_true] at hb
          exact hb
  · rintro ⟨rfl, ⟨h1, h2, h3⟩, rfl, rfl⟩
    rw [(allowsPseudos_iff cx before b).2 ⟨h1, h2⟩]
    rw [noSlotted_iff] at h3
    rw [hs]
    have : (before.any Comp.isSlotted && !treeAbiding.contains (elemName n)) = false := by
      rcases h3 with h | h
      · simp [h]
      · simp [h]
    simp only [this]; rfl

theorem elemFnNames_iff (n : Str) : n ∉ elemFnNames ↔ n ≠ cs!"part" ∧ n ≠ cs!"slotted" ∧ ¬ (n = cs!"cue" ∨ n = cs!"cue-region") := by
  simp [elemFnNames]

theorem stOf_elemFn (cx : Cx) (before : List Comp) (b : Bool) (n : Str) (args : List Tok) :
    (stOf cx before b).afterElemFn n = stOf cx (.pelemFn n args :: before) b := by
  simp [St.afterElemFn, stOf, Comp.isElem, Comp.isSlotted, Comp.isPart, Comp.isScrollbar, Comp.isViewTransition, Bool.or_comm]

theorem colons_two {n : Str} {c : List Tok} (h : Colons n c) (hn : lower n ∉ [cs!"before", cs!"after", cs!"first-line", cs!"first-letter"]) :
    c = [.colon, .colon] := by
  rcases h with h | ⟨_, h⟩
  · exact h
  · exact absurd h hn

theorem pseudoElemFn_sound {D : Drop} {o : Opts} {args : List Tok} (hok : EntriesOK o D args) {cx : Cx} {before : List Comp} (pre : List Comp)
    {b : Bool} {n : Str} {r : List LTok} {c : Comp} {st : St} {r' : List LTok} {cs : List Tok} (hc : Colons n cs)
    (h : pseudoElemFn o (stOf cx before b) n args (entries o (liftL o args)) r = .ok c st r') :
    ReadsC code D o cx before c (cs ++ [.func n args]) ∧ c.isSimple = true ∧ Allowed code cx before pre c ∧
      (∃ b', st = stOf cx (c :: before) b') ∧ r' = r := by
  have hs : (stOf cx before b).slotted = before.any Comp.isSlotted := rfl
  unfold pseudoElemFn at h
  split at h
  · simp at h
  next ha =>
  simp at ha
  have hp := (allowsPseudos_iff cx before b).1 ha
  split at h
  · next hn =>
    rw [colons_two hc (by rw [hn]; decide)]
    split at h
    · simp at h
    next hb =>
    simp at hb
    have hq := (allowsPart_iff cx before b).1 hb
    split at h
    · next l hl =>
      simp at h
      obtain ⟨rfl, rfl, rfl⟩ := h
      refine ⟨?_, rfl, hq, ⟨b, ?_⟩, rfl⟩
      · simp only [ReadsC]
        exact ⟨n, args, rfl, hn, by simp, (partNames_iff _ _).1 hl⟩
      · simp [stOf, Comp.isElem, Comp.isSlotted, Comp.isPart, Comp.isScrollbar, Comp.isViewTransition]
    · simp at h
  split at h
  · next hn =>
    rw [colons_two hc (by rw [hn]; decide)]
    split at h
    · simp at h
    next hb =>
    simp at hb
    have hq := (allowsPart_iff cx before b).1 hb
    split at h
    · next s b' hl =>
      simp at h
      obtain ⟨rfl, rfl, rfl⟩ := h
      rw [stOf_host] at hl
      obtain ⟨w, x, e1, e2, e3⟩ := (hok.inner _ _ _ _).1 (okv_some.2 ⟨b', hl⟩)
      refine ⟨?_, rfl, hq, ⟨b || b', ?_⟩, rfl⟩
      · simp only [ReadsC]
        exact ⟨n, w, x, by rw [e1]; rfl, hn, e2, e3⟩
      · simp [stOf, Comp.isElem, Comp.isSlotted, Comp.isPart, Comp.isScrollbar, Comp.isViewTransition]
    · simp at h
  split at h
  · next hn =>
    rw [colons_two hc (by rcases hn with hn | hn <;> rw [hn] <;> decide)]
    split at h
    · next s b' hl =>
      rw [stOf_top] at hl
      obtain ⟨w, x, e1, e2, e3⟩ := (hok.inner _ _ _ _).1 (okv_some.2 ⟨b', hl⟩)
      split at h
      · simp at h
      next hb =>
      simp at h
      obtain ⟨rfl, rfl, rfl⟩ := h
      refine ⟨?_, rfl, ⟨hp.1, hp.2, ?_⟩, ⟨b, ?_⟩, rfl⟩
      · simp only [ReadsC]
        refine ⟨n, w, x, by rw [e1]; rfl, ?_, e2, e3⟩
        rcases hn with hn | hn <;> rw [hn] <;> decide
      · rw [noSlotted_iff]; rw [hs] at hb; simpa using hb
      · simp [stOf, Comp.isElem, Comp.isSlotted, Comp.isPart, Comp.isScrollbar, Comp.isViewTransition]
    · simp at h
  split at h
  · simp at h
  next hv =>
  split at h
  · simp at h
  next hb =>
  simp at h
  obtain ⟨rfl, rfl, rfl⟩ := h
  refine ⟨?_, rfl, ⟨hp.1, hp.2, ?_⟩, ⟨b, ?_⟩, rfl⟩
  · simp only [ReadsC]
    exact ⟨n, cs, rfl, hc, rfl, (elemFnNames_iff _).2 ⟨by assumption, by assumption, by assumption⟩, by simpa using hv⟩
  · rw [noSlotted_iff]; rw [hs] at hb; simpa using hb
  · exact stOf_elemFn _ _ _ _ _

/-- A component whose tokens end with a function, as a pseudo-element. -/
theorem pseudoElemFn_complete {D : Drop} {o : Opts} {args : List Tok} (hok : EntriesOK o D args) {cx : Cx} {before pre : List Comp}
    (b : Bool) {n : Str} (r : List LTok) {c : Comp} {cs : List Tok}
    (hr : ReadsC code D o cx before c (cs ++ [.func n args])) (hs : c.isSimple = true) (ha : Allowed code cx before pre c)
    (hc : cs = [.colon, .colon] ∨ cs = [.colon] ∧ Css2 n) :
    ∃ b', pseudoElemFn o (stOf cx before b) n args (entries o (liftL o args)) r = .ok c (stOf cx (c :: before) b') r := by
  have hsl : (stOf cx before b).slotted = before.any Comp.isSlotted := rfl
  have one : cs = [.colon] ∧ Css2 n → ¬ ¬ Css2 n := fun h => not_not_intro h.2
  have last : ∀ (x y : List Tok) (s t : Tok), x ++ [s] = y ++ [t] → s = t := by
    intro x y s t h
    have := congrArg List.getLast? h
    simpa using this
  have notcss2 : ∀ m : Str, lower n = m → m ∉ [cs!"before", cs!"after", cs!"first-line", cs!"first-letter"] → ¬ Css2 n := by
    rintro m rfl h h'; exact h h'
  cases c with
  | comb k => simp [Comp.isSimple] at hs
  | type a b => simp [Comp.isSimple] at hs
  | nesting => simp only [ReadsC] at hr; rcases hc with rfl | ⟨rfl, _⟩ <;> simp at hr
  | id s => simp only [ReadsC] at hr; rcases hc with rfl | ⟨rfl, _⟩ <;> simp at hr
  | cls s => simp only [ReadsC] at hr; rcases hc with rfl | ⟨rfl, _⟩ <;> simp at hr
  | attr a => simp only [ReadsC] at hr; rcases hc with rfl | ⟨rfl, _⟩ <;> simp at hr
  | pclass m => simp only [ReadsC] at hr; rcases hc with rfl | ⟨rfl, _⟩ <;> simp at hr
  | pclassFn m x =>
    simp only [ReadsC] at hr
    rcases hc with rfl | ⟨rfl, hc⟩
    · simp at hr
    · obtain ⟨w, h1, _, h3, _⟩ := hr
      simp at h1
      rw [h1.1] at hc; exact absurd hc h3
  | logical f l =>
    simp only [ReadsC] at hr
    rcases hc with rfl | ⟨rfl, hc⟩
    · simp at hr
    · obtain ⟨w, _, _, h1, h2, _⟩ := hr
      simp at h1
      rw [← h1.1] at h2
      exact absurd hc (notcss2 _ h2 (by cases f <;> decide))
  | has l =>
    simp only [ReadsC] at hr
    rcases hc with rfl | ⟨rfl, hc⟩
    · simp at hr
    · obtain ⟨w, _, _, h1, h2, _⟩ := hr
      simp at h1
      rw [← h1.1] at h2
      exact absurd hc (notcss2 _ h2 (by decide))
  | nth t x y =>
    simp only [ReadsC] at hr
    rcases hc with rfl | ⟨rfl, hc⟩
    · simp at hr
    · obtain ⟨w, _, _, h1, h2, _⟩ := hr
      simp at h1
      rw [← h1.1] at h2
      exact absurd hc (notcss2 _ h2 (by cases t <;> decide))
  | nthOf t x y l =>
    simp only [ReadsC] at hr
    rcases hc with rfl | ⟨rfl, hc⟩
    · simp at hr
    · obtain ⟨w, _, _, _, _, _, h1, h2, _⟩ := hr
      simp at h1
      rw [← h1.1] at h2
      exact absurd hc (notcss2 _ h2 (by cases t <;> decide))
  | hostFn s =>
    simp only [ReadsC] at hr
    rcases hc with rfl | ⟨rfl, hc⟩
    · simp at hr
    · obtain ⟨w, _, _, h1, h2, _⟩ := hr
      simp at h1
      rw [← h1.1] at h2
      exact absurd hc (notcss2 _ h2 (by decide))
  | pelem m =>
    simp only [ReadsC] at hr
    obtain ⟨w, _, h1, _⟩ := hr
    have := last _ _ _ _ h1
    simp at this
  | pelemFn m x =>
    simp only [ReadsC] at hr
    obtain ⟨w, _, h1, _, h3, h4, h5⟩ := hr
    have := last _ _ _ _ h1
    simp at this
    obtain ⟨rfl, rfl⟩ := this
    subst h3
    obtain ⟨g1, g2, g3⟩ := ha
    rw [noSlotted_iff] at g3
    rw [elemFnNames_iff] at h4
    refine ⟨b, ?_⟩
    unfold pseudoElemFn
    rw [(allowsPseudos_iff cx before b).2 ⟨g1, g2⟩, if_neg (by simp), if_neg h4.1, if_neg h4.2.1, if_neg h4.2.2, if_neg (by simp [h5]),
      hsl, if_neg (by rw [g3]; simp), stOf_elemFn]
  | cue region s =>
    simp only [ReadsC] at hr
    obtain ⟨w, x, y, h1, h2, h3, h4⟩ := hr
    rcases hc with rfl | ⟨rfl, _⟩
    rotate_left; · simp at h1
    simp at h1
    obtain ⟨rfl, rfl⟩ := h1
    obtain ⟨b', hb'⟩ := okv_some.1 ((hok.inner .top [] false s).2 ⟨x, y, rfl, h3, h4⟩)
    obtain ⟨g1, g2, g3⟩ := ha
    rw [noSlotted_iff] at g3
    refine ⟨b, ?_⟩
    have hst : { stOf cx before b with elem := true } = stOf cx (Comp.cue region s :: before) b := by
      simp [stOf, Comp.isElem, Comp.isSlotted, Comp.isPart, Comp.isScrollbar, Comp.isViewTransition]
    have hreg : decide (lower n = cs!"cue-region") = region := by rw [h2]; cases region <;> decide
    unfold pseudoElemFn
    rw [(allowsPseudos_iff cx before b).2 ⟨g1, g2⟩, if_neg (by simp), if_neg (by rw [h2]; cases region <;> decide),
      if_neg (by rw [h2]; cases region <;> decide), if_pos (by rw [h2]; cases region <;> decide)]
    rw [← stOf_top] at hb'
    simp only [entries, hb', hreg]
    rw [if_neg (by rw [hsl, g3]; simp), ← hst]
  | part l =>
    simp only [ReadsC] at hr
    obtain ⟨w, x, h1, h2, h3, h4⟩ := hr
    rcases hc with rfl | ⟨rfl, _⟩
    rotate_left; · simp at h1
    simp at h1
    obtain ⟨rfl, rfl⟩ := h1
    refine ⟨b, ?_⟩
    have hst : { stOf cx before b with part := true } = stOf cx (Comp.part l :: before) b := by
      simp [stOf, Comp.isElem, Comp.isSlotted, Comp.isPart, Comp.isScrollbar, Comp.isViewTransition]
    unfold pseudoElemFn
    rw [(allowsPseudos_iff cx before b).2 ⟨ha.1, ha.2.1⟩, if_neg (by simp), if_pos h2, (allowsPart_iff cx before b).2 ha, if_neg (by simp),
      (partNames_iff _ _).2 h4]
    cases l with
    | nil => exact absurd rfl h3
    | cons s l => simp only [hst]
  | slotted s =>
    simp only [ReadsC] at hr
    obtain ⟨w, x, y, h1, h2, h3, h4⟩ := hr
    rcases hc with rfl | ⟨rfl, _⟩
    rotate_left; · simp at h1
    simp at h1
    obtain ⟨rfl, rfl⟩ := h1
    obtain ⟨b', hb'⟩ := okv_some.1 ((hok.inner cx.host before b s).2 ⟨x, y, rfl, h3, h4⟩)
    refine ⟨b || b', ?_⟩
    have hst : { stOf cx before b with slotted := true, nesting := b || b' } = stOf cx (Comp.slotted s :: before) (b || b') := by
      simp [stOf, Comp.isElem, Comp.isSlotted, Comp.isPart, Comp.isScrollbar, Comp.isViewTransition]
    unfold pseudoElemFn
    rw [(allowsPseudos_iff cx before b).2 ⟨ha.1, ha.2.1⟩, if_neg (by simp), if_neg (by rw [h2]; decide), if_pos h2,
      (allowsPart_iff cx before b).2 ha, if_neg (by simp), stOf_host]
    simp only [entries, hb']
    rw [← hst]; rfl

/-- A pseudo-class without argument. -/
theorem pseudoClass_iff (cx : Cx) (before : List Comp) (b : Bool) (n : Str) (r : List LTok) (c : Comp) (st : St) (r' : List LTok) :
    pseudoClass (stOf cx before b) n r = .ok c st r' ↔
      c = .pclass n ∧ ClassPlace before n ∧ st = stOf cx (c :: before) b ∧ r' = r := by
  have h1 : (stOf cx before b).slotted = before.any Comp.isSlotted := rfl
  have h2 : (stOf cx before b).elem = before.any Comp.isElem := rfl
  have h3 : (stOf cx before b).scrollbar = before.any Comp.isScrollbar := rfl
  have h4 : (stOf cx before b).viewTransition = before.any Comp.isViewTransition := rfl
  have hst : stOf cx (.pclass n :: before) b = stOf cx before b := stOf_plain _ _ _ rfl
  have hok : ∀ P : Prop, P → ((Res.ok (.pclass n) (stOf cx before b) r = .ok c st r') ↔ (c = .pclass n ∧ P ∧ st = stOf cx (c :: before) b ∧ r' = r)) := by
    intro P hP
    constructor
    · intro h
      simp at h
      obtain ⟨rfl, rfl, rfl⟩ := h
      exact ⟨rfl, hP, hst.symm, rfl⟩
    · rintro ⟨rfl, _, rfl, rfl⟩
      rw [hst]
  have hno : ∀ P : Prop, ¬ P → ((Res.err = .ok c st r') ↔ (c = .pclass n ∧ P ∧ st = stOf cx (c :: before) b ∧ r' = r)) := by
    intro P hP
    constructor
    · intro h; simp at h
    · rintro ⟨_, h, _⟩; exact absurd h hP
  have hcp : ClassPlace before n ↔ before.any Comp.isSlotted = false ∧
     (before.any Comp.isViewTransition = true ∧ n = cs!"only-child" ∨
     before.any Comp.isScrollbar = true ∧ n ∈ afterScrollbar ∨
     before.any Comp.isScrollbar = false ∧ before.any Comp.isElem = true ∧ n ∈ userAction ∨
     before.any Comp.isScrollbar = false ∧ before.any Comp.isElem = false ∧ n ∉ scrollbarClasses) := by
    simp [ClassPlace, NoSlotted, NoElem]
  unfold pseudoClass
  rw [h1, h2, h3, h4, hcp]
  cases before.any Comp.isSlotted with
  | true => exact hno _ (by simp)
  | false =>
    by_cases hv : before.any Comp.isViewTransition = true ∧ n = cs!"only-child"
    · rw [if_neg (by simp), if_pos (by simp [hv.1, hv.2])]
      exact hok _ ⟨rfl, .inl hv⟩
    · rw [if_neg (by simp), if_neg (by simpa using hv)]
      cases before.any Comp.isScrollbar with
      | true =>
        rw [if_pos rfl]
        by_cases hm : n ∈ afterScrollbar
        · rw [if_pos (by simpa using hm)]; exact hok _ ⟨rfl, .inr (.inl ⟨rfl, hm⟩)⟩
        · rw [if_neg (by simpa using hm)]; exact hno _ (by rintro ⟨_, h⟩; simp [hm] at h; exact hv (by simpa using h))
      | false =>
        rw [if_neg (by simp)]
        cases before.any Comp.isElem with
        | true =>
          rw [if_pos rfl]
          by_cases hm : n ∈ userAction
          · rw [if_pos (by simpa using hm)]; exact hok _ ⟨rfl, .inr (.inr (.inl ⟨rfl, rfl, hm⟩))⟩
          · rw [if_neg (by simpa using hm)]; exact hno _ (by rintro ⟨_, h⟩; simp [hm] at h; exact hv (by simpa using h))
        | false =>
          rw [if_neg (by simp)]
          by_cases hm : n ∈ scrollbarClasses
          · rw [if_pos (by simpa using hm)]; exact hno _ (by rintro ⟨_, h⟩; simp [hm] at h; exact hv (by simpa using h))
          · rw [if_neg (by simpa using hm)]; exact hok _ ⟨rfl, .inr (.inr (.inr ⟨rfl, rfl, hm⟩))⟩

theorem nthOfName_none {n : Str} (h : nthOfName n = none) (t : NthTy) : n ≠ t.name := by
  intro e; rw [(nthOfName_iff n t).2 e] at h; simp at h
theorem logicalOf_none {n : Str} (h : logicalOf n = none) (t : Logical) : n ≠ t.name := by
  intro e; rw [(logicalOf_iff n t).2 e] at h; simp at h

theorem allowsOf_iff (t : NthTy) : t.allowsOf = true ↔ t = .child ∨ t = .lastChild := by
  cases t <;> decide

theorem pseudoClassFn_sound {D : Drop} {o : Opts} {args : List Tok} (hok : EntriesOK o D args) {cx : Cx} {before : List Comp} (pre : List Comp)
    {b : Bool} {n : Str} {r : List LTok} {c : Comp} {st : St} {r' : List LTok} (hc : ¬ Css2 n)
    (h : pseudoClassFn o (stOf cx before b) (lower n) args (entries o (liftL o args)) r = .ok c st r') :
    ReadsC code D o cx before c [.colon, .func n args] ∧ c.isSimple = true ∧ Allowed code cx before pre c ∧
      (∃ b', st = stOf cx (c :: before) b') ∧ r' = r := by
  unfold pseudoClassFn at h
  split at h
  · next t ht =>
    rw [nthOfName_iff] at ht
    split at h
    · simp at h
    next hp =>
    have hp' := (noPseudo_iff cx before b).2 (by simpa using hp)
    split at h
    · next x y hn =>
      simp at h
      obtain ⟨rfl, rfl, rfl⟩ := h
      obtain ⟨w1, w2, e1, e2, e3⟩ := (hok.nth0 _ _ _ _ _ _).1 hn
      refine ⟨?_, rfl, hp', ⟨b, (stOf_plain _ _ _ rfl).symm⟩, rfl⟩
      simp only [ReadsC]
      exact ⟨n, w1, w2, by rw [e1], ht, e2, e3⟩
    · next x y l hn =>
      simp at h
      obtain ⟨rfl, rfl, rfl⟩ := h
      obtain ⟨w1, w2, f, as, ps, e1, e2, e3, e4, e5, e6, e7⟩ := (hok.nth1 _ _ _ _ _ _ _).1 hn
      refine ⟨?_, rfl, hp', ⟨b, (stOf_plain _ _ _ rfl).symm⟩, rfl⟩
      simp only [ReadsC]
      exact ⟨n, w1, w2, f, as, ps, by rw [e1], ht, (allowsOf_iff t).1 e2, e3, e4, e5, e6, e7⟩
    · simp at h
  next hn1 =>
  split at h
  · next f hf =>
    rw [logicalOf_iff] at hf
    split at h
    · next l b' hl =>
      simp at h
      obtain ⟨rfl, rfl, rfl⟩ := h
      rw [stOf_inner] at hl
      obtain ⟨ps, e1, e2⟩ := (hok.list _ _ _ _ _).1 (okv_some.2 ⟨b', hl⟩)
      refine ⟨?_, rfl, trivial, ⟨b || b', ?_⟩, rfl⟩
      · simp only [ReadsC]
        exact ⟨n, args, ps, rfl, hf, e1, e2⟩
      · rw [stOf_plain _ _ _ rfl]; rfl
    · simp at h
  next hn2 =>
  split at h
  · next hn =>
    split at h
    · next l b' hl =>
      simp at h
      obtain ⟨rfl, rfl, rfl⟩ := h
      rw [stOf_has] at hl
      obtain ⟨ps, e1, e2⟩ := (hok.relative _ _ _ _).1 (okv_some.2 ⟨b', hl⟩)
      refine ⟨?_, rfl, ⟨.inl rfl, .inl rfl⟩, ⟨b || b', ?_⟩, rfl⟩
      · simp only [ReadsC]
        exact ⟨n, args, ps, rfl, hn, e1, e2⟩
      · rw [stOf_plain _ _ _ rfl]; rfl
    · simp at h
  next hn3 =>
  split at h
  · next hn =>
    split at h
    · simp at h
    next hp =>
    have hp' := (noPseudo_iff cx before b).2 (by simpa using hp)
    split at h
    · next s b' hl =>
      simp at h
      obtain ⟨rfl, rfl, rfl⟩ := h
      rw [stOf_host] at hl
      obtain ⟨w, x, e1, e2, e3⟩ := (hok.inner _ _ _ _).1 (okv_some.2 ⟨b', hl⟩)
      refine ⟨?_, rfl, hp', ⟨b || b', ?_⟩, rfl⟩
      · simp only [ReadsC]
        exact ⟨n, w, x, by rw [e1], hn, e2, e3⟩
      · rw [stOf_plain _ _ _ rfl]; rfl
    · simp at h
  next hn4 =>
  split at h
  · simp at h
  next hp =>
  have hp' := (noPseudo_iff cx before b).2 (by simpa using hp)
  split at h
  · simp at h
  next hv =>
  simp at h
  obtain ⟨rfl, rfl, rfl⟩ := h
  refine ⟨?_, rfl, hp', ⟨b, (stOf_plain _ _ _ rfl).symm⟩, rfl⟩
  simp only [ReadsC]
  refine ⟨n, rfl, rfl, hc, ?_, by simpa using hv⟩
  simp only [classFnNames, List.mem_cons, List.not_mem_nil, or_false, not_or]
  exact ⟨logicalOf_none hn2 .is, logicalOf_none hn2 .where, logicalOf_none hn2 .not, logicalOf_none hn2 .webkitAny,
    logicalOf_none hn2 .mozAny, hn3, hn4, nthOfName_none hn1 .child, nthOfName_none hn1 .lastChild, nthOfName_none hn1 .ofType,
    nthOfName_none hn1 .lastOfType, nthOfName_none hn1 .col, nthOfName_none hn1 .lastCol⟩

theorem nth_none_of {n : Str} (h : ∀ t : NthTy, n ≠ t.name) : nthOfName n = none := by
  cases e : nthOfName n with
  | none => rfl
  | some t => exact absurd ((nthOfName_iff n t).1 e) (h t)
theorem logical_none_of {n : Str} (h : ∀ t : Logical, n ≠ t.name) : logicalOf n = none := by
  cases e : logicalOf n with
  | none => rfl
  | some t => exact absurd ((logicalOf_iff n t).1 e) (h t)

theorem pseudoClassFn_complete {D : Drop} {o : Opts} {args : List Tok} (hok : EntriesOK o D args) {cx : Cx} {before pre : List Comp}
    (b : Bool) {n : Str} (r : List LTok) {c : Comp}
    (hr : ReadsC code D o cx before c [.colon, .func n args]) (hs : c.isSimple = true) (ha : Allowed code cx before pre c) (hc : ¬ Css2 n) :
    ∃ b', pseudoClassFn o (stOf cx before b) (lower n) args (entries o (liftL o args)) r = .ok c (stOf cx (c :: before) b') r := by
  cases c with
  | comb k => simp [Comp.isSimple] at hs
  | type a b => simp [Comp.isSimple] at hs
  | nesting => simp [ReadsC] at hr
  | id s => simp [ReadsC] at hr
  | cls s => simp [ReadsC] at hr
  | attr a => simp [ReadsC] at hr
  | pclass m => simp [ReadsC] at hr
  | pclassFn m x =>
    simp only [ReadsC] at hr
    obtain ⟨w, h1, rfl, h3, h4, h5⟩ := hr
    simp at h1
    obtain ⟨rfl, rfl⟩ := h1
    refine ⟨b, ?_⟩
    simp only [classFnNames, List.mem_cons, List.not_mem_nil, or_false, not_or] at h4
    obtain ⟨g1, g2, g3, g4, g5, g6, g7, g8, g9, g10, g11, g12, g13⟩ := h4
    have hp : (stOf cx before b).pseudo = false := (noPseudo_iff cx before b).1 ha
    unfold pseudoClassFn
    rw [nth_none_of (by intro t; cases t <;> assumption), logical_none_of (by intro t; cases t <;> assumption)]
    simp only
    rw [if_neg g6, if_neg g7, hp, if_neg (by simp), if_neg (by simp [h5]), stOf_plain _ _ _ rfl]
  | logical f l =>
    simp only [ReadsC] at hr
    obtain ⟨w, as, ps, h1, h2, h3, h4⟩ := hr
    simp at h1
    obtain ⟨rfl, rfl⟩ := h1
    obtain ⟨b', hb'⟩ := okv_some.1 ((hok.list (cx.inner code) before b (f != .not) l).2 ⟨ps, h3, h4⟩)
    refine ⟨b || b', ?_⟩
    have hnth : nthOfName (lower n) = none := by rw [h2]; cases f <;> decide
    unfold pseudoClassFn
    rw [hnth, (logicalOf_iff _ f).2 h2, stOf_inner, stOf_plain _ _ _ rfl]
    simp only [entries, hb']
    rfl
  | has l =>
    simp only [ReadsC] at hr
    obtain ⟨w, as, ps, h1, h2, h3, h4⟩ := hr
    simp at h1
    obtain ⟨rfl, rfl⟩ := h1
    obtain ⟨b', hb'⟩ := okv_some.1 ((hok.relative (cx.has code) before b l).2 ⟨ps, h3, h4⟩)
    refine ⟨b || b', ?_⟩
    rw [← stOf_has] at hb'
    have hnth : nthOfName (lower n) = none := by rw [h2]; decide
    have hlog : logicalOf (lower n) = none := by rw [h2]; decide
    unfold pseudoClassFn
    rw [hnth, hlog, stOf_plain _ _ _ rfl, if_pos h2]
    simp only [entries, hb']
    rfl
  | nth t x y =>
    simp only [ReadsC] at hr
    obtain ⟨w, w1, w2, h1, h2, h3, h4⟩ := hr
    simp at h1
    obtain ⟨rfl, rfl⟩ := h1
    have hn := (hok.nth0 cx before b t.allowsOf x y).2 ⟨w1, w2, rfl, h3, h4⟩
    have hp : (stOf cx before b).pseudo = false := (noPseudo_iff cx before b).1 ha
    refine ⟨b, ?_⟩
    unfold pseudoClassFn
    rw [(nthOfName_iff _ t).2 h2, stOf_plain _ _ _ rfl]
    simp only [entries, hn]
    rw [hp, if_neg (by simp)]
  | nthOf t x y l =>
    simp only [ReadsC] at hr
    obtain ⟨w, w1, w2, f, as, ps, h1, h2, h3, h4, h5, h6, h7, h8⟩ := hr
    simp at h1
    obtain ⟨rfl, rfl⟩ := h1
    have hn := (hok.nth1 cx before b t.allowsOf x y l).2 ⟨w1, w2, f, as, ps, rfl, (allowsOf_iff t).2 h3, h4, h5, h6, h7, h8⟩
    have hp : (stOf cx before b).pseudo = false := (noPseudo_iff cx before b).1 ha
    refine ⟨b, ?_⟩
    unfold pseudoClassFn
    rw [(nthOfName_iff _ t).2 h2, stOf_plain _ _ _ rfl]
    simp only [entries, hn]
    rw [hp, if_neg (by simp)]
  | hostFn s =>
    simp only [ReadsC] at hr
    obtain ⟨w, x, y, h1, h2, h3, h4⟩ := hr
    simp at h1
    obtain ⟨rfl, rfl⟩ := h1
    obtain ⟨b', hb'⟩ := okv_some.1 ((hok.inner cx.host before b s).2 ⟨x, y, rfl, h3, h4⟩)
    have hp : (stOf cx before b).pseudo = false := (noPseudo_iff cx before b).1 ha
    refine ⟨b || b', ?_⟩
    have hnth : nthOfName (lower n) = none := by rw [h2]; decide
    have hlog : logicalOf (lower n) = none := by rw [h2]; decide
    unfold pseudoClassFn
    rw [hnth, hlog, stOf_plain _ _ _ rfl, if_neg (by rw [h2]; decide), if_pos h2, hp, if_neg (by simp), stOf_host]
    simp only [entries, hb']
    rfl
  | pelem m =>
    simp only [ReadsC] at hr
    obtain ⟨w, c, h1, h2, _⟩ := hr
    rcases h2 with rfl | ⟨rfl, _⟩ <;> simp at h1
  | pelemFn m x =>
    simp only [ReadsC] at hr
    obtain ⟨w, c, h1, h2, _⟩ := hr
    rcases h2 with rfl | ⟨rfl, h2⟩
    · simp at h1
    · simp at h1; rw [← h1.1] at h2; exact absurd h2 hc
  | cue region s => simp [ReadsC] at hr
  | part l => simp [ReadsC] at hr
  | slotted s => simp [ReadsC] at hr

end Verif.SelParse
