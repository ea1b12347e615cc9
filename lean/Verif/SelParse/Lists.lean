import Verif.SelParse.Complete
/-!
# The parser against the grammar: lists of selectors, arguments
-/
namespace Verif.SelParse

variable {D : Drop} {o : Opts}

theorem selector_none (st : St) (ts : List LTok) : selector o .none st ts =
    match complex o (ts.length + 1) st ts with
    | .error b => .error b
    | .ok (cs, st) => .ok (cs, st.nesting) := by
  unfold selector
  simp only
  cases complex o (ts.length + 1) st ts with
  | error e => rfl
  | ok x =>
    obtain ⟨cs, st⟩ := x
    cases hn : st.nesting <;> simp [hn]

theorem selector_iff (cx : Cx) (inh : List Comp) (b : Bool) (s : Sel) {ts : List Tok} (hts : ∀ t ∈ ts, OKTok o D t) :
    okv (selector o .none (stOf cx inh b) (liftL o ts)) = some s ↔ ∃ w r, ts = w ++ r ∧ AllWs w ∧ ReadsS code D o cx inh .no [] s r := by
  rw [selector_none]
  constructor
  · intro h
    cases hc : complex o ((liftL o ts).length + 1) (stOf cx inh b) (liftL o ts) with
    | error e => rw [hc] at h; simp [okv] at h
    | ok x =>
      obtain ⟨cs, st⟩ := x
      rw [hc] at h
      simp [okv] at h
      subst h
      exact complex_sound (pre := []) _ hts rfl hc
  · rintro ⟨w, r, rfl, hw, hr⟩
    obtain ⟨st, h⟩ := (complete s [] r b (fun t ht => hts t (by simp [ht])) hr).1 rfl ((w ++ r).length + 1) w hw (by omega)
    simp only [List.nil_append] at h
    rw [liftL_length, h]
    rfl

theorem selector_flag (cx : Cx) (inh : List Comp) (b b' : Bool) {ts : List Tok} (hts : ∀ t ∈ ts, OKTok o D t) :
    okv (selector o .none (stOf cx inh b) (liftL o ts)) = okv (selector o .none (stOf cx inh b') (liftL o ts)) := by
  apply Option.ext
  intro s
  rw [selector_iff cx inh b s hts, selector_iff cx inh b' s hts]

theorem okv_map {α β γ : Type} (e : Out (α × β)) (f : α → γ) : okv (e.map fun x => (f x.1, x.2)) = (okv e).map f := by
  cases e <;> rfl

/-- The combinator that a token is. -/
def combOf : Tok → Option Comb
  | .delim '>' => some .child
  | .delim '+' => some .next
  | .delim '~' => some .later
  | _ => none

theorem combOf_iff (t : Tok) (k : Comb) : combOf t = some k ↔ ∃ x, k.char = some x ∧ t = .delim x := by
  constructor
  · intro h
    unfold combOf at h
    split at h <;> simp at h <;> subst h <;> exact ⟨_, rfl, rfl⟩
  · rintro ⟨x, h, rfl⟩
    cases k <;> simp [Comb.char] at h <;> subst h <;> rfl

theorem relative_eq (req : Req) (st : St) (ts : List Tok) : relative o req st (liftL o ts) =
    match skipRaw ts with
    | [] => .error st.nesting
    | t :: r =>
      match combOf t with
      | some k => (selector o .none st (liftL o r)).map fun x => ((if req = .implicit then .nesting else .pclass cs!"scope") :: .comb k :: x.1, x.2)
      | none => selector o req st (liftL o (t :: r)) := by
  unfold relative
  rw [skipWs_liftL]
  cases skipRaw ts with
  | nil => simp
  | cons t r =>
    cases t with
    | delim c =>
      by_cases h1 : c = '>'
      · subst h1; simp [lift, combOf]
      · by_cases h2 : c = '+'
        · subst h2; simp [lift, combOf]
        · by_cases h3 : c = '~'
          · subst h3; simp [lift, combOf]
          · have : combOf (.delim c) = none := by unfold combOf; split <;> simp_all
            simp only [this, liftL_cons, lift]
            split <;> simp_all
    | _ => simp [lift, combOf]

theorem readsS_scope (d : Dialect) (D : Drop) (v : Opts) (cx : Cx) (inh : List Comp) (x : Comp) (s : Sel) (ts : List Tok) :
    ReadsS d D v cx inh (.scope x) [] s ts ↔ ∃ k ch w r s', s = x :: .comb k :: s' ∧ k.char = some ch ∧ ts = .delim ch :: (w ++ r) ∧ AllWs w ∧
      ReadsS d D v cx inh .no [] s' r := by
  cases s with
  | nil => simp [ReadsS]
  | cons c s =>
    cases s with
    | nil => simp [ReadsS]
    | cons c' s =>
      simp only [ReadsS]
      constructor
      · rintro ⟨rfl, k, ch, w, r, rfl, h⟩
        exact ⟨k, ch, w, r, s, rfl, h⟩
      · rintro ⟨k, ch, w, r, s', e, h⟩
        simp at e
        obtain ⟨rfl, rfl, rfl⟩ := e
        exact ⟨rfl, k, ch, w, r, rfl, h⟩

/-- A selector does not begin with a combinator. -/
theorem reads_not_comb {cx : Cx} {inh : List Comp} {s : Sel} {t : Tok} {r : List Tok} (h : ReadsS code D o cx inh .no [] s (t :: r)) : combOf t = none := by
  cases s with
  | nil => rw [readsS_nil, noncomb_iff, loneNesting_iff] at h; simp [phase] at h
  | cons c s =>
    rw [readsS_cons] at h
    obtain ⟨a, b, e, h1, h2, _⟩ := h
    cases hc : c.isSimple with
    | true =>
      obtain ⟨t', a', rfl, h3, _⟩ := reads_simple_head hc h2
      simp at e
      rw [e.1]
      cases t' <;> simp_all [simpleHead, combOf]
      rcases h3 with rfl | rfl <;> rfl
    | false =>
      cases c <;> simp [Comp.isSimple] at hc
      · have := h1.2.2; simp at this
      · simp only [ReadsC] at h2
        obtain ⟨t', x, e', q3⟩ := type_head _ _
        rw [h2, e'] at e
        simp at e
        rw [e.1]
        cases t' <;> simp_all [typeHead, combOf]
        rcases q3 with rfl | rfl <;> rfl

theorem reads_notWs {cx : Cx} {inh : List Comp} (r : List Tok) (s : Sel) (hr : ReadsS code D o cx inh .no [] s r) : NotWs r := by
  intro r' e
  subst e
  cases s with
  | nil => rw [readsS_nil, noncomb_iff, loneNesting_iff] at hr; simp [phase] at hr
  | cons c s =>
    rw [readsS_cons] at hr
    obtain ⟨a, b, e, h1, h2, _⟩ := hr
    cases hc : c.isSimple with
    | true =>
      obtain ⟨t', a', rfl, h3, _⟩ := reads_simple_head hc h2
      simp at e
      rw [← e.1] at h3
      simp [simpleHead] at h3
    | false =>
      cases c <;> simp [Comp.isSimple] at hc
      · have := h1.2.2; simp at this
      · simp only [ReadsC] at h2
        obtain ⟨t', x, e', q3⟩ := type_head _ _
        rw [h2, e'] at e
        simp at e
        rw [← e.1] at q3
        simp [typeHead] at q3

theorem relative_iff (cx : Cx) (inh : List Comp) (b : Bool) (s : Sel) {ts : List Tok} (hts : ∀ t ∈ ts, OKTok o D t) :
    okv (relative o .none (stOf cx inh b) (liftL o ts)) = some s ↔ ReadsPiece code D o cx inh (some (.pclass cs!"scope")) s ts := by
  rw [relative_eq]
  obtain ⟨w, e1, e2, e3⟩ := skipRaw_spec ts
  have hsk : ∀ t ∈ skipRaw ts, OKTok o D t := fun t ht => hts t (by rw [e1]; simp [ht])
  have heq : ∀ w' r, ts = w' ++ r → AllWs w' → NotWs r → r = skipRaw ts := by
    intro w' r h1 h2 h3
    exact ((skipRaw_eq h3).2 ⟨w', h1, h2⟩).symm
  have hne : ∀ r s, ReadsS code D o cx inh .no [] s r → NotWs r := fun r s hr => reads_notWs r s hr
  generalize skipRaw ts = q at *
  cases q with
  | nil =>
    simp only [okv]
    constructor
    · intro h; simp at h
    · rintro ⟨w', r, h1, h2, h3⟩
      exfalso
      rcases h3 with h3 | ⟨c, _, h3⟩
      · have hr := heq w' r h1 h2 (hne r s h3)
        subst hr
        cases s with
        | nil => rw [readsS_nil, noncomb_iff, loneNesting_iff] at h3; simp [phase] at h3
        | cons c s =>
          rw [readsS_cons] at h3
          obtain ⟨a, b, e, g1, g2, _⟩ := h3
          simp at e
          rw [e.1] at g2
          cases hc : c.isSimple with
          | true =>
            obtain ⟨t', a', h, _⟩ := reads_simple_head hc g2
            simp at h
          | false =>
            cases c <;> simp [Comp.isSimple] at hc
            · have := g1.2.2; simp at this
            · simp [ReadsC] at g2
      · rw [readsS_scope] at h3
        obtain ⟨k, ch, w'', r', s', _, _, rfl, _⟩ := h3
        have := heq w' _ h1 h2 (notWs_cons (by simp))
        simp at this
  | cons t r =>
    simp only
    have hr : ∀ t ∈ r, OKTok o D t := fun t ht => hsk t (by simp [ht])
    cases hc : combOf t with
    | some k =>
      simp only
      have : ∀ e : Out (Sel × Bool), okv (e.map fun x => ((if Req.none = .implicit then Comp.nesting else .pclass cs!"scope") :: .comb k :: x.1, x.2)) =
          (okv e).map fun x => .pclass cs!"scope" :: .comb k :: x := by
        intro e; cases e <;> rfl
      rw [this]
      simp only [Option.map_eq_some_iff]
      obtain ⟨x, hx, rfl⟩ := (combOf_iff _ _).1 hc
      constructor
      · rintro ⟨s', h, rfl⟩
        rw [selector_iff cx inh b s' hr] at h
        obtain ⟨w1, r1, rfl, g2, g3⟩ := h
        refine ⟨w, _, e1, e2, .inr ⟨_, rfl, ?_⟩⟩
        rw [readsS_scope]
        exact ⟨k, x, w1, r1, s', rfl, hx, rfl, g2, g3⟩
      · rintro ⟨w', r', h1, h2, h3⟩
        rcases h3 with h3 | ⟨c, hc', h3⟩
        · have := heq w' r' h1 h2 (hne r' s h3)
          subst this
          have := reads_not_comb h3
          rw [hc] at this; simp at this
        · rw [readsS_scope] at h3
          obtain ⟨k', ch, w1, r1, s', rfl, g2, rfl, g4, g5⟩ := h3
          have := heq w' _ h1 h2 (notWs_cons (by simp))
          simp at this
          obtain ⟨rfl, rfl⟩ := this
          refine ⟨s', (selector_iff cx inh b s' hr).2 ⟨w1, r1, rfl, g4, g5⟩, ?_⟩
          have hk : k = k' := by
            have := (combOf_iff (.delim ch) k').2 ⟨ch, g2, rfl⟩
            rw [hc] at this
            exact Option.some.inj this
          simp at hc'
          rw [hk, hc']
    | none =>
      simp only
      rw [selector_iff cx inh b s hsk]
      constructor
      · rintro ⟨w', r', h1, h2, h3⟩
        exact ⟨w ++ w', r', by rw [e1, h1]; simp, allWs_append.2 ⟨e2, h2⟩, .inl h3⟩
      · rintro ⟨w', r', h1, h2, h3⟩
        rcases h3 with h3 | ⟨c, _, h3⟩
        · have := heq w' r' h1 h2 (hne r' s h3)
          subst this
          exact ⟨[], _, rfl, allWs_nil, h3⟩
        · rw [readsS_scope] at h3
          obtain ⟨k', ch, w1, r1, s', rfl, g2, rfl, g4, g5⟩ := h3
          have := heq w' _ h1 h2 (notWs_cons (by simp))
          simp at this
          obtain ⟨rfl, rfl⟩ := this
          rw [(combOf_iff _ k').2 ⟨ch, g2, rfl⟩] at hc
          simp at hc

theorem piece_iff (cx : Cx) (inh : List Comp) (b : Bool) (s : Sel) {ts : List Tok} (hts : ∀ t ∈ ts, OKTok o D t) :
    okv (selector o .none (stOf cx inh b) (liftL o ts)) = some s ↔ ReadsPiece code D o cx inh none s ts := by
  rw [selector_iff cx inh b s hts]
  constructor
  · rintro ⟨w, r, h1, h2, h3⟩; exact ⟨w, r, h1, h2, .inl h3⟩
  · rintro ⟨w, r, h1, h2, h3 | ⟨c, h, _⟩⟩
    · exact ⟨w, r, h1, h2, h3⟩
    · simp at h

/-- The loop over the pieces of a list. -/
theorem listLoop_iff {cx : Cx} {inh : List Comp} {f : Bool} {rel : Option Comp} {P : List LTok → Out (Sel × Bool)} (ps : List (List Tok))
    (hP : ∀ p ∈ ps, ∀ s, okv (P (liftL o p)) = some s ↔ ReadsPiece code D o cx inh rel s p)
    (hD : f = true → ∀ p ∈ ps, (D cx inh rel.isSome p ↔ okv (P (liftL o p)) = none)) :
    ∀ b l, okv (listLoop f P (ps.map (liftL o)) b) = some l ↔ ReadsP code D o cx inh f rel l ps := by
  induction ps with
  | nil =>
    intro b l
    cases l with
    | nil => simp [listLoop, okv, ReadsP]
    | cons s l => simp [listLoop, okv, ReadsP]
  | cons p ps ih =>
    intro b l
    have ih' := ih (fun q hq => hP q (by simp [hq])) (fun h q hq => hD h q (by simp [hq]))
    have hp := hP p (by simp)
    have hd := fun h => hD h p (by simp)
    have cons_iff : ∀ s l, ReadsP code D o cx inh f rel (s :: l) (p :: ps) ↔
        (ReadsPiece code D o cx inh rel s p ∧ ReadsP code D o cx inh f rel l ps) ∨
        (f = true ∧ D cx inh rel.isSome p ∧ ReadsP code D o cx inh f rel (s :: l) ps) := by
      intro s l
      simp only [ReadsP]
      constructor
      · rintro ⟨e, w, r, q, h1, h2, h3, h4, h5⟩
        cases e with
        | nil =>
          simp at h1
          obtain ⟨rfl, rfl⟩ := h1
          exact .inl ⟨⟨w, r, rfl, h3, h4⟩, h5⟩
        | cons x e =>
          simp at h1
          obtain ⟨rfl, rfl⟩ := h1
          have := h2 p (by simp)
          exact .inr ⟨this.1, this.2, e, w, r, q, rfl, fun x hx => h2 x (by simp [hx]), h3, h4, h5⟩
      · rintro (⟨⟨w, r, rfl, h1, h2⟩, h3⟩ | ⟨h0, h1, e, w, r, q, rfl, h2, h3, h4, h5⟩)
        · exact ⟨[], w, r, ps, rfl, by simp, h1, h2, h3⟩
        · exact ⟨p :: e, w, r, q, rfl, by intro x hx; simp at hx; rcases hx with rfl | hx; exact ⟨h0, h1⟩; exact h2 x hx, h3, h4, h5⟩
    have nil_iff : ReadsP code D o cx inh f rel [] (p :: ps) ↔ f = true ∧ D cx inh rel.isSome p ∧ ReadsP code D o cx inh f rel [] ps := by
      simp only [ReadsP, List.mem_cons]
      constructor
      · intro h
        exact ⟨(h p (.inl rfl)).1, (h p (.inl rfl)).2, fun q hq => h q (.inr hq)⟩
      · rintro ⟨h1, h2, h3⟩ q (rfl | hq)
        · exact ⟨h1, h2⟩
        · exact h3 q hq
    simp only [List.map_cons, listLoop]
    cases hx : P (liftL o p) with
    | ok x =>
      obtain ⟨s0, b0⟩ := x
      rw [hx] at hp hd
      simp only [okv_map]
      have hs0 : ReadsPiece code D o cx inh rel s0 p := (hp s0).1 rfl
      have hnd : f = true → ¬ D cx inh rel.isSome p := fun h h2 => by simpa [okv] using (hd h).1 h2
      cases l with
      | nil =>
        rw [nil_iff]
        constructor
        · intro h; simp at h
        · rintro ⟨h1, h2, _⟩; exact absurd h2 (hnd h1)
      | cons s l =>
        rw [cons_iff]
        constructor
        · intro h
          simp only [Option.map_eq_some_iff] at h
          obtain ⟨l', h, e⟩ := h
          simp at e
          obtain ⟨rfl, rfl⟩ := e
          exact .inl ⟨hs0, (ih' _ _).1 h⟩
        · rintro (⟨h1, h2⟩ | ⟨h1, h2, _⟩)
          · have : s0 = s := by simpa [okv] using (hp s).2 h1
            subst this
            simp [(ih' (b || b0) l).2 h2]
          · exact absurd h2 (hnd h1)
    | error b0 =>
      rw [hx] at hp hd
      have hns : ∀ s, ¬ ReadsPiece code D o cx inh rel s p := fun s h => by simpa [okv] using (hp s).2 h
      simp only
      cases f with
      | false =>
        simp only [Bool.false_eq_true, if_false, okv]
        cases l with
        | nil => rw [nil_iff]; simp
        | cons s l => rw [cons_iff]; simp [hns]
      | true =>
        have hdp : D cx inh rel.isSome p := (hd rfl).2 rfl
        simp only [if_true]
        rw [ih']
        cases l with
        | nil => rw [nil_iff]; simp [hdp]
        | cons s l => rw [cons_iff]; simp [hdp, hns]

/-- The pieces that are ignored are those that the parser rejects. -/
def DropOK (o : Opts) (D : Drop) : Prop :=
  ∀ cx inh p b, (∀ t ∈ p, OKTok o D t) →
    (D cx inh false p ↔ okv (selector o .none (stOf cx inh b) (liftL o p)) = none) ∧
    (D cx inh true p ↔ okv (relative o .none (stOf cx inh b) (liftL o p)) = none)

theorem list_iff (hD : DropOK o D) (cx : Cx) (inh : List Comp) (b f : Bool) (l : List Sel) {ts : List Tok} (hts : ∀ t ∈ ts, OKTok o D t) :
    okv (list o f .none (stOf cx inh b) (liftL o ts)) = some l ↔ ∃ ps, Pieces ps ts ∧ ReadsP code D o cx inh f none l ps := by
  unfold list
  rw [split_liftL, listLoop_iff (rel := none) (cx := cx) (inh := inh) (D := D)]
  · constructor
    · intro h; exact ⟨_, (pieces_iff _ _).2 rfl, h⟩
    · rintro ⟨ps, h1, h2⟩; rw [pieces_iff] at h1; rw [← h1]; exact h2
  · intro p hp s
    exact piece_iff cx inh b s (fun t ht => hts t (splitRaw_mem hp t ht))
  · intro _ p hp
    exact (hD cx inh p b (fun t ht => hts t (splitRaw_mem hp t ht))).1

theorem relativeList_iff (hD : DropOK o D) (cx : Cx) (inh : List Comp) (b f : Bool) (l : List Sel) {ts : List Tok} (hts : ∀ t ∈ ts, OKTok o D t) :
    okv (relativeList o f .none (stOf cx inh b) (liftL o ts)) = some l ↔
      ∃ ps, Pieces ps ts ∧ ReadsP code D o cx inh f (some (.pclass cs!"scope")) l ps := by
  unfold relativeList
  rw [split_liftL, listLoop_iff (rel := some (.pclass cs!"scope")) (cx := cx) (inh := inh) (D := D)]
  · constructor
    · intro h; exact ⟨_, (pieces_iff _ _).2 rfl, h⟩
    · rintro ⟨ps, h1, h2⟩; rw [pieces_iff] at h1; rw [← h1]; exact h2
  · intro p hp s
    exact relative_iff cx inh b s (fun t ht => hts t (splitRaw_mem hp t ht))
  · intro _ p hp
    exact (hD cx inh p b (fun t ht => hts t (splitRaw_mem hp t ht))).2

theorem nth_eq (st : St) (p : Bool) (ts : List Tok) : nth o st p (liftL o ts) =
    match skipRaw ts with
    | .anb a b :: r =>
      match skipRaw r with
      | [] => some (a, b, none)
      | .ident s :: r =>
        if p && decide (lower s = cs!"of") then (okv (list o true .none { st with noPseudo := true } (liftL o r))).map fun l => (a, b, some l)
        else none
      | _ => none
    | _ => none := by
  unfold nth
  rw [skipWs_liftL]
  cases skipRaw ts with
  | nil => simp
  | cons t r =>
    cases t with
    | anb a b =>
      simp only [liftL_cons, lift, skipWs_liftL]
      cases skipRaw r with
      | nil => simp
      | cons t r =>
        cases t with
        | ident s =>
          simp only [liftL_cons, lift]
          split
          · cases list o true .none { st with noPseudo := true } (liftL o r) <;> rfl
          · rfl
        | _ => simp [lift]
    | _ => simp [lift]

theorem entriesOK (hD : DropOK o D) {ts : List Tok} (hts : ∀ t ∈ ts, OKTok o D t) : EntriesOK o D ts where
  list cx inh b f l := list_iff hD cx inh b f l hts
  relative cx inh b l := relativeList_iff hD cx inh b true l hts
  inner cx inh b s := selector_iff cx inh b s hts
  nth0 cx inh b p x y := by
    rw [nth_eq]
    constructor
    · intro h
      obtain ⟨w, e1, e2, e3⟩ := skipRaw_spec ts
      split at h
      · next a b' r he =>
        obtain ⟨w', f1, f2, f3⟩ := skipRaw_spec r
        split at h
        · next he' =>
          simp at h
          obtain ⟨rfl, rfl⟩ := h
          rw [he] at e1
          exact ⟨w, r, e1, e2, skipRaw_eq_nil.1 he'⟩
        · split at h <;> simp at h
        · simp at h
      · simp at h
    · rintro ⟨w1, w2, rfl, h1, h2⟩
      rw [skipRaw_ws h1, skipRaw_of_notWs (notWs_cons (by simp))]
      simp only [skipRaw_allWs h2]
  nth1 cx inh b p x y l := by
    rw [nth_eq]
    constructor
    · intro h
      obtain ⟨w, e1, e2, e3⟩ := skipRaw_spec ts
      split at h
      · next a b' r he =>
        obtain ⟨w', f1, f2, f3⟩ := skipRaw_spec r
        split at h
        · simp at h
        · next s r' he' =>
          split at h
          · next hc =>
            simp at hc
            simp only [Option.map_eq_some_iff] at h
            obtain ⟨l', h, g⟩ := h
            simp at g
            obtain ⟨rfl, rfl, rfl⟩ := g
            rw [he'] at f1
            rw [he, f1] at e1
            rw [stOf_inner, list_iff hD _ _ _ _ _ (fun t ht => hts t (by rw [e1]; simp [ht]))] at h
            obtain ⟨ps, g1, g2⟩ := h
            exact ⟨w, w', s, r', ps, e1, hc.1, e2, f2, hc.2, g1, g2⟩
          · simp at h
        · simp at h
      · simp at h
    · rintro ⟨w1, w2, f, as, ps, rfl, rfl, h1, h2, h3, h4, h5⟩
      rw [skipRaw_ws h1, skipRaw_of_notWs (notWs_cons (by simp))]
      simp only [skipRaw_ws h2]
      rw [skipRaw_of_notWs (notWs_cons (by simp))]
      simp only [h3]
      rw [stOf_inner]
      have := (list_iff hD (cx.inner code) inh b true l (ts := as) (fun t ht => hts t (by simp [ht]))).2 ⟨ps, h4, h5⟩
      rw [this]
      rfl

mutual
theorem tokOK (hD : DropOK o D) : ∀ t, OKTok o D t
  | .func _ args => entriesOK hD (toksOK hD args)
  | .ident _ | .idHash _ | .str _ | .delim _ | .op _ | .colon | .comma | .ws | .anb _ _ | .bracket _ | .other _ => trivial
theorem toksOK (hD : DropOK o D) : ∀ ts : List Tok, ∀ t ∈ ts, OKTok o D t
  | [], _, h => by simp at h
  | t :: ts, x, h => by
    have h1 := tokOK hD t
    have h2 := toksOK hD ts
    rcases List.mem_cons.1 h with e | h
    · rw [e]; exact h1
    · exact h2 x h
end

end Verif.SelParse
