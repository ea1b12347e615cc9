import Verif.SelParse.Complex
/-!
# The parser against the grammar: all complex selectors are parsed
-/
namespace Verif.SelParse

variable {D : Drop} {o : Opts} {cx : Cx} {inh : List Comp}

/-- A simple selector that is not a type selector begins with this token. -/
def simpleHead : Tok → Bool
  | .delim c => c = '&' || c = '.'
  | .idHash _ => true
  | .bracket _ => true
  | .colon => true
  | _ => false
/-- A type selector begins with this token. -/
def typeHead : Tok → Bool
  | .delim c => c = '*' || c = '|'
  | .ident _ => true
  | _ => false

theorem reads_simple_head {cx : Cx} {before : List Comp} {c : Comp} (hs : c.isSimple = true) {a : List Tok} (h : ReadsC code D o cx before c a) :
    ∃ t a', a = t :: a' ∧ simpleHead t = true ∧ (c ≠ .nesting → t ≠ .delim '&') := by
  cases c with
  | comb k => simp [Comp.isSimple] at hs
  | type x y => simp [Comp.isSimple] at hs
  | nesting => simp only [ReadsC] at h; exact ⟨_, _, h, rfl, fun h => absurd rfl h⟩
  | id s => simp only [ReadsC] at h; exact ⟨_, _, h, rfl, by simp⟩
  | cls s => simp only [ReadsC] at h; exact ⟨_, _, h, rfl, by simp⟩
  | attr x => simp only [ReadsC] at h; obtain ⟨_, h, _⟩ := h; exact ⟨_, _, h, rfl, by simp⟩
  | pclass n => simp only [ReadsC] at h; obtain ⟨_, h, _⟩ := h; exact ⟨_, _, h, rfl, by simp⟩
  | pclassFn n x => simp only [ReadsC] at h; obtain ⟨_, h, _⟩ := h; exact ⟨_, _, h, rfl, by simp⟩
  | logical f l => simp only [ReadsC] at h; obtain ⟨_, _, _, h, _⟩ := h; exact ⟨_, _, h, rfl, by simp⟩
  | has l => simp only [ReadsC] at h; obtain ⟨_, _, _, h, _⟩ := h; exact ⟨_, _, h, rfl, by simp⟩
  | nth t x y => simp only [ReadsC] at h; obtain ⟨_, _, _, h, _⟩ := h; exact ⟨_, _, h, rfl, by simp⟩
  | nthOf t x y l => simp only [ReadsC] at h; obtain ⟨_, _, _, _, _, _, h, _⟩ := h; exact ⟨_, _, h, rfl, by simp⟩
  | hostFn s => simp only [ReadsC] at h; obtain ⟨_, _, _, h, _⟩ := h; exact ⟨_, _, h, rfl, by simp⟩
  | pelem n =>
    simp only [ReadsC] at h
    obtain ⟨_, _, h, h1, _⟩ := h
    rcases h1 with rfl | ⟨rfl, _⟩
    · exact ⟨_, _, h, rfl, by simp⟩
    · exact ⟨_, _, h, rfl, by simp⟩
  | pelemFn n x =>
    simp only [ReadsC] at h
    obtain ⟨_, _, h, h1, _⟩ := h
    rcases h1 with rfl | ⟨rfl, _⟩
    · exact ⟨_, _, h, rfl, by simp⟩
    · exact ⟨_, _, h, rfl, by simp⟩
  | cue x s => simp only [ReadsC] at h; obtain ⟨_, _, _, h, _⟩ := h; exact ⟨_, _, h, rfl, by simp⟩
  | part l => simp only [ReadsC] at h; obtain ⟨_, _, h, _⟩ := h; exact ⟨_, _, h, rfl, by simp⟩
  | slotted s => simp only [ReadsC] at h; obtain ⟨_, _, _, h, _⟩ := h; exact ⟨_, _, h, rfl, by simp⟩

theorem type_head (ns : Ns) (n : Option Str) : ∃ t a', ns.toks ++ [nameTok n] = t :: a' ∧ typeHead t = true := by
  cases ns with
  | implicit => cases n <;> exact ⟨_, _, rfl, rfl⟩
  | empty => exact ⟨_, _, rfl, rfl⟩
  | any => exact ⟨_, _, rfl, rfl⟩
  | named s => exact ⟨_, _, rfl, rfl⟩

theorem not_simpleHead_stop {st : St} {t : Tok} {ts : List Tok} (h : simpleHead t = false) : simple o st (liftL o (t :: ts)) = .stop := by
  cases t with
  | delim c =>
    simp [simpleHead] at h
    simp only [liftL_cons, lift]
    unfold simple
    split <;> simp_all
  | idHash s => simp [simpleHead] at h
  | bracket s => simp [simpleHead] at h
  | colon => simp [simpleHead] at h
  | _ => simp [lift, simple]

theorem not_typeHead_stop {t : Tok} {ts : List Tok} (h : typeHead t = false) : qname (liftL o (t :: ts)) = .stop := by
  cases t with
  | delim c =>
    simp [typeHead] at h
    simp only [liftL_cons, lift]
    unfold qname
    split <;> simp_all
  | ident s => simp [typeHead] at h
  | _ => simp [lift, qname]

theorem comb_head {k : Comb} {a : List Tok} (h : k.Written a) :
    ∃ t a', a = t :: a' ∧ simpleHead t = false ∧ typeHead t = false := by
  unfold Comb.Written at h
  have ws : ∀ x, x ≠ [] → AllWs x → ∃ t a', x = t :: a' ∧ simpleHead t = false ∧ typeHead t = false := by
    intro x hx hw
    cases x with
    | nil => exact absurd rfl hx
    | cons t x =>
      rw [allWs_cons] at hw
      exact ⟨t, x, rfl, by rw [hw.1]; exact ⟨rfl, rfl⟩⟩
  split at h
  · exact ws a h.1 h.2
  · next c hc =>
    obtain ⟨x, y, rfl, h1, h2⟩ := h
    cases x with
    | nil =>
      refine ⟨_, _, rfl, ?_⟩
      cases k <;> simp [Comb.char] at hc <;> subst hc <;> decide
    | cons t x =>
      obtain ⟨t', a', e, h3⟩ := ws (t :: x) (by simp) h1
      simp at e
      exact ⟨t, _, rfl, by rw [e.1]; exact h3⟩

theorem nextComb_ws {w : Bool} {a ts : List Tok} (h : AllWs a) (hne : a ≠ []) :
    nextComb w (liftL o (a ++ ts)) = nextComb true (liftL o ts) := by
  induction a generalizing w with
  | nil => exact absurd rfl hne
  | cons t a ih =>
    rw [allWs_cons] at h
    rw [h.1]
    simp only [List.cons_append, liftL_cons, lift, nextComb]
    by_cases ha : a = []
    · rw [ha]; rfl
    · exact ih h.2 ha

theorem nextComb_any {a ts : List Tok} (h : AllWs a) (w : Bool) : ∃ w', nextComb w (liftL o (a ++ ts)) = nextComb w' (liftL o ts) := by
  by_cases ha : a = []
  · exact ⟨w, by rw [ha]; rfl⟩
  · exact ⟨true, nextComb_ws h ha⟩

theorem nextComb_head {t : Tok} {ts : List Tok} (h : simpleHead t = true ∨ typeHead t = true) :
    nextComb true (liftL o (t :: ts)) = .comb .descendant (liftL o (t :: ts)) := by
  cases t with
  | delim c =>
    simp [simpleHead, typeHead] at h
    simp only [liftL_cons, lift]
    unfold nextComb
    split <;> simp_all
  | ws => simp [simpleHead, typeHead] at h
  | _ => simp [lift, nextComb]

/-- The rest of a selector after the simple selectors. -/
def cont (o : Opts) (n : Nat) : Out (List Comp × St × List LTok) → Out (Sel × St)
  | .error b => .error b
  | .ok (cs, st, r) => (fin o n st r).map fun x => (cs ++ x.1, x.2)

theorem cont_map (n : Nat) (c : Comp) (f : Out (List Comp × St × List LTok)) :
    cont o n (f.map fun x => (c :: x.1, x.2)) = (cont o n f).map fun x => (c :: x.1, x.2) := by
  cases f with
  | error e => rfl
  | ok x =>
    obtain ⟨cs, st, r⟩ := x
    simp only [cont, Except.map]
    cases fin o n st r <;> rfl

theorem okMap {α β : Type} {e : Out α} {f : α → β} {a : α} (h : e = .ok a) : e.map f = .ok (f a) := by
  rw [h]; rfl

/-- White space ends a selector. -/
theorem fin_ws (n : Nat) (st : St) {ts : List Tok} (h : AllWs ts) : fin o n st (liftL o ts) = .ok ([], st) := by
  have hd : ∀ w, nextComb w (liftL o ts) = .done := by
    induction ts with
    | nil => intro w; simp [nextComb]
    | cons t ts ih =>
      rw [allWs_cons] at h
      intro w
      rw [h.1]
      simp only [liftL_cons, lift, nextComb]
      exact ih h.2 true
  unfold fin
  rw [hd false, skipWs_liftL, skipRaw_allWs h]
  simp

theorem ws_head {ts : List Tok} (h : AllWs ts) : qname (liftL o ts) = .stop ∧ ∀ st, simple o st (liftL o ts) = .stop := by
  cases ts with
  | nil => simp [qname, simple]
  | cons t ts =>
    rw [allWs_cons] at h
    rw [h.1]
    exact ⟨not_typeHead_stop rfl, fun st => not_simpleHead_stop rfl⟩

/-- What is read in the middle of a compound selector does not begin with a type selector. -/
theorem mid_head {pre s : List Comp} {ts : List Tok} (hp : phase pre = .mid) (h : ReadsS code D o cx inh .no pre s ts) :
    ts = [] ∨ ∃ t ts', ts = t :: ts' ∧ typeHead t = false := by
  cases s with
  | nil =>
    rw [readsS_nil, loneNesting_iff, hp] at h
    simp at h
    cases ts with
    | nil => exact .inl rfl
    | cons t ts =>
      rw [allWs_cons] at h
      exact .inr ⟨t, ts, rfl, by rw [h.1.1]; rfl⟩
  | cons c s =>
    rw [readsS_cons] at h
    obtain ⟨a, b, rfl, h1, h2, _⟩ := h
    right
    cases hc : c.isSimple with
    | true =>
      obtain ⟨t, a', rfl, h3, _⟩ := reads_simple_head hc h2
      refine ⟨t, a' ++ b, rfl, ?_⟩
      cases t <;> simp_all [simpleHead, typeHead]
      rcases h3 with rfl | rfl <;> decide
    | false =>
      cases c <;> simp [Comp.isSimple] at hc
      · simp only [ReadsC] at h2
        obtain ⟨t, a', rfl, _, h3⟩ := comb_head h2
        exact ⟨t, a' ++ b, rfl, h3⟩
      · have := (typePlace_iff _).1 h1.2
        exact absurd hp this

theorem qname_type (ns : Ns) (n : Option Str) {r : List Tok} (hr : r = [] ∨ ∃ t r', r = t :: r' ∧ typeHead t = false) :
    qname (liftL o (ns.toks ++ [nameTok n] ++ r)) = .ok (.type ns n) (liftL o r) := by
  have hb : ∀ r', r ≠ .delim '|' :: r' := by
    rintro r' rfl
    rcases hr with h | ⟨t, r'', h, h2⟩
    · simp at h
    · simp at h; rw [← h.1] at h2; simp [typeHead] at h2
  cases ns with
  | implicit =>
    cases n with
    | none => exact qname_star hb
    | some s => exact qname_ident hb
  | empty => cases n <;> simp [Ns.toks, nameTok, lift, qname, localPart]
  | any => cases n <;> simp [Ns.toks, nameTok, lift, qname, localPart]
  | named s => cases n <;> simp [Ns.toks, nameTok, lift, qname, localPart]

theorem complete : ∀ (s pre : List Comp) (ts : List Tok) (b : Bool), (∀ t ∈ ts, OKTok o D t) → ReadsS code D o cx inh .no pre s ts →
    (phase pre = .start → ∀ n w, AllWs w → (w ++ ts).length < n →
      ∃ st, complex o n (stOf cx (pre ++ inh) b) (liftL o (w ++ ts)) = .ok (s, st)) ∧
    (phase pre = .nest → ∀ n, ts.length ≤ n → ∃ st, cont o n (afterNesting o (stOf cx (pre ++ inh) b) (liftL o ts)) = .ok (s, st)) ∧
    (phase pre = .mid → ∀ n k, ts.length ≤ n → ts.length < k →
      ∃ st, cont o n (simples o k (stOf cx (pre ++ inh) b) (liftL o ts)) = .ok (s, st)) := by
  intro s
  induction s with
  | nil =>
    intro pre ts b hts h
    rw [readsS_nil, noncomb_iff, loneNesting_iff] at h
    refine ⟨?_, ?_, ?_⟩
    · intro hp; rw [hp] at h; simp at h
    · intro hp n hn
      rcases h with ⟨h, _⟩ | ⟨_, _, h⟩
      · refine ⟨stOf cx (pre ++ inh) b, ?_⟩
        unfold afterNesting
        rw [(ws_head h).1]
        simp only [simples, (ws_head h).2, cont, fin_ws n _ h, Except.map, List.append_nil]
      · refine ⟨stOf cx (pre ++ inh) b, ?_⟩
        have : qname (liftL o ts) = .eof := by
          rcases h with rfl | rfl | ⟨s, rfl⟩ <;> simp [lift, qname, localPart]
        unfold afterNesting
        rw [this]
        have := fin_ws (o := o) n (stOf cx (pre ++ inh) b) allWs_nil
        simp only [liftL_nil] at this
        simp only [cont, this, Except.map, List.append_nil]
    · intro hp n k hn hk
      rw [hp] at h
      simp at h
      refine ⟨stOf cx (pre ++ inh) b, ?_⟩
      obtain ⟨k, rfl⟩ := Nat.exists_eq_succ_of_ne_zero (Nat.ne_of_gt (Nat.lt_of_le_of_lt (Nat.zero_le _) hk))
      simp only [simples, (ws_head h).2, cont, fin_ws n _ h, Except.map, List.append_nil]
  | cons c s ih =>
    intro pre ts b hts h
    rw [readsS_cons] at h
    obtain ⟨a, r, rfl, h1, h2, h3⟩ := h
    have hr : ∀ t ∈ r, OKTok o D t := fun t ht => hts t (by simp [ht])
    have ha : ∀ t ∈ a, OKTok o D t := fun t ht => hts t (by simp [ht])
    -- a combinator
    have hcomb : ∀ k, c = .comb k → ∀ n, (a ++ r).length ≤ n → ∃ st, fin o n (stOf cx (pre ++ inh) b) (liftL o (a ++ r)) = .ok (c :: s, st) := by
      rintro k rfl n hn
      obtain ⟨g1, g2, g3⟩ := h1
      simp only [ReadsC] at h2
      have hst : stOf cx ((.comb k :: pre) ++ inh) b = stOf cx (pre ++ inh) b := stOf_plain _ _ _ rfl
      have key : ∀ w r', AllWs w → r' = w ++ r → r'.length < n → nextComb false (liftL o (a ++ r)) = .comb k (liftL o r') →
          ∃ st, fin o n (stOf cx (pre ++ inh) b) (liftL o (a ++ r)) = .ok (.comb k :: s, st) := by
        rintro w _ hw rfl hlt hnc
        obtain ⟨st, hc⟩ := (ih (.comb k :: pre) r b hr h3).1 rfl n w hw hlt
        rw [hst] at hc
        refine ⟨st, ?_⟩
        unfold fin
        rw [(noPseudo_iff cx (pre ++ inh) b).1 g2, hnc]
        have : (stOf cx (pre ++ inh) b).noComb = false := by simp [stOf, g1]
        simp only [this, hc]
        rfl
      unfold Comb.Written at h2
      cases hk : k.char with
      | none =>
        rw [hk] at h2
        have hkd : k = .descendant := by cases k <;> simp [Comb.char] at hk; rfl
        subst hkd
        refine key [] r allWs_nil rfl ?_ ?_
        · have : 0 < a.length := List.length_pos_iff.2 h2.1
          simp at hn; omega
        · rw [nextComb_ws h2.2 h2.1]
          -- the next component
          cases s with
          | nil => rw [readsS_nil, noncomb_iff, loneNesting_iff, phase_comb] at h3; simp at h3
          | cons c' s' =>
            rw [readsS_cons] at h3
            obtain ⟨a', r', rfl, q1, q2, _⟩ := h3
            cases hc : c'.isSimple with
            | true =>
              obtain ⟨t, x, rfl, q3, _⟩ := reads_simple_head hc q2
              exact nextComb_head (.inl q3)
            | false =>
              cases c' <;> simp [Comp.isSimple] at hc
              · have := (noncomb_iff _).1 q1.2.2
                exact absurd phase_comb this
              · simp only [ReadsC] at q2
                obtain ⟨t, x, e, q3⟩ := type_head _ _
                rw [q2, e]
                exact nextComb_head (.inr q3)
      | some ch =>
        rw [hk] at h2
        obtain ⟨x, y, rfl, hx, hy⟩ := h2
        refine key y (y ++ r) hy rfl ?_ ?_
        · simp at hn ⊢; omega
        · obtain ⟨w', e⟩ := nextComb_any (o := o) (ts := .delim ch :: (y ++ r)) hx false
          have : x ++ Tok.delim ch :: y ++ r = x ++ Tok.delim ch :: (y ++ r) := by simp
          rw [this, e]
          cases k <;> simp [Comb.char] at hk <;> subst hk <;> simp [lift, nextComb]
    have hstop : ∀ k, c = .comb k → qname (liftL o (a ++ r)) = .stop ∧ ∀ st, simple o st (liftL o (a ++ r)) = .stop := by
      rintro k rfl
      simp only [ReadsC] at h2
      obtain ⟨t, a', rfl, q1, q2⟩ := comb_head h2
      exact ⟨not_typeHead_stop q2, fun st => not_simpleHead_stop q1⟩
    -- a simple selector
    have hsimp : c.isSimple = true → phase (c :: pre) = .mid → ∀ n k, (a ++ r).length ≤ n → (a ++ r).length < k →
        ∃ st, cont o n (simples o k (stOf cx (pre ++ inh) b) (liftL o (a ++ r))) = .ok (c :: s, st) := by
      intro hc hph n k hn hk
      obtain ⟨b', e⟩ := simple_complete (r := r) ha b hc h1 h2
      obtain ⟨t, a', rfl, _⟩ := reads_simple_head hc h2
      obtain ⟨k, rfl⟩ := Nat.exists_eq_succ_of_ne_zero (Nat.ne_of_gt (Nat.lt_of_le_of_lt (Nat.zero_le _) hk))
      obtain ⟨st, g⟩ := (ih (c :: pre) r b' hr h3).2.2 hph n k (by simp at hn; omega) (by simp at hk; omega)
      refine ⟨st, ?_⟩
      have : simples o (k + 1) (stOf cx (pre ++ inh) b) (liftL o (t :: a' ++ r)) =
          (simples o k (stOf cx ((c :: pre) ++ inh) b') (liftL o r)).map fun x => (c :: x.1, x.2) := by
        rw [simples, e]; rfl
      rw [this, cont_map]
      exact okMap g
    have hsq : c.isSimple = true → qname (liftL o (a ++ r)) = .stop := by
      intro hc
      obtain ⟨t, a', rfl, h4, _⟩ := reads_simple_head hc h2
      refine not_typeHead_stop (ts := a' ++ r) ?_
      cases t <;> simp_all [simpleHead, typeHead]
      rcases h4 with rfl | rfl <;> decide
    -- a type selector
    have htype : ∀ ns nm, c = .type ns nm → ∀ n, (a ++ r).length ≤ n →
        ∃ st, cont o n (afterNesting o (stOf cx (pre ++ inh) b) (liftL o (a ++ r))) = .ok (c :: s, st) := by
      rintro ns nm rfl n hn
      simp only [ReadsC] at h2
      subst h2
      have hst : stOf cx ((.type ns nm :: pre) ++ inh) b = stOf cx (pre ++ inh) b := stOf_plain _ _ _ rfl
      obtain ⟨st, g⟩ := (ih (.type ns nm :: pre) r b hr h3).2.2 rfl n (r.length + 1) (by simp at hn; omega) (by omega)
      refine ⟨st, ?_⟩
      unfold afterNesting
      rw [qname_type ns nm (mid_head (phase_type) h3)]
      simp only
      rw [(noPseudo_iff cx (pre ++ inh) b).1 h1.1, if_neg (by simp), cont_map, liftL_length]
      rw [hst] at g
      exact okMap g
    have hafter : phase pre ≠ .mid → c.isSimple = true → phase (c :: pre) = .mid → ∀ n, (a ++ r).length ≤ n →
        ∃ st, cont o n (afterNesting o (stOf cx (pre ++ inh) b) (liftL o (a ++ r))) = .ok (c :: s, st) := by
      intro hp hc hph n hn
      unfold afterNesting
      rw [hsq hc]
      exact hsimp hc hph n _ hn (by simp)
    refine ⟨?_, ?_, ?_⟩
    · intro hp n w hw hn
      obtain ⟨n, rfl⟩ := Nat.exists_eq_succ_of_ne_zero (Nat.ne_of_gt (Nat.lt_of_le_of_lt (Nat.zero_le _) hn))
      have hnc : c.isComb = false := by
        cases hc : c.isComb with
        | false => rfl
        | true =>
          cases c <;> simp [Comp.isComb] at hc
          have := (noncomb_iff _).1 h1.2.2
          exact absurd hp this
      have hlen : (a ++ r).length ≤ n := by simp at hn ⊢; omega
      by_cases hcn : c = .nesting
      · subst hcn
        simp only [ReadsC] at h2
        subst h2
        have hsk : skipWs (liftL o (w ++ ([.delim '&'] ++ r))) = .tok (.delim '&') :: liftL o r := by
          rw [skipWs_liftL, skipRaw_ws hw]; rfl
        have hst : { stOf cx (pre ++ inh) b with nesting := true } = stOf cx ((.nesting :: pre) ++ inh) true := by
          rw [List.cons_append, stOf_plain _ _ _ rfl]; rfl
        obtain ⟨st, g⟩ := (ih (.nesting :: pre) r true hr h3).2.1 (phase_nest hp) n (by simp at hlen; omega)
        have hcomp : compound o (stOf cx (pre ++ inh) b) (liftL o (w ++ ([.delim '&'] ++ r))) =
            (afterNesting o (stOf cx ((.nesting :: pre) ++ inh) true) (liftL o r)).map fun x => (.nesting :: x.1, x.2) := by
          unfold compound
          rw [hsk]
          simp only [hst]
        refine ⟨st, ?_⟩
        rw [complex_eq, hcomp]
        cases hx : afterNesting o (stOf cx ((.nesting :: pre) ++ inh) true) (liftL o r) with
        | error e => rw [hx] at g; simp [cont] at g
        | ok x =>
          obtain ⟨cs, st1, r1⟩ := x
          rw [hx] at g
          simp only [cont] at g
          simp only [Except.map]
          cases hf : fin o n st1 r1 with
          | error e => rw [hf] at g; simp [Except.map] at g
          | ok y =>
            rw [hf] at g
            simp [Except.map] at g
            simp [g.1, g.2]
      · have hhead : ∃ t a', a = t :: a' ∧ t ≠ .ws ∧ t ≠ .delim '&' := by
          cases hc : c.isSimple with
          | true =>
            obtain ⟨t, a', e, h4, h5⟩ := reads_simple_head hc h2
            exact ⟨t, a', e, by rintro rfl; simp [simpleHead] at h4, h5 hcn⟩
          | false =>
            cases c <;> simp [Comp.isSimple] at hc
            · simp [Comp.isComb] at hnc
            · simp only [ReadsC] at h2
              rename_i ns nm
              obtain ⟨t, x, e, q3⟩ := type_head ns nm
              exact ⟨t, x, by rw [h2, e], by rintro rfl; simp [typeHead] at q3, by rintro rfl; simp [typeHead] at q3⟩
        obtain ⟨t, a', ea, ht1, ht2⟩ := hhead
        have hsk : skipWs (liftL o (w ++ (a ++ r))) = liftL o (a ++ r) := by
          rw [skipWs_liftL, skipRaw_ws hw, ea, List.cons_append, skipRaw_of_notWs (notWs_cons ht1)]
        have hcomp : compound o (stOf cx (pre ++ inh) b) (liftL o (w ++ (a ++ r))) = afterNesting o (stOf cx (pre ++ inh) b) (liftL o (a ++ r)) := by
          unfold compound
          rw [hsk]
          split
          · next r' heq =>
            exfalso
            rw [ea] at heq
            simp at heq
            apply ht2
            cases t <;> simp [lift] at heq
            rw [heq.1]
          · rfl
        have g : ∃ st, cont o n (afterNesting o (stOf cx (pre ++ inh) b) (liftL o (a ++ r))) = .ok (c :: s, st) := by
          cases hc : c.isSimple with
          | true => exact hafter (by rw [hp]; simp) hc (phase_simple' hcn hc) n hlen
          | false =>
            cases c <;> simp [Comp.isSimple] at hc
            · simp [Comp.isComb] at hnc
            · exact htype _ _ rfl n hlen
        obtain ⟨st, g⟩ := g
        refine ⟨st, ?_⟩
        rw [complex_eq, hcomp]
        cases hx : afterNesting o (stOf cx (pre ++ inh) b) (liftL o (a ++ r)) with
        | error e => rw [hx] at g; simp [cont] at g
        | ok x =>
          obtain ⟨cs, st1, r1⟩ := x
          rw [hx] at g
          cases cs with
          | cons c' cs => exact g
          | nil =>
            exfalso
            -- nothing was read, but there is a first component
            unfold afterNesting at hx
            cases hc : c.isSimple with
            | true =>
              rw [hsq hc] at hx
              obtain ⟨b', e⟩ := simple_complete (r := r) ha b hc h1 h2
              simp only [simples, e] at hx
              cases hy : simples o (liftL o (a ++ r)).length (stOf cx (c :: (pre ++ inh)) b') (liftL o r) <;> rw [hy] at hx <;> simp [Except.map] at hx
            | false =>
              cases c <;> simp [Comp.isSimple] at hc
              · simp [Comp.isComb] at hnc
              · simp only [ReadsC] at h2
                subst h2
                rw [qname_type _ _ (mid_head (phase_type) h3)] at hx
                simp only at hx
                split at hx
                · simp at hx
                · rename_i ns nm _
                  cases hy : simples o ((liftL o r).length + 1) (stOf cx (pre ++ inh) b) (liftL o r) <;> rw [hy] at hx <;> simp [Except.map] at hx
    · intro hp n hn
      cases hc : c.isSimple with
      | true => exact hafter (by rw [hp]; simp) hc (phase_simple (by rw [hp]; simp) hc) n hn
      | false =>
        cases c <;> simp [Comp.isSimple] at hc
        · obtain ⟨st, g⟩ := hcomb _ rfl n hn
          refine ⟨st, ?_⟩
          unfold afterNesting
          rw [(hstop _ rfl).1]
          simp only [simples, (hstop _ rfl).2, cont, g]
          rfl
        · exact htype _ _ rfl n hn
    · intro hp n k hn hk
      cases hc : c.isSimple with
      | true => exact hsimp hc (phase_simple (by rw [hp]; simp) hc) n k hn hk
      | false =>
        cases c <;> simp [Comp.isSimple] at hc
        · obtain ⟨st, g⟩ := hcomb _ rfl n hn
          refine ⟨st, ?_⟩
          obtain ⟨k, rfl⟩ := Nat.exists_eq_succ_of_ne_zero (Nat.ne_of_gt (Nat.lt_of_le_of_lt (Nat.zero_le _) hk))
          simp only [simples, (hstop _ rfl).2, cont, g]
          rfl
        · have := (typePlace_iff _).1 h1.2
          exact absurd hp this

end Verif.SelParse
