import Verif.SelParse.Simple2
/-!
# The parser against the grammar: compound and complex selectors
-/
namespace Verif.SelParse

theorem readsS_nil (d : Dialect) (D : Drop) (v : Opts) (cx : Cx) (inh pre : List Comp) (ts : List Tok) :
    ReadsS d D v cx inh .no pre [] ts ↔ (AllWs ts ∧ ∃ c p, pre = c :: p ∧ c.isComb = false) ∨ (d.cutName = true ∧ LoneNesting pre ∧ CutName ts) := by
  simp only [ReadsS]

theorem readsS_cons (d : Dialect) (D : Drop) (v : Opts) (cx : Cx) (inh pre : List Comp) (c : Comp) (cs : List Comp) (ts : List Tok) :
    ReadsS d D v cx inh .no pre (c :: cs) ts ↔ ∃ a b, ts = a ++ b ∧ Allowed d cx (pre ++ inh) pre c ∧ ReadsC d D v cx (pre ++ inh) c a ∧
      ReadsS d D v cx inh .no (c :: pre) cs b := by
  simp only [ReadsS]

/-- Where in a compound selector the next component is. -/
inductive Ph
  | start | nest | mid
deriving DecidableEq

/-- Where in a compound selector the next component is: at the start, after `&` at the start, or elsewhere. -/
def phase : List Comp → Ph
  | [] => .start
  | .comb _ :: _ => .start
  | [.nesting] => .nest
  | .nesting :: .comb _ :: _ => .nest
  | _ => .mid

theorem typePlace_iff (l : List Comp) : TypePlace l ↔ phase l ≠ .mid := by
  unfold TypePlace phase
  split <;> simp_all
theorem loneNesting_iff (l : List Comp) : LoneNesting l ↔ phase l = .nest := by
  unfold LoneNesting phase
  constructor
  · intro h
    split at h
    · simp
    · simp
    · exact absurd h (by simp)
  · intro h
    split at h <;> simp_all
theorem noncomb_iff (l : List Comp) : (∃ c p, l = c :: p ∧ c.isComb = false) ↔ phase l ≠ .start := by
  cases l with
  | nil => simp [phase]
  | cons c p =>
    cases c <;> simp [phase, Comp.isComb]
    cases p with
    | nil => simp
    | cons c p => cases c <;> simp

theorem phase_nest {pre : List Comp} (h : phase pre = .start) : phase (.nesting :: pre) = .nest := by
  unfold phase at h
  split at h <;> first | rfl | (simp at h)
theorem phase_type {pre : List Comp} {ns : Ns} {n : Option Str} : phase (.type ns n :: pre) = .mid := rfl
theorem phase_comb {pre : List Comp} {k : Comb} : phase (.comb k :: pre) = .start := rfl
theorem phase_simple {pre : List Comp} {c : Comp} (h : phase pre ≠ .start) (hc : c.isSimple = true) : phase (c :: pre) = .mid := by
  cases c <;> simp [Comp.isSimple] at hc <;> try rfl
  cases pre with
  | nil => simp [phase] at h
  | cons c p => cases c <;> first | rfl | (simp [phase] at h)
theorem phase_simple' {pre : List Comp} {c : Comp} (hn : c ≠ .nesting) (hc : c.isSimple = true) : phase (c :: pre) = .mid := by
  cases c <;> simp [Comp.isSimple] at hc hn <;> rfl
theorem phase_not_start {pre : List Comp} {c : Comp} (hc : c.isComb = false) : phase (c :: pre) ≠ .start :=
  (noncomb_iff _).1 ⟨c, pre, rfl, hc⟩

theorem isSimple_noncomb {c : Comp} (h : c.isSimple = true) : c.isComb = false := by
  cases c <;> simp_all [Comp.isSimple, Comp.isComb]

variable {D : Drop} {o : Opts} {cx : Cx} {inh : List Comp}

/-! ### Soundness -/

theorem simples_sound (n : Nat) : ∀ {pre ts b cs st r'}, (∀ t ∈ ts, OKTok o D t) → simples o n (stOf cx (pre ++ inh) b) (liftL o ts) = .ok (cs, st, r') →
    ∃ r b', r' = liftL o r ∧ st = stOf cx (cs.reverse ++ pre ++ inh) b' ∧ (∀ c ∈ cs, c.isSimple = true) ∧ (∀ t ∈ r, t ∈ ts) ∧
      ∀ s, ReadsS code D o cx inh .no (cs.reverse ++ pre) s r → ReadsS code D o cx inh .no pre (cs ++ s) ts := by
  induction n with
  | zero => intro pre ts b cs st r' _ h; simp [simples] at h
  | succ n ih =>
    intro pre ts b cs st r' hts h
    rw [simples] at h
    split at h
    · simp at h
    · simp at h
      obtain ⟨rfl, rfl, rfl⟩ := h
      exact ⟨ts, b, rfl, by simp, by simp, fun _ h => h, by simp⟩
    · next c st1 r1 hc =>
      obtain ⟨a, r, b1, rfl, rfl, _, rfl, h1, h2, h3⟩ := simple_sound hts pre hc
      rw [← List.cons_append] at h
      cases hx : simples o n (stOf cx ((c :: pre) ++ inh) b1) (liftL o r) with
      | error e => rw [hx] at h; simp [Except.map] at h
      | ok x =>
        obtain ⟨cs', st', r''⟩ := x
        rw [hx] at h
        simp [Except.map] at h
        obtain ⟨rfl, rfl, rfl⟩ := h
        obtain ⟨r2, b2, g1, g2, g3, g4, g5⟩ := ih (fun t ht => hts t (by simp [ht])) hx
        refine ⟨r2, b2, g1, by simpa using g2, ?_, fun t ht => by simp [g4 t ht], ?_⟩
        · intro x hx'
          simp at hx'
          rcases hx' with rfl | hx'
          · exact h1
          · exact g3 x hx'
        · intro s hs
          rw [List.cons_append, readsS_cons]
          exact ⟨a, r, rfl, h2, h3, g5 s (by simpa using hs)⟩

theorem localPart_sound {ns : Ns} {ts : List Tok} : (∀ c r', localPart ns (liftL o ts) = .ok c r' → ∃ n r, c = .type ns n ∧ r' = liftL o r ∧ ts = nameTok n :: r) ∧
    (localPart ns (liftL o ts) = .eof → ts = []) ∧ localPart ns (liftL o ts) ≠ .stop := by
  cases ts with
  | nil => simp [localPart]
  | cons t ts =>
    cases t with
    | ident s => simp [localPart, lift]; rfl
    | delim ch =>
      by_cases h : ch = '*'
      · subst h; simp [localPart, lift]; rfl
      · simp only [liftL_cons, lift]
        unfold localPart
        split <;> simp_all
    | _ => simp [localPart, lift]

theorem nobar {α : Type} (A B : List LTok → α) {ts : List Tok} (h : ∀ r, ts ≠ .delim '|' :: r) :
    (match liftL o ts with
    | .tok (.delim '|') :: r => A r
    | r => B r) = B (liftL o ts) := by
  cases ts with
  | nil => simp
  | cons t ts =>
    cases t with
    | delim c =>
      by_cases hc : c = '|'
      · subst hc; exact absurd rfl (h ts)
      · simp only [liftL_cons, lift]
        split
        · next heq => simp at heq; exact absurd heq.1 hc
        · rfl
    | _ => simp [lift]

theorem qname_ident {s : Str} {ts : List Tok} (h : ∀ r, ts ≠ .delim '|' :: r) :
    qname (liftL o (.ident s :: ts)) = .ok (.type .implicit (some s)) (liftL o ts) := by
  simp only [liftL_cons, lift, qname]
  exact nobar _ _ h

theorem qname_star {ts : List Tok} (h : ∀ r, ts ≠ .delim '|' :: r) :
    qname (liftL o (.delim '*' :: ts)) = .ok (.type .implicit none) (liftL o ts) := by
  simp only [liftL_cons, lift, qname]
  exact nobar _ _ h

theorem qname_sound {ts : List Tok} : (∀ c r', qname (liftL o ts) = .ok c r' → ∃ ns n r, c = .type ns n ∧ r' = liftL o r ∧ ts = ns.toks ++ nameTok n :: r) ∧
    (qname (liftL o ts) = .eof → CutName ts) := by
  cases ts with
  | nil => simp [qname]
  | cons t ts =>
    have hl := @localPart_sound o
    cases t with
    | ident s =>
      by_cases hb : ∃ r, ts = .delim '|' :: r
      · obtain ⟨r, rfl⟩ := hb
        simp only [liftL_cons, lift, qname]
        constructor
        · intro c r' h
          obtain ⟨n, r2, h1, h2, h3⟩ := hl.1 c r' h
          exact ⟨_, n, r2, h1, h2, by rw [h3]; rfl⟩
        · intro h
          rw [hl.2.1 h]; exact .inr (.inr ⟨s, rfl⟩)
      · rw [qname_ident (fun r h => hb ⟨r, h⟩)]
        refine ⟨?_, by simp⟩
        intro c r' h
        simp at h
        obtain ⟨rfl, rfl⟩ := h
        exact ⟨.implicit, some s, ts, rfl, rfl, rfl⟩
    | delim ch =>
      by_cases h1 : ch = '|'
      · subst h1
        simp only [liftL_cons, lift, qname]
        constructor
        · intro c r' h
          obtain ⟨n, r2, h1, h2, h3⟩ := hl.1 c r' h
          exact ⟨_, n, r2, h1, h2, by rw [h3]; rfl⟩
        · intro h
          rw [hl.2.1 h]; exact .inl rfl
      · by_cases h2 : ch = '*'
        · subst h2
          by_cases hb : ∃ r, ts = .delim '|' :: r
          · obtain ⟨r, rfl⟩ := hb
            simp only [liftL_cons, lift, qname]
            constructor
            · intro c r' h
              obtain ⟨n, r2, h1, h2, h3⟩ := hl.1 c r' h
              exact ⟨_, n, r2, h1, h2, by rw [h3]; rfl⟩
            · intro h
              rw [hl.2.1 h]; exact .inr (.inl rfl)
          · rw [qname_star (fun r h => hb ⟨r, h⟩)]
            refine ⟨?_, by simp⟩
            intro c r' h
            simp at h
            obtain ⟨rfl, rfl⟩ := h
            exact ⟨.implicit, none, ts, rfl, rfl, rfl⟩
        · have : qname (liftL o (.delim ch :: ts)) = .stop := by
            simp only [liftL_cons, lift]
            unfold qname
            split <;> simp_all
          rw [this]; simp
    | _ => simp [lift, qname]

theorem afterNesting_sound {pre ts b cs st r'} (hts : ∀ t ∈ ts, OKTok o D t) (hp : phase pre ≠ .mid)
    (h : afterNesting o (stOf cx (pre ++ inh) b) (liftL o ts) = .ok (cs, st, r')) :
    (∃ r b', r' = liftL o r ∧ st = stOf cx (cs.reverse ++ pre ++ inh) b' ∧ (∀ c ∈ cs, c.isComb = false) ∧ (∀ t ∈ r, t ∈ ts) ∧
      ∀ s, ReadsS code D o cx inh .no (cs.reverse ++ pre) s r → ReadsS code D o cx inh .no pre (cs ++ s) ts) ∨
    (CutName ts ∧ cs = [] ∧ r' = [] ∧ st = stOf cx (pre ++ inh) b) := by
  unfold afterNesting at h
  split at h
  · simp at h
  · left
    obtain ⟨r, b', h1, h2, h3, h4, h5⟩ := simples_sound _ hts h
    exact ⟨r, b', h1, h2, fun c hc => isSimple_noncomb (h3 c hc), h4, h5⟩
  · next hq =>
    right
    simp at h
    exact ⟨qname_sound.2 hq, h.1, h.2.2, h.2.1.symm⟩
  · next c r1 hq =>
    left
    obtain ⟨ns, n, r, rfl, rfl, rfl⟩ := qname_sound.1 _ _ hq
    split at h
    · simp at h
    next hn =>
    have hn' := (noPseudo_iff cx (pre ++ inh) b).2 (by simpa using hn)
    have hst : stOf cx (pre ++ inh) b = stOf cx ((.type ns n :: pre) ++ inh) b := (stOf_plain _ _ _ rfl).symm
    rw [hst] at h
    cases hx : simples o ((liftL o r).length + 1) (stOf cx ((.type ns n :: pre) ++ inh) b) (liftL o r) with
    | error e => rw [hx] at h; simp [Except.map] at h
    | ok x =>
      obtain ⟨cs', st', r''⟩ := x
      rw [hx] at h
      simp [Except.map] at h
      obtain ⟨rfl, rfl, rfl⟩ := h
      obtain ⟨r2, b2, g1, g2, g3, g4, g5⟩ := simples_sound _ (fun t ht => hts t (by simp [ht])) hx
      refine ⟨r2, b2, g1, by simpa using g2, ?_, fun t ht => by simp [g4 t ht], ?_⟩
      · intro x hx'
        simp at hx'
        rcases hx' with rfl | hx'
        · rfl
        · exact isSimple_noncomb (g3 x hx')
      · intro s hs
        rw [List.cons_append, readsS_cons]
        refine ⟨ns.toks ++ [nameTok n], r, by simp, ⟨hn', (typePlace_iff _).2 hp⟩, by simp [ReadsC], g5 s (by simpa using hs)⟩

theorem nextComb_sound (w : Bool) : ∀ {ts : List Tok}, (nextComb w (liftL o ts) = .done → AllWs ts) ∧
    ∀ k r', nextComb w (liftL o ts) = .comb k r' → ∃ a r, ts = a ++ r ∧ r' = liftL o r ∧
      match k.char with
      | none => AllWs a ∧ (w = false → a ≠ [])
      | some c => ∃ x, a = x ++ [.delim c] ∧ AllWs x := by
  intro ts
  induction ts generalizing w with
  | nil => simp [nextComb, allWs_nil]
  | cons t ts ih =>
    have other : nextComb w (liftL o (t :: ts)) = (if w then .comb .descendant (liftL o (t :: ts)) else .bad) →
        (nextComb w (liftL o (t :: ts)) = .done → AllWs (t :: ts)) ∧
        ∀ k r', nextComb w (liftL o (t :: ts)) = .comb k r' → ∃ a r, t :: ts = a ++ r ∧ r' = liftL o r ∧
          match k.char with
          | none => AllWs a ∧ (w = false → a ≠ [])
          | some c => ∃ x, a = x ++ [.delim c] ∧ AllWs x := by
      intro e
      rw [e]
      cases w with
      | false => simp
      | true =>
        simp only [if_true]
        refine ⟨by simp, ?_⟩
        intro k r' h
        simp only [Next.comb.injEq] at h
        obtain ⟨rfl, rfl⟩ := h
        exact ⟨[], t :: ts, rfl, rfl, allWs_nil, by simp⟩
    cases t with
    | ws =>
      simp only [liftL_cons, lift, nextComb]
      obtain ⟨h1, h2⟩ := ih true
      refine ⟨fun h => allWs_cons.2 ⟨rfl, h1 h⟩, ?_⟩
      intro k r' h
      obtain ⟨a, r, rfl, e2, e3⟩ := h2 k r' h
      refine ⟨.ws :: a, r, rfl, e2, ?_⟩
      cases hk : k.char with
      | none => rw [hk] at e3; exact ⟨allWs_cons.2 ⟨rfl, e3.1⟩, by simp⟩
      | some c =>
        rw [hk] at e3
        obtain ⟨x, rfl, hx⟩ := e3
        exact ⟨.ws :: x, rfl, allWs_cons.2 ⟨rfl, hx⟩⟩
    | delim c =>
      by_cases h1 : c = '>'
      · subst h1; simp only [liftL_cons, lift, nextComb]; simp; exact ⟨[.delim '>'], ts, rfl, rfl, [], rfl, allWs_nil⟩
      · by_cases h2 : c = '+'
        · subst h2; simp only [liftL_cons, lift, nextComb]; simp; exact ⟨[.delim '+'], ts, rfl, rfl, [], rfl, allWs_nil⟩
        · by_cases h3 : c = '~'
          · subst h3; simp only [liftL_cons, lift, nextComb]; simp; exact ⟨[.delim '~'], ts, rfl, rfl, [], rfl, allWs_nil⟩
          · apply other
            simp only [liftL_cons, lift]
            unfold nextComb
            split <;> simp_all
    | _ => apply other; simp [lift, nextComb]

/-- The rest of a selector after a compound selector. -/
def fin (o : Opts) (n : Nat) (st : St) (r : List LTok) : Out (Sel × St) :=
  if st.pseudo then
    if (skipWs r).isEmpty then .ok ([], st) else .error st.nesting
  else
    match nextComb false r with
    | .done => .ok ([], st)
    | .bad => .error st.nesting
    | .comb k r => if st.noComb then .error st.nesting else (complex o n st r).map fun x => (.comb k :: x.1, x.2)

theorem complex_eq (n : Nat) (st : St) (ts : List LTok) : complex o (n + 1) st ts =
    match compound o st ts with
    | .error b => .error b
    | .ok ([], st, _) => .error st.nesting
    | .ok (c :: cs, st, r) => (fin o n st r).map fun x => (c :: cs ++ x.1, x.2) := by
  rw [complex]
  split
  · next h => rw [h]
  · next h => rw [h]
  · next c cs st r h =>
    rw [h]
    simp only [fin]
    split
    · split <;> simp [Except.map]
    · split
      · next h => rw [h]; simp [Except.map]
      · next h => rw [h]; simp [Except.map]
      · next k r h =>
        rw [h]
        simp only
        split
        · simp [Except.map]
        · cases complex o n st r <;> simp [Except.map]

theorem complex_sound (n : Nat) : ∀ {pre ts b s st}, (∀ t ∈ ts, OKTok o D t) → phase pre = .start →
    complex o n (stOf cx (pre ++ inh) b) (liftL o ts) = .ok (s, st) → ∃ w r, ts = w ++ r ∧ AllWs w ∧ ReadsS code D o cx inh .no pre s r := by
  induction n with
  | zero => intro pre ts b s st _ _ h; simp [complex] at h
  | succ n ih =>
    intro pre ts b s st hts hp h
    have hfin : ∀ {pre r b s st}, (∀ t ∈ r, OKTok o D t) → phase pre ≠ .start → fin o n (stOf cx (pre ++ inh) b) (liftL o r) = .ok (s, st) →
        ReadsS code D o cx inh .no pre s r := by
      intro pre r b s st hr hp h
      unfold fin at h
      split at h
      · rw [skipWs_liftL] at h
        split at h
        · next he =>
          simp at h
          rw [h.1, readsS_nil]
          rw [List.isEmpty_iff, liftL_eq_nil, skipRaw_eq_nil] at he
          exact .inl ⟨he, (noncomb_iff _).2 hp⟩
        · simp at h
      · next hn =>
        have hn' := (noPseudo_iff cx (pre ++ inh) b).2 (by simpa using hn)
        split at h
        · next hd =>
          simp at h
          rw [h.1, readsS_nil]
          exact .inl ⟨(nextComb_sound false).1 hd, (noncomb_iff _).2 hp⟩
        · simp at h
        · next k r' hk =>
          obtain ⟨a, r2, rfl, rfl, h3⟩ := (nextComb_sound false).2 _ _ hk
          split at h
          · simp at h
          next hc =>
          have hc' : cx.combs = true := by simpa [stOf] using hc
          have hst : stOf cx (pre ++ inh) b = stOf cx ((.comb k :: pre) ++ inh) b := (stOf_plain _ _ _ rfl).symm
          rw [hst] at h
          cases hx : complex o n (stOf cx ((.comb k :: pre) ++ inh) b) (liftL o r2) with
          | error e => rw [hx] at h; simp [Except.map] at h
          | ok x =>
            obtain ⟨s2, st2⟩ := x
            rw [hx] at h
            simp [Except.map] at h
            obtain ⟨rfl, rfl⟩ := h
            obtain ⟨w, r3, rfl, g2, g3⟩ := ih (fun t ht => hr t (by simp at ht ⊢; right; exact ht)) phase_comb hx
            rw [readsS_cons]
            refine ⟨a ++ w, r3, by simp, ⟨hc', hn', (noncomb_iff _).2 hp⟩, ?_, g3⟩
            simp only [ReadsC, Comb.Written]
            cases hch : k.char with
            | none =>
              rw [hch] at h3
              exact ⟨by have := h3.2 rfl; simp [this], allWs_append.2 ⟨h3.1, g2⟩⟩
            | some c =>
              rw [hch] at h3
              obtain ⟨x, rfl, h4⟩ := h3
              exact ⟨x, w, by simp, h4, g2⟩
    rw [complex_eq] at h
    obtain ⟨w, e1, e2, e3⟩ := skipRaw_spec ts
    have hsk : ∀ t ∈ skipRaw ts, OKTok o D t := fun t ht => hts t (by rw [e1]; simp [ht])
    refine ⟨w, skipRaw ts, e1, e2, ?_⟩
    generalize skipRaw ts = q at *
    have hq : skipWs (liftL o ts) = liftL o q := by rw [skipWs_liftL, e1, skipRaw_ws e2, skipRaw_of_notWs e3]
    by_cases hn : ∃ r, q = .delim '&' :: r
    · obtain ⟨r, rfl⟩ := hn
      have hst : { stOf cx (pre ++ inh) b with nesting := true } = stOf cx ((.nesting :: pre) ++ inh) true := by
        rw [List.cons_append, stOf_plain _ _ _ rfl]; rfl
      have hcomp : compound o (stOf cx (pre ++ inh) b) (liftL o ts) =
          (afterNesting o (stOf cx ((.nesting :: pre) ++ inh) true) (liftL o r)).map fun x => (.nesting :: x.1, x.2) := by
        unfold compound
        rw [hq]
        simp only [liftL_cons, lift, hst]
      rw [hcomp] at h
      have hnr : ReadsC code D o cx (pre ++ inh) .nesting [.delim '&'] := by simp [ReadsC]
      cases hx : afterNesting o (stOf cx ((.nesting :: pre) ++ inh) true) (liftL o r) with
      | error e => rw [hx] at h; simp [Except.map] at h
      | ok x =>
        obtain ⟨cs, st1, r1⟩ := x
        rw [hx] at h
        simp only [Except.map] at h
        rcases afterNesting_sound (fun t ht => hsk t (by simp [ht])) (by rw [phase_nest hp]; simp) hx with
          ⟨r2, b', rfl, rfl, g3, g4, g5⟩ | ⟨g1, rfl, rfl, rfl⟩
        · cases hf : fin o n (stOf cx (cs.reverse ++ (.nesting :: pre) ++ inh) b') (liftL o r2) with
          | error e => rw [hf] at h; simp at h
          | ok y =>
            obtain ⟨s2, st2⟩ := y
            rw [hf] at h
            simp at h
            obtain ⟨rfl, rfl⟩ := h
            have hph : phase (cs.reverse ++ .nesting :: pre) ≠ .start := by
              rcases List.eq_nil_or_concat cs with rfl | ⟨cs', c, rfl⟩
              · simp [phase_nest hp]
              · simp
                exact phase_not_start (g3 c (by simp))
            have := hfin (fun t ht => hsk t (by simp [g4 t ht])) hph hf
            rw [readsS_cons]
            exact ⟨[.delim '&'], r, rfl, .inl rfl, hnr, g5 _ this⟩
        · have : s = [.nesting] := by
            unfold fin at h
            split at h
            · next hb =>
              split at hb
              · simp [skipWs] at hb
              · simp [nextComb] at hb
            · next a hb =>
              split at hb
              · simp [skipWs] at hb; subst hb; simp at h; exact h.1.symm
              · simp [nextComb] at hb; subst hb; simp at h; exact h.1.symm
          subst this
          rw [readsS_cons]
          refine ⟨[.delim '&'], r, rfl, .inl rfl, hnr, ?_⟩
          rw [readsS_nil]
          exact .inr ⟨rfl, (loneNesting_iff _).2 (phase_nest hp), g1⟩
    · have hcomp : compound o (stOf cx (pre ++ inh) b) (liftL o ts) = afterNesting o (stOf cx (pre ++ inh) b) (liftL o q) := by
        unfold compound
        rw [hq]
        split
        · next r heq =>
          exfalso
          cases q with
          | nil => simp at heq
          | cons t q => 
            simp at heq
            apply hn
            refine ⟨q, ?_⟩
            cases t <;> simp [lift] at heq
            rw [heq.1]
        · rfl
      rw [hcomp] at h
      cases hx : afterNesting o (stOf cx (pre ++ inh) b) (liftL o q) with
      | error e => rw [hx] at h; simp at h
      | ok x =>
        obtain ⟨cs, st1, r1⟩ := x
        rw [hx] at h
        rcases afterNesting_sound hsk (by rw [hp]; simp) hx with ⟨r2, b', rfl, rfl, g3, g4, g5⟩ | ⟨g1, rfl, rfl, rfl⟩
        · cases cs with
          | nil => simp at h
          | cons c cs =>
          simp only at h
          cases hf : fin o n (stOf cx ((c :: cs).reverse ++ pre ++ inh) b') (liftL o r2) with
          | error e => rw [hf] at h; simp [Except.map] at h
          | ok y =>
            obtain ⟨s2, st2⟩ := y
            rw [hf] at h
            simp [Except.map] at h
            obtain ⟨rfl, rfl⟩ := h
            have hph : phase ((c :: cs).reverse ++ pre) ≠ .start := by
              rcases List.eq_nil_or_concat (c :: cs) with h | ⟨cs', c', h⟩
              · simp at h
              · rw [h]
                simp
                exact phase_not_start (g3 c' (by rw [h]; simp))
            have := hfin (fun t ht => hsk t (by simp [g4 t ht])) hph hf
            exact g5 _ this
        · simp at h

end Verif.SelParse
