import Verif.Supports.Lemmas
namespace Verif.Supports
open Verif.Targets

theorem lowerChar_idem (c : Char) : lowerChar (lowerChar c) = lowerChar c := by
  unfold lowerChar
  by_cases h : 'A' ≤ c ∧ c ≤ 'Z'
  · rw [if_pos h]
    have h1 : 65 ≤ c.toNat := h.1
    have h2 : c.toNat ≤ 90 := h.2
    have h3 : (Char.ofNat (c.toNat + 32)).toNat = c.toNat + 32 := by
      have hv : (c.toNat + 32).isValidChar := Or.inl (by omega)
      rw [Char.ofNat, dif_pos hv]
      rfl
    rw [if_neg]
    rintro ⟨_, h5⟩
    have h6 : (Char.ofNat (c.toNat + 32)).toNat ≤ 90 := h5
    omega
  · rw [if_neg h, if_neg h]

theorem lower_idem (s : Str) : lower (lower s) = lower s := by
  unfold lower
  rw [List.map_map]
  congr 1
  funext c
  exact lowerChar_idem c

theorem lowerChar_dash (c : Char) (h : lowerChar c = '-') : c = '-' := by
  unfold lowerChar at h
  split at h
  · next hc =>
    have h1 : 65 ≤ c.toNat := hc.1
    have h2 : c.toNat ≤ 90 := hc.2
    have h3 : (Char.ofNat (c.toNat + 32)).toNat = c.toNat + 32 := by
      have hv : (c.toNat + 32).isValidChar := Or.inl (by omega)
      rw [Char.ofNat, dif_pos hv]
      rfl
    rw [h] at h3
    have : ('-' : Char).toNat = 45 := rfl
    omega
  · exact h

theorem lower_dashes (n : Str) : (lower n).take 2 = cs!"--" ↔ n.take 2 = cs!"--" := by
  match n with
  | [] => simp [lower]
  | [a] => simp [lower]
  | a :: b :: r =>
    simp only [lower, List.map_cons, List.take_succ_cons, List.take_zero]
    constructor
    · intro h
      injection h with h1 h2
      injection h2 with h2 _
      rw [lowerChar_dash a h1, lowerChar_dash b h2]
    · intro h
      injection h with h1 h2
      injection h2 with h2 _
      subst h1; subst h2; rfl

theorem stripIC_vendorFree (pre n : Str) (h : ¬ pre <+: lower n) : stripIC pre n = none := by
  unfold stripIC
  rw [if_neg]
  intro he
  apply h
  rw [← he]
  unfold lower
  rw [List.map_take]
  exact List.take_prefix _ _

theorem splitPrefix_vendorFree (n : Str) (h : vendorFree n) : splitPrefix n = (.none, n) := by
  unfold splitPrefix
  rw [stripIC_vendorFree _ n (h _ (by simp)), stripIC_vendorFree _ n (h _ (by simp)),
    stripIC_vendorFree _ n (h _ (by simp)), stripIC_vendorFree _ n (h _ (by simp))]

/-- A property id with no prefix. -/
def PlainId (p : PropId) : Prop := p.vp = none ∨ p.vp = some Prefix.none.set

/-- A declaration without prefix, or no declaration. -/
def TopPlain : Cond → Prop
  | .decl p _ => PlainId p
  | _ => True

theorem parse_plain (tbl : PropTable) (n : Str) (h : vendorFree n) : PlainId (PropId.parse tbl n) := by
  unfold PropId.parse
  rw [splitPrefix_vendorFree n h]
  dsimp only
  split
  · split
    · split
      · exact .inr rfl
      · exact .inl rfl
    · exact .inl rfl
  · exact .inl rfl

theorem anyPrefix_plain (b : Browser) (p : PropId) (v : List Tok) (h : PlainId p) :
    b.anyPrefix p v = b.decl (canonical p.name) v := by
  unfold Browser.anyPrefix
  rcases h with h | h
  · rw [h]
  · rw [h]
    dsimp only
    rw [if_neg (by decide)]
    simp [Prefix.set]

theorem parse_canonical (tbl : PropTable) (ht : tbl.WF) (n : Str) (h : vendorFree n) :
    canonical (PropId.parse tbl n).name = canonical n := by
  unfold PropId.parse
  rw [splitPrefix_vendorFree n h]
  dsimp only
  split
  · next hl =>
    split
    · have h1 := ht (lower n) (by rw [hl]; simp)
      have h2 : n.take 2 ≠ cs!"--" := fun hh => h1 ((lower_dashes n).2 hh)
      unfold canonical
      rw [if_neg h1, if_neg h2, lower_idem]
    · rfl
  · rfl

theorem parseDecl_sound (tbl : PropTable) (ht : tbl.WF) (b : Browser) (n : Str) (v : List Tok) (h : vendorFree n) :
    b.anyPrefix (PropId.parse tbl n) v = b.decl (canonical n) v := by
  rw [anyPrefix_plain b _ v (parse_plain tbl n h), parse_canonical tbl ht n h]

theorem withPrefix_plain (p : PropId) (h : PlainId p) : p.withPrefix Prefix.none.set = p := by
  obtain ⟨n, vp⟩ := p
  rcases h with h | h <;> simp only [PropId.withPrefix] at h ⊢ <;> rw [h] <;> rfl

theorem addPrefix_plain (p q : PropId) (hp : PlainId p) (h : PlainId q) (he : q = p) : q.addPrefix p.pre = q := by
  subst he
  obtain ⟨n, vp⟩ := q
  rcases h with h | h <;> simp only [PropId.addPrefix, PropId.pre] at h ⊢ <;> rw [h] <;> rfl

theorem addToSeen_plain (p : PropId) (v : List Tok) (hp : PlainId p) (cs cs' : List Cond) (hc : ∀ c ∈ cs, TopPlain c)
    (h : addToSeen p v cs = some cs') : cs' = cs ∧ Cond.decl p v ∈ cs := by
  induction cs generalizing cs' with
  | nil => simp [addToSeen] at h
  | cons c cs ih =>
    have tail : (addToSeen p v cs).map (c :: ·) = some cs' → cs' = c :: cs ∧ Cond.decl p v ∈ c :: cs := by
      clear h
      intro h
      cases ha : addToSeen p v cs with
      | none => rw [ha] at h; simp at h
      | some ds =>
        rw [ha] at h
        obtain ⟨h1, h2⟩ := ih ds (fun c hm => hc c (List.mem_cons_of_mem _ hm)) ha
        injection h with h
        subst h1
        exact ⟨h.symm, List.mem_cons_of_mem _ h2⟩
    cases c with
    | decl q w =>
      simp only [addToSeen] at h
      have hq : PlainId q := hc (.decl q w) (by simp)
      split at h
      · next hh =>
        simp only [withPrefix_plain q hq, Bool.and_eq_true, decide_eq_true_eq, Tok.beqList_iff] at hh
        obtain ⟨h1, h2⟩ := hh
        injection h with h
        rw [addPrefix_plain p q hp hq h1] at h
        subst h; subst h1; subst h2
        exact ⟨rfl, by simp⟩
      · exact tail h
    | not _ => exact tail h
    | and _ => exact tail h
    | or _ => exact tail h
    | selector _ => exact tail h
    | unknown _ => exact tail h

/-- The value of a list under an operator. -/
def evalOp (b : Browser) : Op → List Cond → Bool
  | .and, cs => Cond.evalAll b cs
  | .or, cs => Cond.evalAny b cs

theorem evalOp_append (b : Browser) (o : Op) (cs ds : List Cond) :
    evalOp b o (cs ++ ds) = o.apply (evalOp b o cs) (evalOp b o ds) := by
  cases o
  · exact evalAll_append b cs ds
  · exact evalAny_append b cs ds

theorem evalOp_single (b : Browser) (o : Op) (c : Cond) : evalOp b o [c] = c.eval b := by
  cases o <;> simp [evalOp, Cond.evalAll, Cond.evalAny]

theorem evalOp_mem (b : Browser) (o : Op) (cs : List Cond) (c : Cond) (h : c ∈ cs) :
    o.apply (evalOp b o cs) (c.eval b) = evalOp b o cs := by
  cases o
  · simp only [Op.apply, evalOp]
    cases hv : Cond.evalAll b cs with
    | false => rfl
    | true => rw [(evalAll_iff b cs).1 hv c h]; rfl
  · simp only [Op.apply, evalOp]
    cases hv : c.eval b with
    | false => simp
    | true => rw [(evalAny_iff b cs).2 ⟨c, h, hv⟩]; rfl

theorem pushCond_plain (cs : List Cond) (c : Cond) (hc : ∀ c ∈ cs, TopPlain c) (h : TopPlain c) :
    (∀ d ∈ pushCond cs c, TopPlain d) ∧ pushCond cs c ≠ [] ∧
    ∀ b o, evalOp b o (pushCond cs c) = o.apply (evalOp b o cs) (c.eval b) := by
  have app : (∀ d ∈ cs ++ [c], TopPlain d) ∧ cs ++ [c] ≠ [] ∧
    ∀ b o, evalOp b o (cs ++ [c]) = o.apply (evalOp b o cs) (c.eval b) := by
    refine ⟨?_, by simp, fun b o => by rw [evalOp_append, evalOp_single]⟩
    intro d hd
    rw [List.mem_append, List.mem_singleton] at hd
    rcases hd with hd | hd
    · exact hc d hd
    · exact hd ▸ h
  cases c with
  | decl p v =>
    simp only [pushCond, withPrefix_plain p h]
    cases ha : addToSeen p v cs with
    | none => exact app
    | some ds =>
      obtain ⟨h1, h2⟩ := addToSeen_plain p v h cs ds hc ha
      subst h1
      dsimp only
      exact ⟨hc, List.ne_nil_of_mem h2, fun b o => (evalOp_mem b o _ _ h2).symm⟩
  | not _ => exact app
  | and _ => exact app
  | or _ => exact app
  | selector _ => exact app
  | unknown _ => exact app

theorem opOf_iff (s : Str) (o : Op) : opOf s = some o ↔ lower s = o.kw := by
  unfold opOf
  by_cases h1 : lower s = cs!"and"
  · rw [if_pos h1, h1]
    cases o <;> simp [Op.kw]
  · rw [if_neg h1]
    by_cases h2 : lower s = cs!"or"
    · rw [if_pos h2, h2]
      cases o <;> simp [Op.kw]
    · rw [if_neg h2]
      cases o <;> simp [Op.kw, h1, h2]

theorem chainRest_cons (b : Browser) (o : Op) (k : Str) (x : Tok) (rest : List Tok) (w : Bool) :
    ChainRest b o (.ident k :: x :: rest) w ↔
      lower k = o.kw ∧ ∃ v1 v2, textInParens b x = some v1 ∧ ChainRest b o rest v2 ∧ w = o.apply v1 v2 := by
  cases o
  · simp only [ChainRest, textAnds, Op.kw, Op.apply]
    by_cases hk : lower k = cs!"and"
    · rw [if_pos hk]
      cases textInParens b x <;> cases textAnds b rest <;> simp [hk, eq_comm]
    · rw [if_neg hk]; simp [hk]
  · simp only [ChainRest, textOrs, Op.kw, Op.apply]
    by_cases hk : lower k = cs!"or"
    · rw [if_pos hk]
      cases textInParens b x <;> cases textOrs b rest <;> simp [hk, eq_comm]
    · rw [if_neg hk]; simp [hk]

theorem chainRest_nil (b : Browser) (o : Op) : ChainRest b o [] o.unit := by
  cases o <;> simp [ChainRest, textAnds, textOrs, Op.unit]

theorem Op.apply_unit (o : Op) (v : Bool) : o.apply v o.unit = v := by cases o <;> cases v <;> rfl
theorem Op.apply_assoc (o : Op) (a b c : Bool) : o.apply (o.apply a b) c = o.apply a (o.apply b c) := by
  cases o <;> cases a <;> cases b <;> cases c <;> rfl

/-- What `parseInParens` says about a token: same shape errors, same meaning. -/
def TokOk (tbl : PropTable) (x : Tok) : Prop :=
  (parseInParens tbl x = none ∧ ∀ b, textInParens b x = none) ∨
  ∃ c, parseInParens tbl x = some c ∧ TopPlain c ∧ ∀ b, textInParens b x = some (c.eval b)

/-- The same for a whole list of tokens. -/
def CondOk (tbl : PropTable) (ts : List Tok) : Prop :=
  (parseFull tbl ts = none ∧ ∀ b, textCond b ts = none) ∨
  ∃ c, parseFull tbl ts = some c ∧ TopPlain c ∧ ∀ b, textCond b ts = some (c.eval b)

/-- The loop, once an operator is known: either tokens are left over and the text is no chain, or it is one. -/
def LoopOk (tbl : PropTable) (o : Op) (ts : List Tok) : Prop :=
  (∀ first conds, conds ≠ [] → (parseLoop tbl first (some o) conds ts).2.2 ≠ [] ∧ ∀ b w, ¬ ChainRest b o ts w) ∨
  (∀ first conds, conds ≠ [] → (∀ c ∈ conds, TopPlain c) → ∃ conds', parseLoop tbl first (some o) conds ts = (conds', some o, []) ∧
    conds' ≠ [] ∧ (∀ c ∈ conds', TopPlain c) ∧
    ∀ b, ∃ w, ChainRest b o ts w ∧ evalOp b o conds' = o.apply (evalOp b o conds) w)

theorem loop_ok (tbl : PropTable) (o : Op) : ∀ ts : List Tok, (∀ x ∈ ts, TokOk tbl x) → LoopOk tbl o ts
  | [] => fun _ => .inr fun first conds hne hc =>
    ⟨conds, by simp [parseLoop], hne, hc, fun b => ⟨o.unit, chainRest_nil b o, (o.apply_unit _).symm⟩⟩
  | [t] => fun _ => .inl fun first conds hne => by
    constructor
    · cases t <;> simp [parseLoop]
      split
      · simp
      · split <;> simp
    · intro b w hw
      cases o <;> cases t <;> simp [ChainRest, textAnds, textOrs] at hw
  | .ident k :: x :: rest => fun hx => by
    have ih := loop_ok tbl o rest (fun y hy => hx y (by simp [hy]))
    by_cases hk : lower k = o.kw
    · have ho := (opOf_iff k o).2 hk
      rcases hx x (by simp) with ⟨hp, ht⟩ | ⟨c, hp, htp, ht⟩
      · refine .inl fun first conds hne => ⟨?_, ?_⟩
        · simp [parseLoop, ho, hp]
        · intro b w hw
          rw [chainRest_cons] at hw
          obtain ⟨_, v1, v2, h1, _⟩ := hw
          rw [ht b] at h1
          simp at h1
      · rcases ih with ih | ih
        · refine .inl fun first conds hne => ?_
          have hpush : ∀ cs : List Cond, cs ≠ [] → pushCond cs c ≠ [] := by
            intro cs hcs
            cases c <;> simp only [pushCond] <;> try (simp; done)
            next p v =>
            cases ha : addToSeen (p.withPrefix Prefix.none.set) v cs with
            | none => simp
            | some ds =>
              cases cs with
              | nil => exact absurd rfl hcs
              | cons d cs =>
                intro h
                simp only at h
                subst h
                cases d <;> simp only [addToSeen] at ha
                all_goals try split at ha
                all_goals simp at ha
          constructor
          · simp only [parseLoop, ho, hp]
            rw [if_pos (.inr trivial)]
            apply (ih _ _ _).1
            apply hpush
            split <;> simp_all
          · intro b w hw
            rw [chainRest_cons] at hw
            obtain ⟨_, v1, v2, _, h2, _⟩ := hw
            exact (ih (.selector []) [.selector []] (by simp)).2 b v2 h2
        · refine .inr fun first conds hne hc => ?_
          have hif : (if conds.isEmpty then [first] else conds) = conds := by
            cases conds with
            | nil => exact absurd rfl hne
            | cons => rfl
          obtain ⟨hp1, hp2, hp3⟩ := pushCond_plain conds c hc htp
          obtain ⟨conds', h1, h2, h3, h4⟩ := ih first (pushCond conds c) hp2 hp1
          refine ⟨conds', ?_, h2, h3, fun b => ?_⟩
          · simp only [parseLoop, ho, hp]
            rw [if_pos (.inr trivial), hif, h1]
          · obtain ⟨w, hw, he⟩ := h4 b
            refine ⟨o.apply (c.eval b) w, ?_, ?_⟩
            · rw [chainRest_cons]
              exact ⟨hk, _, _, ht b, hw, rfl⟩
            · rw [he, hp3, Op.apply_assoc]
    · refine .inl fun first conds hne => ⟨?_, ?_⟩
      · simp only [parseLoop]
        cases ho : opOf k with
        | none => simp
        | some o' =>
          have hne' : o ≠ o' := by
            intro he; subst he; exact hk ((opOf_iff k o).1 ho)
          simp [hne']
      · intro b w hw
        rw [chainRest_cons] at hw
        exact hk hw.1
  | .colon :: x :: rest => fun _ => .inl fun first conds hne => by
    refine ⟨by simp [parseLoop], fun b w hw => ?_⟩
    cases o <;> simp [ChainRest, textAnds, textOrs] at hw
  | .other _ :: x :: rest => fun _ => .inl fun first conds hne => by
    refine ⟨by simp [parseLoop], fun b w hw => ?_⟩
    cases o <;> simp [ChainRest, textAnds, textOrs] at hw
  | .func _ _ :: x :: rest => fun _ => .inl fun first conds hne => by
    refine ⟨by simp [parseLoop], fun b w hw => ?_⟩
    cases o <;> simp [ChainRest, textAnds, textOrs] at hw
  | .paren _ :: x :: rest => fun _ => .inl fun first conds hne => by
    refine ⟨by simp [parseLoop], fun b w hw => ?_⟩
    cases o <;> simp [ChainRest, textAnds, textOrs] at hw

theorem textCond_chain (b : Browser) (x r : Tok) (rest : List Tok) (hx : ∀ s, x ≠ .ident s) (v : Bool) :
    textCond b (x :: r :: rest) = some v ↔ ∃ o v1 v2, textInParens b x = some v1 ∧ ChainRest b o (r :: rest) v2 ∧ v = o.apply v1 v2 := by
  constructor
  · intro h
    have : textCond b (x :: r :: rest) = match textInParens b x with
        | none => none
        | some v =>
          match textAnds b (r :: rest) with
          | some w => some (v && w)
          | none => (textOrs b (r :: rest)).map (v || ·) := by
      cases x with
      | ident s => exact absurd rfl (hx s)
      | _ => simp only [textCond] <;> rfl
    rw [this] at h
    cases h1 : textInParens b x with
    | none => rw [h1] at h; simp at h
    | some v1 =>
      rw [h1] at h
      cases h2 : textAnds b (r :: rest) with
      | some w =>
        rw [h2] at h
        simp at h
        exact ⟨.and, v1, w, rfl, h2, h.symm⟩
      | none =>
        rw [h2] at h
        cases h3 : textOrs b (r :: rest) with
        | none => rw [h3] at h; simp at h
        | some w =>
          rw [h3] at h
          simp at h
          exact ⟨.or, v1, w, rfl, h3, h.symm⟩
  · rintro ⟨o, v1, v2, h1, h2, rfl⟩
    apply chain_cond b o
    cases o
    · exact ⟨x, r :: rest, v1, v2, rfl, h1, h2, rfl⟩
    · exact ⟨x, r :: rest, v1, v2, rfl, h1, h2, rfl⟩

theorem finish_single (first : Cond) (o : Op) (conds : List Cond) (hne : conds ≠ []) (h : ∀ c ∈ conds, TopPlain c) :
    TopPlain (finish first (some o) conds) ∧ ∀ b, (finish first (some o) conds).eval b = evalOp b o conds := by
  match conds with
  | [] => exact absurd rfl hne
  | [c] => exact ⟨h c (by simp), fun b => (evalOp_single b o c).symm⟩
  | c :: d :: r => cases o <;> exact ⟨trivial, fun b => rfl⟩

theorem cond_ok_chain (tbl : PropTable) (x r : Tok) (rest : List Tok) (hi : ∀ s, x ≠ .ident s)
    (hx : ∀ y ∈ x :: r :: rest, TokOk tbl y) : CondOk tbl (x :: r :: rest) := by
  have hparse : parseCond tbl (x :: r :: rest) = match parseInParens tbl x with
    | none => none
    | some first =>
      match parseLoop tbl first none [] (r :: rest) with
      | (conds, expected, rest) => some (finish first expected conds, rest) := by
    cases x with
    | ident s => exact absurd rfl (hi s)
    | _ => simp only [parseCond] <;> rfl
  have text_none : (∀ b v, ¬ textCond b (x :: r :: rest) = some v) → ∀ b, textCond b (x :: r :: rest) = none := by
    intro h b
    cases hh : textCond b (x :: r :: rest) with
    | none => rfl
    | some v => exact absurd hh (h b v)
  rcases hx x (by simp) with ⟨hp, ht⟩ | ⟨first, hp, htp, ht⟩
  · refine .inl ⟨by simp [parseFull, hparse, hp], text_none fun b v hv => ?_⟩
    rw [textCond_chain b x r rest hi] at hv
    obtain ⟨o, v1, v2, h1, _⟩ := hv
    rw [ht b] at h1
    simp at h1
  rw [hp] at hparse
  dsimp only at hparse
  have bad : (parseLoop tbl first none [] (r :: rest)).2.2 ≠ [] → (∀ b o w, ¬ ChainRest b o (r :: rest) w) →
      CondOk tbl (x :: r :: rest) := by
    intro h1 h2
    refine .inl ⟨?_, text_none fun b v hv => ?_⟩
    · generalize parseLoop tbl first none [] (r :: rest) = res at *
      obtain ⟨a, e, l⟩ := res
      cases l with
      | nil => exact absurd rfl h1
      | cons y ys => simp [parseFull, hparse]
    · rw [textCond_chain b x r rest hi] at hv
      obtain ⟨o, v1, v2, _, h, _⟩ := hv
      exact h2 b o v2 h
  cases r with
  | ident k =>
    cases rest with
    | nil =>
      apply bad
      · simp only [parseLoop]
        split <;> simp
      · intro b o w hw
        cases o <;> simp [ChainRest, textAnds, textOrs] at hw
    | cons y rest =>
      cases ho : opOf k with
      | none =>
        apply bad
        · simp [parseLoop, ho]
        · intro b o w hw
          rw [chainRest_cons, ← opOf_iff, ho] at hw
          simp at hw
      | some o =>
        have only : ∀ b o' w, ChainRest b o' (.ident k :: y :: rest) w → o' = o := by
          intro b o' w hw
          rw [chainRest_cons, ← opOf_iff, ho] at hw
          injection hw.1 with h
          exact h.symm
        rcases hx y (by simp) with ⟨hp', ht'⟩ | ⟨c, hp', htp', ht'⟩
        · apply bad
          · simp [parseLoop, ho, hp']
          · intro b o' w hw
            rw [chainRest_cons, ht' b] at hw
            simp at hw
        · have hl : parseLoop tbl first none [] (.ident k :: y :: rest) =
              parseLoop tbl first (some o) (pushCond [first] c) rest := by
            simp [parseLoop, ho, hp']
          rw [hl] at hparse bad
          have hfirst : ∀ c ∈ [first], TopPlain c := by intro c hc; simp at hc; exact hc ▸ htp
          obtain ⟨hq1, hq2, hq3⟩ := pushCond_plain [first] c hfirst htp'
          rcases loop_ok tbl o rest (fun z hz => hx z (by simp [hz])) with h | h
          · apply bad
            · exact (h _ _ hq2).1
            · intro b o' w hw
              have := only b o' w hw
              subst this
              rw [chainRest_cons] at hw
              obtain ⟨_, v1, v2, _, h2, _⟩ := hw
              exact (h first _ hq2).2 b v2 h2
          · obtain ⟨conds', h1, h2, h3, h4⟩ := h first _ hq2 hq1
            rw [h1] at hparse
            obtain ⟨hf1, hf2⟩ := finish_single first o conds' h2 h3
            refine .inr ⟨finish first (some o) conds', by simp [parseFull, hparse], hf1, fun b => ?_⟩
            obtain ⟨w, hw, he⟩ := h4 b
            rw [textCond_chain b x _ _ hi]
            refine ⟨o, first.eval b, o.apply (c.eval b) w, ht b, ?_, ?_⟩
            · rw [chainRest_cons]
              exact ⟨(opOf_iff k o).1 ho, _, _, ht' b, hw, rfl⟩
            · rw [hf2, he, hq3, evalOp_single, Op.apply_assoc]
  | _ =>
    apply bad
    · simp [parseLoop]
    · intro b o w hw
      cases o <;> simp [ChainRest, textAnds, textOrs] at hw

theorem parseFull_cons_none (tbl : PropTable) (k : Str) (x : Tok) (rest : List Tok)
    (h : ¬ (lower k = cs!"not" ∧ rest = [])) : parseFull tbl (.ident k :: x :: rest) = none := by
  unfold parseFull
  rw [parseCond]
  by_cases hk : lower k = cs!"not"
  · rw [if_pos hk]
    cases rest with
    | nil => exact absurd ⟨hk, rfl⟩ h
    | cons y ys => cases parseInParens tbl x <;> rfl
  · rw [if_neg hk]

theorem cond_ok (tbl : PropTable) (ts : List Tok) (hx : ∀ y ∈ ts, TokOk tbl y) : CondOk tbl ts := by
  match ts with
  | [] => exact .inl ⟨by simp [parseFull, parseCond], fun b => by simp [textCond]⟩
  | [t] =>
    rcases hx t (by simp) with ⟨hp, ht⟩ | ⟨c, hp, htp, ht⟩
    · exact .inl ⟨by simp [parseFull, parseCond, hp], fun b => by rw [textCond, ht b]⟩
    · exact .inr ⟨c, by simp [parseFull, parseCond, hp, finish], htp, fun b => by rw [textCond, ht b]⟩
  | .ident k :: x :: rest =>
    by_cases h : lower k = cs!"not" ∧ rest = []
    · obtain ⟨hk, rfl⟩ := h
      rcases hx x (by simp) with ⟨hp, ht⟩ | ⟨c, hp, htp, ht⟩
      · exact .inl ⟨by simp [parseFull, parseCond, hp], fun b => by rw [textCond, if_pos ⟨hk, rfl⟩, ht b]; rfl⟩
      · exact .inr ⟨.not c, by simp [parseFull, parseCond, hp, hk], trivial,
          fun b => by rw [textCond, if_pos ⟨hk, rfl⟩, ht b]; rfl⟩
    · exact .inl ⟨parseFull_cons_none tbl k x rest h, fun b => by rw [textCond, if_neg h]⟩
  | .colon :: r :: rest => exact cond_ok_chain tbl _ r rest (by simp) hx
  | .other _ :: r :: rest => exact cond_ok_chain tbl _ r rest (by simp) hx
  | .func _ _ :: r :: rest => exact cond_ok_chain tbl _ r rest (by simp) hx
  | .paren _ :: r :: rest => exact cond_ok_chain tbl _ r rest (by simp) hx

theorem parseCond_decl (tbl : PropTable) (n : Str) (v : List Tok) : parseCond tbl (.ident n :: .colon :: v) = none := by
  rw [parseCond]
  split
  · simp [parseInParens]
  · rfl

mutual
theorem tok_ok (tbl : PropTable) (ht : tbl.WF) (x : Tok) (h : plainTok x) : TokOk tbl x := by
  match x with
  | .ident _ => exact .inl ⟨by simp [parseInParens], fun b => by simp [textInParens]⟩
  | .colon => exact .inl ⟨by simp [parseInParens], fun b => by simp [textInParens]⟩
  | .other _ => exact .inl ⟨by simp [parseInParens], fun b => by simp [textInParens]⟩
  | .func f ts =>
    by_cases hf : lower f = cs!"selector"
    · exact .inr ⟨.selector ts, by simp [parseInParens, hf], trivial, fun b => by simp [textInParens, hf, Cond.eval]⟩
    · exact .inr ⟨.unknown (.func f ts), by simp [parseInParens, hf], trivial,
        fun b => by simp [textInParens, hf, Cond.eval]⟩
  | .paren ts =>
    simp only [plainTok] at h
    by_cases hd : ∃ n v, ts = .ident n :: .colon :: v
    · obtain ⟨n, v, rfl⟩ := hd
      have hv := h.2 n v rfl
      refine .inr ⟨.decl (PropId.parse tbl n) v, ?_, parse_plain tbl n hv, fun b => ?_⟩
      · unfold parseInParens
        rw [parseCond_decl]
        rfl
      · unfold textInParens
        rw [textCond_decl]
        simp only [Cond.eval]
        rw [parseDecl_sound tbl ht b n v hv]
    · have hpd : parseDecl tbl ts = none := by
        unfold parseDecl
        split
        · next n v => exact absurd ⟨n, v, rfl⟩ hd
        · rfl
      rcases cond_ok tbl ts (toks_ok tbl ht ts h.1) with ⟨hp, htx⟩ | ⟨c, hp, htp, htx⟩
      · refine .inr ⟨.unknown (.paren ts), ?_, trivial, fun b => ?_⟩
        · unfold parseInParens
          unfold parseFull at hp
          generalize parseCond tbl ts = res at *
          match res with
          | none => simp [hpd]
          | some (c, []) => simp at hp
          | some (c, _ :: _) => rfl
        · unfold textInParens
          rw [htx b]
          dsimp only
          split
          · next n v => exact absurd ⟨n, v, rfl⟩ hd
          · rfl
      · refine .inr ⟨c, ?_, htp, fun b => textInParens_paren b ts _ (htx b)⟩
        unfold parseInParens
        unfold parseFull at hp
        generalize parseCond tbl ts = res at *
        match res with
        | none => simp at hp
        | some (c', []) => simpa using hp
        | some (c', _ :: _) => simp at hp
termination_by sizeOf x
theorem toks_ok (tbl : PropTable) (ht : tbl.WF) (ts : List Tok) (h : plainToks ts) : ∀ y ∈ ts, TokOk tbl y := by
  match ts with
  | [] => intro y hy; simp at hy
  | t :: ts =>
    simp only [plainToks] at h
    intro y hy
    rw [List.mem_cons] at hy
    rcases hy with rfl | hy
    · exact tok_ok tbl ht _ h.1
    · exact toks_ok tbl ht ts h.2 y hy
termination_by sizeOf ts
end

end Verif.Supports
