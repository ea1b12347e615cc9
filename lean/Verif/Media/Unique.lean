import Verif.Media.QueryLemmas
/-! The specification's text meaning is a function: a text has at most one meaning. -/
namespace Verif.Media

theorem NameText.not_odd {l : Str} {id : FeatureId} {c : Option Cmp} (h : NameText l id c) : l ∉ oddNames := by
  cases h with
  | bare => cases id <;> decide +kernel
  | min _ h => revert h; cases id <;> decide +kernel
  | max _ h => revert h; cases id <;> decide +kernel
  | wkMin => decide
  | wkMax => decide

/-- Reading of a name, as a function. -/
def nk (l : Str) : Option (FeatureId × Option Cmp) := if l ∈ oddNames then none else nameKey l

theorem nk_text {l : Str} {id : FeatureId} {c : Option Cmp} (h : NameText l id c) : nk l = some (id, c) := by
  simp [nk, h.not_odd, nameKey_of_text h]

theorem nk_unknown {s : Str} (h : UnknownText s) : nk (lowerAscii s) = none := by
  unfold nk
  split
  · rfl
  · rename_i hodd
    exact nameKey_of_unknown h hodd

/-- Reading of a value, as a function. -/
def rv : Tok → Option Val
  | .ident s => some (.ident s)
  | .val ty n => some (.other ty n)
  | _ => none

theorem rv_text {t : Tok} {v : Val} (h : ValText t v) : rv t = some v := by cases h <;> rfl

/-- Reading of an operator, as a function. -/
def ro : List Tok → Option (Cmp × List Tok)
  | .delim '=' :: rest => some (.eq, rest)
  | .delim '>' :: .delim '=' :: rest => some (.ge, rest)
  | .delim '>' :: rest => some (.gt, rest)
  | .delim '<' :: .delim '=' :: rest => some (.le, rest)
  | .delim '<' :: rest => some (.lt, rest)
  | _ => none

theorem ro_text {ops : List Tok} {o : Cmp} (h : OpText ops o) (t : Tok) (ht : t ≠ .delim '=') (rest : List Tok) :
    ro (ops ++ t :: rest) = some (o, t :: rest) := by
  cases h with
  | gt => simp only [List.cons_append, List.nil_append]; unfold ro; split <;> simp_all
  | lt => simp only [List.cons_append, List.nil_append]; unfold ro; split <;> simp_all
  | eq => simp [ro]
  | ge => simp [ro]
  | le => simp [ro]

/-- Meaning of the tokens of a feature, as a function. -/
def fm (ts : List Tok) : Option (Device → K3) :=
  match ts with
  | [.ident s] =>
    match nk (lowerAscii s) with
    | some (id, none) => some fun d => d.truthy id
    | none => some fun _ => .u
    | _ => none
  | [.ident s, .colon, tv] =>
    match nk (lowerAscii s), rv tv with
    | some (id, none), some v => some fun d => d.plainName (.standard id) v
    | some (id, some op), some v => some fun d => d.rel id op v
    | none, some _ => some fun _ => .u
    | _, _ => none
  | .ident s :: rest =>
    match ro rest with
    | some (op, [tv]) =>
      match nk (lowerAscii s), rv tv with
      | some (id, none), some v => some fun d => d.rel id op v
      | none, some _ => some fun _ => .u
      | _, _ => none
    | _ => none
  | tv :: rest =>
    match ro rest with
    | some (op, [.ident s]) =>
      match nk (lowerAscii s), rv tv with
      | some (id, none), some v => some fun d => d.rel id op.flip v
      | none, some _ => some fun _ => .u
      | _, _ => none
    | some (op, .ident s :: rest') =>
      match ro rest' with
      | some (op', [tv']) =>
        match nk (lowerAscii s), rv tv, rv tv' with
        | some (id, none), some v, some v' => some fun d => (d.rel id op.flip v).and (d.rel id op' v')
        | none, some _, some _ => some fun _ => .u
        | _, _, _ => none
      | _ => none
    | _ => none
  | [] => none

theorem ValText.ne_eq {t : Tok} {v : Val} (h : ValText t v) : t ≠ .delim '=' := by cases h <;> simp

theorem fm_range {s : Str} {ops : List Tok} {o : Cmp} {tv : Tok} {v : Val} (ho : OpText ops o) (hv : ValText tv v) :
    fm ([.ident s] ++ ops ++ [tv]) = match nk (lowerAscii s) with
      | some (id, none) => some fun d => d.rel id o v
      | none => some fun _ => .u
      | _ => none := by
  have h := ro_text ho tv hv.ne_eq []
  simp only [List.cons_append, List.nil_append]
  cases ho <;> simp_all [fm, rv_text hv] <;> split <;> simp_all

theorem fm_flip {s : Str} {ops : List Tok} {o : Cmp} {tv : Tok} {v : Val} (ho : OpText ops o) (hv : ValText tv v)
    (hx : NotIdent tv) :
    fm ([tv] ++ ops ++ [.ident s]) = match nk (lowerAscii s) with
      | some (id, none) => some fun d => d.rel id o.flip v
      | none => some fun _ => .u
      | _ => none := by
  have h := ro_text ho (.ident s) (by simp) []
  cases hv with
  | ident x => exact absurd rfl (hx x)
  | other ty k =>
    simp only [List.cons_append, List.nil_append, fm, h, rv]
    split <;> simp_all

theorem fm_interval {s : Str} {ops ops' : List Tok} {o o' : Cmp} {tv tv' : Tok} {v v' : Val} (ho : OpText ops o)
    (ho' : OpText ops' o') (hv : ValText tv v) (hx : NotIdent tv) (hv' : ValText tv' v') :
    fm ([tv] ++ ops ++ [.ident s] ++ ops' ++ [tv']) = match nk (lowerAscii s) with
      | some (id, none) => some fun d => (d.rel id o.flip v).and (d.rel id o' v')
      | none => some fun _ => .u
      | _ => none := by
  have h := ro_text ho (.ident s) (by simp) (ops' ++ [tv'])
  have h' := ro_text ho' tv' hv'.ne_eq []
  cases hv with
  | ident x => exact absurd rfl (hx x)
  | other ty k =>
    have hrv : rv (.val ty k) = some (.other ty k) := rfl
    have hrv' := rv_text hv'
    simp only [List.cons_append, List.nil_append, List.append_assoc, fm, h]
    cases ho' <;> simp only [List.cons_append, List.nil_append] at h' ⊢ <;> simp only [h', hrv, hrv'] <;>
      split <;> simp_all

theorem fm_means {ts : List Tok} {m : Device → K3} (h : FeatureMeans ts m) : fm ts = some m := by
  cases h with
  | boolean ht => simp [fm, nk_text ht]
  | booleanUnknown hu => simp [fm, nk_unknown hu]
  | plain ht hv => simp [fm, nk_text ht, rv_text hv]
  | minmax ht hv => simp [fm, nk_text ht, rv_text hv]
  | plainUnknown hu hv => simp [fm, nk_unknown hu, rv_text hv]
  | range ht ho hv => rw [fm_range ho hv, nk_text ht]
  | rangeUnknown hu ho hv => rw [fm_range ho hv, nk_unknown hu]
  | rangeFlip ht ho hv hx => rw [fm_flip ho hv hx, nk_text ht]
  | rangeFlipUnknown hu ho hv hx => rw [fm_flip ho hv hx, nk_unknown hu]
  | interval ht ho ho' hv hx hv' => rw [fm_interval ho ho' hv hx hv', nk_text ht]
  | intervalUnknown hu ho ho' hv hx hv' => rw [fm_interval ho ho' hv hx hv', nk_unknown hu]

theorem FeatureMeans.no_paren {ts : List Tok} {m : Device → K3} (h : FeatureMeans ts m) :
    ∀ x, Tok.paren x ∉ ts := by
  intro x hx
  have op : ∀ {ops o}, OpText ops o → Tok.paren x ∉ ops := by intro ops o h; cases h <;> simp
  have va : ∀ {t v}, ValText t v → Tok.paren x ≠ t := by intro t v h; cases h <;> simp
  cases h with
  | boolean => simp at hx
  | booleanUnknown => simp at hx
  | plain _ hv => simp [va hv] at hx
  | minmax _ hv => simp [va hv] at hx
  | plainUnknown _ hv => simp [va hv] at hx
  | range _ ho hv => simp [va hv, op ho] at hx
  | rangeUnknown _ ho hv => simp [va hv, op ho] at hx
  | rangeFlip _ ho hv => simp [va hv, op ho] at hx
  | rangeFlipUnknown _ ho hv => simp [va hv, op ho] at hx
  | interval _ ho ho' hv _ hv' => simp [va hv, op ho, va hv', op ho'] at hx
  | intervalUnknown _ ho ho' hv _ hv' => simp [va hv, op ho, va hv', op ho'] at hx

theorem InParens.is_paren {t : Tok} {m : Device → K3} (h : InParens t m) : ∃ ts, t = .paren ts := by
  cases h <;> exact ⟨_, rfl⟩

theorem CondNoOr.has_paren {ts : List Tok} {m : Device → K3} (h : CondNoOr ts m) : ∃ x, Tok.paren x ∈ ts := by
  cases h with
  | single h => obtain ⟨x, rfl⟩ := h.is_paren; exact ⟨x, by simp⟩
  | not _ h => obtain ⟨x, rfl⟩ := h.is_paren; exact ⟨x, by simp⟩
  | and h => obtain ⟨x, rfl⟩ := h.is_paren; exact ⟨x, by simp⟩

theorem CondMeans.has_paren {ts : List Tok} {m : Device → K3} (h : CondMeans ts m) : ∃ x, Tok.paren x ∈ ts := by
  cases h with
  | withoutOr h => exact h.has_paren
  | or h => obtain ⟨x, rfl⟩ := h.is_paren; exact ⟨x, by simp⟩

theorem Kw.distinct {s a b : Str} (h : Kw s a) (h' : Kw s b) : a = b := by
  unfold Kw at h h'; rw [← h, ← h']

theorem AndTail.starts {ts : List Tok} {m : Device → K3} (h : AndTail ts m) :
    ∃ s rest, ts = .ident s :: rest ∧ Kw s cs!"and" := by
  cases h <;> exact ⟨_, _, rfl, by assumption⟩

theorem OrTail.starts {ts : List Tok} {m : Device → K3} (h : OrTail ts m) :
    ∃ s rest, ts = .ident s :: rest ∧ Kw s cs!"or" := by
  cases h <;> exact ⟨_, _, rfl, by assumption⟩

mutual
theorem InParens.unique {t : Tok} {m m' : Device → K3} (h : InParens t m) (h' : InParens t m') : m = m' := by
  match h with
  | .cond h =>
    cases h' with
    | cond h' => exact CondMeans.unique h h'
    | feature h' =>
      obtain ⟨x, hx⟩ := h.has_paren
      exact absurd hx (h'.no_paren x)
  | .feature h =>
    cases h' with
    | cond h' =>
      obtain ⟨x, hx⟩ := h'.has_paren
      exact absurd hx (h.no_paren x)
    | feature h' =>
      have := fm_means h
      rw [fm_means h'] at this
      simpa using this.symm
theorem CondMeans.unique {ts : List Tok} {m m' : Device → K3} (h : CondMeans ts m) (h' : CondMeans ts m') :
    m = m' := by
  match h with
  | .withoutOr h =>
    cases h' with
    | withoutOr h' => exact CondNoOr.unique h h'
    | or hp ht =>
      obtain ⟨s, rest, rfl, hk⟩ := ht.starts
      obtain ⟨x, rfl⟩ := hp.is_paren
      cases h with
      | and _ ht' =>
        obtain ⟨s', rest', he, hk'⟩ := ht'.starts
        cases he
        exact absurd (hk.distinct hk') (by decide)
  | .or hp ht =>
    cases h' with
    | withoutOr h' =>
      obtain ⟨s, rest, rfl, hk⟩ := ht.starts
      obtain ⟨x, rfl⟩ := hp.is_paren
      cases h' with
      | and _ ht' =>
        obtain ⟨s', rest', he, hk'⟩ := ht'.starts
        cases he
        exact absurd (hk.distinct hk') (by decide)
    | or hp' ht' => rw [InParens.unique hp hp', OrTail.unique ht ht']
theorem CondNoOr.unique {ts : List Tok} {m m' : Device → K3} (h : CondNoOr ts m) (h' : CondNoOr ts m') :
    m = m' := by
  match h with
  | .single hp =>
    cases h' with
    | single hp' => exact InParens.unique hp hp'
    | and _ ht => obtain ⟨s, rest, h, _⟩ := ht.starts; cases h
  | .not hk hp =>
    cases h' with
    | not _ hp' => rw [InParens.unique hp hp']
    | and hp' _ => obtain ⟨x, h⟩ := hp'.is_paren; cases h
  | .and hp ht =>
    cases h' with
    | single hp' => obtain ⟨s, rest, h, _⟩ := ht.starts; cases h
    | not _ hp' => obtain ⟨x, h⟩ := hp.is_paren; cases h
    | and hp' ht' => rw [InParens.unique hp hp', AndTail.unique ht ht']
theorem AndTail.unique {ts : List Tok} {m m' : Device → K3} (h : AndTail ts m) (h' : AndTail ts m') : m = m' := by
  match h with
  | .last _ hp =>
    cases h' with
    | last _ hp' => exact InParens.unique hp hp'
    | more _ _ ht => obtain ⟨s, rest, h, _⟩ := ht.starts; cases h
  | .more _ hp ht =>
    cases h' with
    | last _ hp' => obtain ⟨s, rest, h, _⟩ := ht.starts; cases h
    | more _ hp' ht' => rw [InParens.unique hp hp', AndTail.unique ht ht']
theorem OrTail.unique {ts : List Tok} {m m' : Device → K3} (h : OrTail ts m) (h' : OrTail ts m') : m = m' := by
  match h with
  | .last _ hp =>
    cases h' with
    | last _ hp' => exact InParens.unique hp hp'
    | more _ _ ht => obtain ⟨s, rest, h, _⟩ := ht.starts; cases h
  | .more _ hp ht =>
    cases h' with
    | last _ hp' => obtain ⟨s, rest, h, _⟩ := ht.starts; cases h
    | more _ hp' ht' => rw [InParens.unique hp hp', OrTail.unique ht ht']
end

theorem TypeText.unique {s : Str} {m m' : MediaType} (h : TypeText s m) (h' : TypeText s m') : m = m' := by
  cases h <;> cases h' <;> first
    | rfl
    | (rename_i a b; exact absurd (a.distinct b) (by decide))
    | contradiction

theorem AndCondOpt.unique {ts : List Tok} {m m' : Device → K3} (h : AndCondOpt ts m) (h' : AndCondOpt ts m') :
    m = m' := by
  cases h <;> cases h'
  · rfl
  · rename_i h _ h'; exact CondNoOr.unique h h'

theorem CondMeans.head {ts : List Tok} {m : Device → K3} (h : CondMeans ts m) :
    (∃ x rest, ts = .paren x :: rest) ∨ (∃ s x, ts = [.ident s, .paren x] ∧ Kw s cs!"not") := by
  cases h with
  | withoutOr h =>
    cases h with
    | single hp => obtain ⟨x, rfl⟩ := hp.is_paren; exact .inl ⟨x, _, rfl⟩
    | not hk hp => obtain ⟨x, rfl⟩ := hp.is_paren; exact .inr ⟨_, x, rfl, hk⟩
    | and hp => obtain ⟨x, rfl⟩ := hp.is_paren; exact .inl ⟨x, _, rfl⟩
  | or hp => obtain ⟨x, rfl⟩ := hp.is_paren; exact .inl ⟨x, _, rfl⟩

theorem QueryMeans.unique {ts : List Tok} {m m' : Device → K3} (h : QueryMeans ts m) (h' : QueryMeans ts m') :
    m = m' := by
  have mix : ∀ {m : Device → K3} {k : Str} {rest : List Tok}, CondMeans (.ident k :: rest) m →
      Kw k cs!"not" ∧ ∃ x, rest = [.paren x] := by
    intro m k rest h
    rcases h.head with ⟨x, r, e⟩ | ⟨s, x, e, hk⟩
    · cases e
    · cases e; exact ⟨hk, x, rfl⟩
  cases h with
  | cond h =>
    cases h' with
    | cond h' => exact h.unique h'
    | type hn => exact absurd (mix h).1 hn
    | only => obtain ⟨_, x, hx⟩ := mix h; cases hx
    | not => obtain ⟨_, x, hx⟩ := mix h; cases hx
  | type hn ho ht hc =>
    cases h' with
    | cond h' => exact absurd (mix h').1 hn
    | type _ _ ht' hc' => rw [ht.unique ht', hc.unique hc']
    | only hk => exact absurd hk ho
    | not hk => exact absurd hk hn
  | only hk ht hc =>
    cases h' with
    | cond h' => obtain ⟨_, x, hx⟩ := mix h'; cases hx
    | type _ ho => exact absurd hk ho
    | only _ ht' hc' => rw [ht.unique ht', hc.unique hc']
    | not hk' => exact absurd (hk.distinct hk') (by decide)
  | not hk ht hc =>
    cases h' with
    | cond h' => obtain ⟨_, x, hx⟩ := mix h'; cases hx
    | type hn => exact absurd hk hn
    | only hk' => exact absurd (hk.distinct hk') (by decide)
    | not _ ht' hc' => rw [ht.unique ht', hc.unique hc']

mutual
theorem CondNoOr.no_comma {ts : List Tok} {m : Device → K3} (h : CondNoOr ts m) : ∀ x ∈ ts, x ≠ Tok.comma := by
  match h with
  | .single hp => obtain ⟨x, rfl⟩ := hp.is_paren; simp
  | .not _ hp => obtain ⟨x, rfl⟩ := hp.is_paren; simp
  | .and hp ht =>
    obtain ⟨x, rfl⟩ := hp.is_paren
    have := AndTail.no_comma ht
    simp only [List.mem_cons]
    rintro t (rfl | ht)
    · simp
    · exact this t ht
theorem AndTail.no_comma {ts : List Tok} {m : Device → K3} (h : AndTail ts m) : ∀ x ∈ ts, x ≠ Tok.comma := by
  match h with
  | .last _ hp => obtain ⟨x, rfl⟩ := hp.is_paren; simp
  | .more _ hp ht =>
    obtain ⟨x, rfl⟩ := hp.is_paren
    have := AndTail.no_comma ht
    simp only [List.mem_cons]
    rintro t (rfl | rfl | ht)
    · simp
    · simp
    · exact this t ht
end

theorem OrTail.no_comma {ts : List Tok} {m : Device → K3} (h : OrTail ts m) : ∀ x ∈ ts, x ≠ Tok.comma := by
  match h with
  | .last _ hp => obtain ⟨x, rfl⟩ := hp.is_paren; simp
  | .more _ hp ht =>
    obtain ⟨x, rfl⟩ := hp.is_paren
    have := OrTail.no_comma ht
    simp only [List.mem_cons]
    rintro t (rfl | rfl | ht)
    · simp
    · simp
    · exact this t ht

theorem QueryMeans.no_comma {ts : List Tok} {m : Device → K3} (h : QueryMeans ts m) :
    ts ≠ [] ∧ ∀ x ∈ ts, x ≠ Tok.comma := by
  have ac : ∀ {ts m}, AndCondOpt ts m → ∀ x ∈ ts, x ≠ Tok.comma := by
    intro ts m h
    cases h with
    | none => simp
    | some _ h =>
      have := h.no_comma
      simp only [List.mem_cons]
      rintro t (rfl | ht)
      · simp
      · exact this t ht
  cases h with
  | cond h =>
    refine ⟨?_, ?_⟩
    · rintro rfl
      rcases h.head with ⟨_, _, h⟩ | ⟨_, _, h, _⟩ <;> cases h
    · cases h with
      | withoutOr h => exact h.no_comma
      | or hp ht =>
        obtain ⟨x, rfl⟩ := hp.is_paren
        have := ht.no_comma
        simp only [List.mem_cons]
        rintro t (rfl | ht)
        · simp
        · exact this t ht
  | type _ _ _ hc =>
    have := ac hc
    refine ⟨by simp, ?_⟩
    simp only [List.mem_cons]
    rintro t (rfl | ht)
    · simp
    · exact this t ht
  | only _ _ hc =>
    have := ac hc
    refine ⟨by simp, ?_⟩
    simp only [List.mem_cons]
    rintro t (rfl | rfl | ht)
    · simp
    · simp
    · exact this t ht
  | not _ _ hc =>
    have := ac hc
    refine ⟨by simp, ?_⟩
    simp only [List.mem_cons]
    rintro t (rfl | rfl | ht)
    · simp
    · simp
    · exact this t ht

theorem ListMeans.unique {ts : List Tok} {p p' : Device → Prop} (h : ListMeans ts p) (h' : ListMeans ts p') :
    p = p' := by
  induction h generalizing p' with
  | empty =>
    generalize ht : ([] : List Tok) = ts at h'
    cases h' with
    | empty => rfl
    | single h => exact absurd ht.symm h.no_comma.1
    | cons => simp at ht
  | @single ts m h =>
    generalize ht : ts = ts' at h'
    cases h' with
    | empty => exact absurd ht h.no_comma.1
    | single h' => subst ht; rw [h.unique h']
    | cons =>
      subst ht
      exact absurd rfl (h.no_comma.2 .comma (by simp))
  | @cons ts m rest p h _ hne ih =>
    generalize ht : ts ++ [.comma] ++ rest = ts' at h'
    cases h' with
    | empty => simp at ht
    | single h' =>
      subst ht
      exact absurd rfl (h'.no_comma.2 .comma (by simp))
    | @cons ts2 m2 rest2 p2 h2 hl2 hne2 =>
      have e := congrArg splitComma ht
      simp only [List.append_assoc, List.cons_append, List.nil_append] at e
      rw [splitComma_append h.no_comma.2, splitComma_append h2.no_comma.2] at e
      simp only [Prod.mk.injEq, Option.some.injEq] at e
      obtain ⟨rfl, rfl⟩ := e
      rw [h.unique h2, ih hl2]

end Verif.Media
