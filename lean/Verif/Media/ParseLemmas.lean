import Verif.Media.TextLemmas
/-! Relational description of the condition parser; the parser is sound and complete for it, and it agrees with the
specification's text meaning. -/
namespace Verif.Media

mutual
/-- One parenthesised block parses to a condition. -/
inductive PParens : Tok → Cond → Prop where
  | cond {ts c} : PCond true ts c → PParens (.paren ts) c
  | feature {ts f} : Feature.parse ts = .ok f [] → PParens (.paren ts) (.feature f)
/-- A token list parses to a condition. -/
inductive PCond : Bool → List Tok → Cond → Prop where
  | single {b t c} : PParens t c → PCond b [t] c
  | not {b s t c} : Kw s cs!"not" → PParens t c → PCond b [.ident s, t] (.not c)
  | and {b t c ts cs} : PParens t c → PTail .and ts cs → PCond b (t :: ts) (.op .and (c :: cs))
  | or {t c ts cs} : PParens t c → PTail .or ts cs → PCond true (t :: ts) (.op .or (c :: cs))
/-- One or more further operands. -/
inductive PTail : Operator → List Tok → List Cond → Prop where
  | last {o s t c} : Kw s o.word → PParens t c →
      PTail o [.ident s, t] [c]
  | more {o s t c ts cs} : Kw s o.word → PParens t c →
      PTail o ts cs → PTail o (.ident s :: t :: ts) (c :: cs)
end

/-! ### Feature token forms -/

theorem consumeOp_colon {b : Bool} {ts rest : List Tok} (h : consumeOp b ts = .ok none rest) :
    ts = .colon :: rest ∧ b = true := by
  unfold consumeOp at h
  cases b <;> split at h <;> simp_all

theorem consumeOp_op {b : Bool} {ts rest : List Tok} {op : Cmp} (h : consumeOp b ts = .ok (some op) rest) :
    ∃ ops, OpText ops op ∧ ts = ops ++ rest := by
  unfold consumeOp at h
  split at h
  · split at h <;> simp at h
  all_goals simp only [Res.ok.injEq, Option.some.injEq, reduceCtorEq] at h
  · obtain ⟨rfl, rfl⟩ := h; exact ⟨_, .eq, rfl⟩
  · obtain ⟨rfl, rfl⟩ := h; exact ⟨_, .ge, rfl⟩
  · obtain ⟨rfl, rfl⟩ := h; exact ⟨_, .gt, rfl⟩
  · obtain ⟨rfl, rfl⟩ := h; exact ⟨_, .le, rfl⟩
  · obtain ⟨rfl, rfl⟩ := h; exact ⟨_, .lt, rfl⟩

theorem Val.parse_ok {ts rest : List Tok} {v : Val} (h : Val.parse ts = .ok v rest) :
    ∃ t, ValText t v ∧ ts = t :: rest := by
  unfold Val.parse at h
  split at h <;> simp at h
  · obtain ⟨rfl, rfl⟩ := h; exact ⟨_, .ident _, rfl⟩
  · obtain ⟨rfl, rfl⟩ := h; exact ⟨_, .other _ _, rfl⟩

/-- The token forms accepted by the feature parser, with the parsed feature. -/
inductive FForm : List Tok → Feature → List Tok → Prop where
  | boolean {s n l rest} : Name.parse s = (n, l) → FForm (.ident s :: rest) (.boolean n) rest
  | plain {s n tv v rest} : Name.parse s = (n, none) → ValText tv v →
      FForm (.ident s :: .colon :: tv :: rest) (.plain n v) rest
  | minmax {s n o tv v rest} : Name.parse s = (n, some o) → ValText tv v → n.ftype.allowsRanges = true →
      FForm (.ident s :: .colon :: tv :: rest) (.range n o v) rest
  | range {s n o ops tv v rest} : Name.parse s = (n, none) → OpText ops o → ValText tv v →
      n.ftype.allowsRanges = true →
      FForm (.ident s :: (ops ++ tv :: rest)) (.range n o v) rest
  | flip {s n o ops tv v rest} : Name.parse s = (n, none) → OpText ops o → ValText tv v → (∀ x, tv ≠ .ident x) →
      n.ftype.allowsRanges = true →
      FForm (tv :: (ops ++ .ident s :: rest)) (.range n o.opposite v) rest
  | interval {s n o ops o' ops' tv v tv' v' rest} : Name.parse s = (n, none) → OpText ops o → OpText ops' o' →
      ValText tv v → ValText tv' v' → (∀ x, tv ≠ .ident x) → n.ftype.allowsRanges = true →
      FForm (tv :: (ops ++ .ident s :: (ops' ++ tv' :: rest))) (.interval n v o v' o') rest

theorem parseNameFirst_form {ts rest : List Tok} {f : Feature} (h : parseNameFirst ts = .ok f rest) :
    FForm ts f rest := by
  unfold parseNameFirst at h
  split at h
  · rename_i s rest0
    simp only at h
    split at h
    · rename_i op rest1 hop
      split at h
      · contradiction
      rename_i hop2
      split at h
      · rename_i v rest2 hv
        obtain ⟨tv, htv, rfl⟩ := Val.parse_ok hv
        split at h
        · contradiction
        split at h
        · rename_i o ho
          split at h
          · contradiction
          rename_i har
          simp only [Bool.not_eq_true', Bool.not_eq_false] at har
          cases h
          cases op with
          | none =>
            obtain ⟨rfl, _⟩ := consumeOp_colon hop
            exact .minmax (by simp at ho; rw [← ho]) htv har
          | some o' =>
            obtain ⟨ops, hops, rfl⟩ := consumeOp_op hop
            simp at ho; subst ho
            refine .range ?_ hops htv har
            have : (Name.parse s).2 = none := by
              simp at hop2; exact hop2
            rw [← this]
        · rename_i ho
          cases h
          have h1 : op = none := by cases op <;> simp_all
          subst h1
          simp at ho
          obtain ⟨rfl, _⟩ := consumeOp_colon hop
          exact .plain (by rw [← ho]) htv
      · contradiction
      · contradiction
    · cases h
      exact .boolean rfl
  · contradiction

theorem OpText.no_ident {ops : List Tok} {o : Cmp} (h : OpText ops o) (rest : List Tok) :
    findName (ops ++ rest) = findName rest := by
  cases h <;> simp [findName]

/-- When the name-first parser fails softly on tokens starting with an identifier, the value-first parser fails too. -/
theorem parseNameFirst_err_ident {s : Str} {rest : List Tok} (h : parseNameFirst (.ident s :: rest) = .err)
    {f : Feature} {rest' : List Tok} : parseValueFirst (.ident s :: rest) ≠ .ok f rest' := by
  intro hv
  unfold parseNameFirst at h
  simp only at h
  split at h
  · rename_i op rest1 hop
    split at h
    · contradiction
    split at h
    · split at h
      · contradiction
      · split at h
        · split at h <;> contradiction
        · contradiction
    · rename_i hverr
      -- the value after the operator does not parse; value-first wants an identifier there
      cases op with
      | none =>
        obtain ⟨rfl, _⟩ := consumeOp_colon hop
        simp [parseValueFirst, Val.parse, consumeOp] at hv
        split at hv <;> simp at hv
      | some o =>
        unfold parseValueFirst at hv
        split at hv
        · contradiction
        · contradiction
        · simp only [Val.parse] at hv
          have hop' : consumeOp false rest = .ok (some o) rest1 := by
            unfold consumeOp at hop ⊢
            split at hop <;> simp_all
          simp only [hop'] at hv
          split at hv
          · simp [Val.parse] at hverr
          · contradiction
    · contradiction
  · contradiction

theorem parseValueFirst_form {ts rest : List Tok} {f : Feature} (hn : parseNameFirst ts = .err)
    (h : parseValueFirst ts = .ok f rest) : FForm ts f rest := by
  have h0 := h
  unfold parseValueFirst at h
  split at h
  · contradiction
  · contradiction
  · rename_i name hname
    split at h
    · rename_i value rest1 hv
      obtain ⟨tv, htv, rfl⟩ := Val.parse_ok hv
      have htv' : ∀ x, tv ≠ .ident x := by
        rintro x rfl
        exact parseNameFirst_err_ident hn h0
      have hfind : ∀ r, findName (tv :: r) = findName r := by
        cases htv with
        | ident s => exact absurd rfl (htv' s)
        | other => intro r; rfl
      split at h
      · rename_i o rest2 ho
        obtain ⟨ops, hops, rfl⟩ := consumeOp_op ho
        split at h
        · rename_i s rest3
          have hp : Name.parse s = (name, none) := by
            rw [hfind, hops.no_ident] at hname
            simpa [findName] using hname
          split at h
          · contradiction
          rename_i hguard
          have har : name.ftype.allowsRanges = true := by
            revert hguard; cases name.ftype.allowsRanges <;> simp
          split at h
          · rename_i endOp rest4 hend
            obtain ⟨ops', hops', rfl⟩ := consumeOp_op hend
            split at h
            · contradiction
            split at h
            · rename_i ev rest5 hev
              obtain ⟨tv', htv2, rfl⟩ := Val.parse_ok hev
              split at h
              · contradiction
              · cases h
                exact .interval hp hops hops' htv htv2 htv' har
            · contradiction
          · cases h
            exact .flip hp hops htv htv' har
        · contradiction
      · contradiction
    · contradiction

theorem Feature.parse_form {ts rest : List Tok} {f : Feature} (h : Feature.parse ts = .ok f rest) :
    FForm ts f rest := by
  unfold Feature.parse at h
  split at h
  · rename_i hn
    cases h
    exact parseNameFirst_form hn
  · contradiction
  · rename_i hn
    exact parseValueFirst_form hn h

/-! ### Feature text meaning -/

/-- The first identifier of a token list: the name, in every form of a media feature. -/
def firstIdent : List Tok → Option Str
  | [] => none
  | .ident s :: _ => some s
  | _ :: ts => firstIdent ts

/-- The first identifier is not one of the two odd names (see `oddNames`). -/
def NoOdd (ts : List Tok) : Prop := ∀ s, firstIdent ts = some s → lowerAscii s ∉ oddNames

theorem firstIdent_val {tv : Tok} {v : Val} (hv : ValText tv v) (h : ∀ x, tv ≠ .ident x) (ts : List Tok) :
    firstIdent (tv :: ts) = firstIdent ts := by
  cases hv with
  | ident s => exact absurd rfl (h s)
  | other => rfl

theorem firstIdent_ops {ops : List Tok} {o : Cmp} (h : OpText ops o) (ts : List Tok) :
    firstIdent (ops ++ ts) = firstIdent ts := by
  cases h <;> rfl

theorem Cmp.opposite_eq_flip (o : Cmp) : o.opposite = o.flip := by cases o <;> rfl

theorem unknown_rel (d : Device) {s : Str} {n : Name} (h : Name.parse s = (.custom s, none) ∨ Name.parse s = (.unknown s, none))
    {l} (hn : Name.parse s = (n, l)) : l = none ∧ (∀ o v, d.relName n o v = .u) ∧ (∀ v, d.plainName n v = .u) ∧
      Feature.eval d (.boolean n) = .u := by
  rcases h with h | h <;> (rw [h] at hn; cases hn; refine ⟨rfl, fun _ _ => rfl, fun _ => rfl, rfl⟩)

theorem FForm.means {ts : List Tok} {f : Feature} (h : FForm ts f []) (hodd : NoOdd ts) :
    FeatureMeans ts (fun d => f.eval d) ∨ ∃ s, ts = [.ident s] ∧ ∃ id o, NameText (lowerAscii s) id (some o) := by
  generalize hr : ([] : List Tok) = rest at h
  cases h with
  | @boolean s n l _ hp =>
    subst hr
    rcases Name.parse_cases s (hodd s rfl) with ⟨id, c, ht, hp'⟩ | ⟨hu, hp'⟩
    · rw [hp'] at hp; cases hp
      cases l with
      | none => exact .inl (.boolean ht)
      | some o => exact .inr ⟨s, rfl, id, o, ht⟩
    · have := fun d => (unknown_rel d hp' hp).2.2.2
      simp only [this]
      exact .inl (.booleanUnknown hu)
  | @plain s n tv v _ hp hv =>
    subst hr
    rcases Name.parse_cases s (hodd s rfl) with ⟨id, c, ht, hp'⟩ | ⟨hu, hp'⟩
    · rw [hp'] at hp; cases hp
      exact .inl (.plain ht hv)
    · have := fun d => (unknown_rel d hp' hp).2.2.1
      simp only [Feature.eval, this]
      exact .inl (.plainUnknown hu hv)
  | @minmax s n o tv v _ hp hv har =>
    subst hr
    rcases Name.parse_cases s (hodd s rfl) with ⟨id, c, ht, hp'⟩ | ⟨hu, hp'⟩
    · rw [hp'] at hp; cases hp
      exact .inl (.minmax ht hv)
    · exact absurd (unknown_rel ⟨.all, fun _ _ => none, fun _ _ => .u, fun _ => .u⟩ hp' hp).1 (by simp)
  | @range s n o ops tv v _ hp ho hv har =>
    subst hr
    rcases Name.parse_cases s (hodd s rfl) with ⟨id, c, ht, hp'⟩ | ⟨hu, hp'⟩
    · rw [hp'] at hp; cases hp
      exact .inl (.range ht ho hv)
    · have := fun d => (unknown_rel d hp' hp).2.1
      simp only [Feature.eval, this]
      exact .inl (.rangeUnknown hu ho hv)
  | @flip s n o ops tv v _ hp ho hv hx har =>
    subst hr
    rcases Name.parse_cases s (hodd s (by rw [firstIdent_val hv hx, firstIdent_ops ho]; rfl)) with ⟨id, c, ht, hp'⟩ | ⟨hu, hp'⟩
    · rw [hp'] at hp; cases hp
      rw [Cmp.opposite_eq_flip]
      exact .inl (.rangeFlip ht ho hv hx)
    · have := fun d => (unknown_rel d hp' hp).2.1
      simp only [Feature.eval, this]
      exact .inl (.rangeFlipUnknown hu ho hv hx)
  | @interval s n o ops o' ops' tv v tv' v' _ hp ho ho' hv hv' hx har =>
    subst hr
    rcases Name.parse_cases s (hodd s (by rw [firstIdent_val hv hx, firstIdent_ops ho]; rfl)) with ⟨id, c, ht, hp'⟩ | ⟨hu, hp'⟩
    · rw [hp'] at hp; cases hp
      have := FeatureMeans.interval ht ho ho' hv hx hv'
      simp only [List.append_assoc, List.cons_append, List.nil_append] at this
      exact .inl this
    · have := fun d => (unknown_rel d hp' hp).2.1
      simp only [Feature.eval, this]
      have := FeatureMeans.intervalUnknown hu ho ho' hv hx hv'
      simp only [List.append_assoc, List.cons_append, List.nil_append] at this
      exact .inl this

end Verif.Media
