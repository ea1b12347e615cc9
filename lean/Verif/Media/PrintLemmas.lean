import Verif.Media.CondLemmas
/-! The printer's output parses back, to a condition with the same meaning. -/
namespace Verif.Media

/-! ### Well-formedness: the data the parser produces, minus what the code prints wrongly -/

/-- Names as the parser produces them. -/
def NameWF : Name → Prop
  | .standard _ => True
  | .custom s => s.take 2 = cs!"--"
  | .unknown s => s.take 2 ≠ cs!"--" ∧ UnknownText s ∧ lowerAscii s ∉ oddNames

/-- Features as the parser produces them: value types fit the feature, comparisons only on range features, the two
operators of an interval point the same way, an interval starts with a value that is not an identifier. -/
def FeatureWF : Feature → Prop
  | .plain n v => NameWF n ∧ v.checkType n.ftype = true
  | .boolean n => NameWF n
  | .range n _ v => NameWF n ∧ v.checkType n.ftype = true ∧ n.ftype.allowsRanges = true
  | .interval n a oa b ob => NameWF n ∧ a.checkType n.ftype = true ∧ b.checkType n.ftype = true ∧
      n.ftype.allowsRanges = true ∧ matchingOps oa ob = true ∧ ∀ x, a ≠ .ident x

mutual
/-- Conditions for which printing keeps the meaning: no raw tokens, no empty operations, and no `not` directly in
front of an equality comparison (which the code prints without the `not`). -/
def CondWF : Cond → Prop
  | .feature f => FeatureWF f
  | .not c => CondWF c ∧ ∀ n v, c ≠ .feature (.range n .eq v)
  | .op _ cs => cs ≠ [] ∧ CondsWF cs
  | .unknown _ => False
/-- All conditions of a list. -/
def CondsWF : List Cond → Prop
  | [] => True
  | c :: cs => CondWF c ∧ CondsWF cs
end

/-! ### Names -/

theorem lower_name (id : FeatureId) : lowerAscii id.name = id.name := by cases id <;> decide +kernel

theorem nameText_name (id : FeatureId) : NameText (lowerAscii id.name) id none := by
  rw [lower_name]; exact .bare id

theorem Name.parse_print (n : Name) (h : NameWF n) : Name.parse n.print = (n, none) := by
  cases n with
  | standard id => exact Name.parse_standard (nameText_name id)
  | custom s =>
    simp only [NameWF] at h
    rw [Name.print, Name.parse_eq]
    simp [h]
  | unknown s =>
    simp only [NameWF] at h
    rw [Name.print, Name.parse_eq, nameKey_of_unknown h.2.1 h.2.2]
    simp [h.1]

theorem lower_not_odd (n : Name) (h : NameWF n) : lowerAscii n.print ∉ oddNames := by
  cases n with
  | standard id => rw [Name.print, lower_name]; cases id <;> decide +kernel
  | custom s =>
    simp only [NameWF] at h
    intro hm
    have h2 : (lowerAscii s).take 2 = cs!"--" := by rw [← lowerAscii_take, h]; decide
    simp only [Name.print] at hm
    simp only [oddNames, List.mem_cons, List.not_mem_nil, or_false] at hm
    rcases hm with hm | hm <;> rw [hm] at h2 <;> exact absurd h2 (by decide)
  | unknown s => exact h.2.2

/-- The two prefixes with their comparisons. -/
inductive MinMax : Str → Cmp → Prop where
  | min : MinMax cs!"min-" .ge
  | max : MinMax cs!"max-" .le

theorem no_bare_prefix (id : FeatureId) : id.name.take 4 ≠ cs!"min-" ∧ id.name.take 4 ≠ cs!"max-" := by
  cases id <;> decide +kernel

theorem parse_prefixed {pre : Str} {op : Cmp} (hp : MinMax pre op) (n : Name) (h : NameWF n) :
    lowerAscii (n.printPrefixed pre) ∉ oddNames ∧
    ((∃ id, n = .standard id ∧ Name.parse (n.printPrefixed pre) = (.standard id, some op)) ∨
     ((∀ id, n ≠ .standard id) ∧
       Name.parse (n.printPrefixed pre) = (.unknown (n.printPrefixed pre), none))) := by
  have unk : ∀ s, UnknownText s →
      lowerAscii (pre ++ s) ∉ oddNames ∧ nameKey (lowerAscii (pre ++ s)) = none := by
    intro s hu
    have hpre : lowerAscii pre = pre := by cases hp <;> decide
    have hlen : pre.length = 4 := by cases hp <;> rfl
    have hodd : lowerAscii (pre ++ s) ∉ oddNames := by
      intro hm
      rw [lowerAscii_append, hpre] at hm
      have : lowerAscii s = FeatureId.webKitDevicePixelRatio.name := by
        simp only [oddNames, List.mem_cons, List.not_mem_nil, or_false] at hm
        rcases hm with hm | hm
        · have := congrArg (List.drop 4) hm
          rw [← hlen, List.drop_left] at this
          rw [this, hlen]; decide
        · have := congrArg (List.drop 4) hm
          rw [← hlen, List.drop_left] at this
          rw [this, hlen]; decide
      exact hu .webKitDevicePixelRatio none (this ▸ .bare _)
    refine ⟨hodd, ?_⟩
    cases hk : nameKey (lowerAscii (pre ++ s)) with
    | none => rfl
    | some p =>
      obtain ⟨id, cm⟩ := p
      have ht := text_of_nameKey hk hodd
      rw [lowerAscii_append, hpre] at ht
      exfalso
      generalize hl : pre ++ lowerAscii s = l at ht
      have htake : l.take 4 = pre := by rw [← hl, ← hlen, List.take_left]
      have hdrop : l.drop 4 = lowerAscii s := by rw [← hl, ← hlen, List.drop_left]
      have hpp : pre = cs!"min-" ∨ pre = cs!"max-" := by cases hp <;> simp
      cases ht with
      | bare =>
        rcases hpp with rfl | rfl
        · exact (no_bare_prefix id).1 htake
        · exact (no_bare_prefix id).2 htake
      | min => exact hu id none (hdrop ▸ NameText.bare id)
      | max => exact hu id none (hdrop ▸ NameText.bare id)
      | wkMin => rcases hpp with rfl | rfl <;> exact absurd htake (by decide)
      | wkMax => rcases hpp with rfl | rfl <;> exact absurd htake (by decide)
  have notdash : ∀ s, ¬ ((pre ++ s).take 2 == cs!"--") = true := by
    intro s
    cases hp <;> simp
  cases n with
  | standard id =>
    have key : NameText (lowerAscii ((Name.standard id).printPrefixed pre)) id (some op) ∧
        lowerAscii ((Name.standard id).printPrefixed pre) ∉ oddNames := by
      by_cases hid : id = .webKitDevicePixelRatio
      · subst hid
        cases hp with
        | min =>
          exact ⟨by
            have : lowerAscii ((Name.standard .webKitDevicePixelRatio).printPrefixed cs!"min-") =
              cs!"-webkit-min-device-pixel-ratio" := by decide
            rw [this]; exact .wkMin, by decide⟩
        | max =>
          exact ⟨by
            have : lowerAscii ((Name.standard .webKitDevicePixelRatio).printPrefixed cs!"max-") =
              cs!"-webkit-max-device-pixel-ratio" := by decide
            rw [this]; exact .wkMax, by decide⟩
      · have hpp : (Name.standard id).printPrefixed pre = pre ++ id.name := by
          cases id <;> first | exact absurd rfl hid | rfl
        have hpre : lowerAscii pre = pre := by cases hp <;> decide
        rw [hpp, lowerAscii_append, hpre, lower_name]
        constructor
        · cases hp with
          | min => exact .min id hid
          | max => exact .max id hid
        · cases hp <;> revert hid <;> cases id <;> decide +kernel
    exact ⟨key.2, .inl ⟨id, rfl, Name.parse_standard key.1⟩⟩
  | custom s =>
    simp only [NameWF] at h
    obtain ⟨h1, h2⟩ := unk s (unknown_of_dash h)
    simp only [Name.printPrefixed]
    refine ⟨h1, .inr ⟨by simp, ?_⟩⟩
    rw [Name.parse_eq]
    simp only [notdash s, Bool.false_eq_true, if_false, h2]
  | unknown s =>
    simp only [NameWF] at h
    obtain ⟨h1, h2⟩ := unk s h.2.1
    simp only [Name.printPrefixed]
    refine ⟨h1, .inr ⟨by simp, ?_⟩⟩
    rw [Name.parse_eq]
    simp only [notdash s, Bool.false_eq_true, if_false, h2]

theorem kw_not : Kw cs!"not" cs!"not" := by unfold Kw; decide
theorem kw_word (o : Operator) : Kw o.word o.word := by unfold Kw; cases o <;> decide

/-! ### Features -/

/-- One block that parses to a condition with meaning `m`, with clean tokens. -/
def Good (t : Tok) (m : Device → K3) : Prop := CleanTok t ∧ ∃ c, PParens t c ∧ ∀ d, c.eval d = m d

theorem Val.parse_print (v : Val) (rest : List Tok) : Val.parse (v.print :: rest) = .ok v rest := by
  cases v <;> rfl

theorem Val.print_clean (v : Val) : CleanTok v.print := by cases v <;> simp [Val.print, CleanTok]

theorem checkType_unknown (v : Val) : v.checkType .unknown = true := by
  cases v with
  | ident s => rfl
  | other ty n => cases ty <;> rfl

theorem parse_plain {s : Str} {n : Name} {v : Val} (hp : Name.parse s = (n, none))
    (hc : v.checkType n.ftype = true) :
    Feature.parse [.ident s, .colon, v.print] = .ok (.plain n v) [] := by
  simp [Feature.parse, parseNameFirst, hp, consumeOp, Val.parse_print, hc]

theorem parse_minmax {s : Str} {n : Name} {o : Cmp} {v : Val} (hp : Name.parse s = (n, some o))
    (hc : v.checkType n.ftype = true) (hr : n.ftype.allowsRanges = true) :
    Feature.parse [.ident s, .colon, v.print] = .ok (.range n o v) [] := by
  simp [Feature.parse, parseNameFirst, hp, consumeOp, Val.parse_print, hc, hr]

theorem consumeOp_print (b : Bool) (o : Cmp) (t : Tok) (ht : t ≠ .delim '=') (rest : List Tok) :
    consumeOp b (o.print ++ t :: rest) = .ok (some o) (t :: rest) := by
  cases o with
  | eq => simp [Cmp.print, consumeOp]
  | ge => simp [Cmp.print, consumeOp]
  | le => simp [Cmp.print, consumeOp]
  | gt =>
    simp only [Cmp.print, List.cons_append, List.nil_append]
    unfold consumeOp
    split <;> simp_all
  | lt =>
    simp only [Cmp.print, List.cons_append, List.nil_append]
    unfold consumeOp
    split <;> simp_all

theorem Val.print_ne (v : Val) : v.print ≠ .delim '=' := by cases v <;> simp [Val.print]

theorem parse_range {s : Str} {n : Name} {o : Cmp} {v : Val} (hp : Name.parse s = (n, none))
    (hc : v.checkType n.ftype = true) (hr : n.ftype.allowsRanges = true) :
    Feature.parse ([.ident s] ++ o.print ++ [v.print]) = .ok (.range n o v) [] := by
  have h := consumeOp_print true o v.print v.print_ne []
  simp only [List.cons_append, List.nil_append]
  simp [Feature.parse, parseNameFirst, hp, h, Val.parse_print, hc, hr]

theorem findName_ops (o : Cmp) (ts : List Tok) : findName (o.print ++ ts) = findName ts := by
  cases o <;> simp [Cmp.print, findName]

theorem parse_interval {s : Str} {n : Name} {oa ob : Cmp} {a b : Val} (hp : Name.parse s = (n, none))
    (hca : a.checkType n.ftype = true) (hcb : b.checkType n.ftype = true) (hr : n.ftype.allowsRanges = true)
    (hm : matchingOps oa ob = true) (hx : ∀ x, a ≠ .ident x) :
    Feature.parse ([a.print] ++ oa.print ++ [.ident s] ++ ob.print ++ [b.print]) =
      .ok (.interval n a oa b ob) [] := by
  have h1 := consumeOp_print false oa (.ident s) (by simp) (ob.print ++ [b.print])
  have h2 := consumeOp_print false ob b.print b.print_ne []
  simp only [List.append_assoc, List.cons_append, List.nil_append]
  cases a with
  | ident x => exact absurd rfl (hx x)
  | other ty k =>
    have hf : findName (Tok.val ty k :: (oa.print ++ .ident s :: (ob.print ++ [b.print]))) = some (n, none) := by
      simp [findName, findName_ops, hp]
    have hv := Val.parse_print b []
    have ha : ∀ r, Val.parse (Tok.val ty k :: r) = .ok (.other ty k) r := fun _ => rfl
    have hpv : (Val.other ty k).print = .val ty k := rfl
    have hnf : ∀ r, parseNameFirst (Tok.val ty k :: r) = .err := fun _ => rfl
    simp [Feature.parse, hnf, hpv, parseValueFirst, hf, ha, h1, hr, hca, h2, hm, hv, hcb]

theorem firstIdent_print_ops (o : Cmp) (ts : List Tok) : firstIdent (o.print ++ ts) = firstIdent ts := by
  cases o <;> rfl

theorem clean_ops (o : Cmp) : CleanToks o.print := by
  cases o <;> simp [Cmp.print, CleanToks, CleanTok]

theorem good_plain {s : Str} {n : Name} {v : Val} (hp : Name.parse s = (n, none))
    (hodd : lowerAscii s ∉ oddNames) (hc : v.checkType n.ftype = true) :
    Good (.paren [.ident s, .colon, v.print]) (fun d => d.plainName n v) := by
  refine ⟨?_, _, .feature (parse_plain hp hc), fun d => rfl⟩
  simp only [CleanTok, CleanToks, v.print_clean, and_true, true_and]
  exact ⟨fun s' h => by simp only [firstIdent, Option.some.injEq] at h; exact h ▸ hodd, by simp⟩

theorem good_minmax {pre : Str} {op : Cmp} (hmm : MinMax pre op) {n : Name} {v : Val} (hn : NameWF n)
    (hc : v.checkType n.ftype = true) (hr : n.ftype.allowsRanges = true) :
    Good (.paren [.ident (n.printPrefixed pre), .colon, v.print]) (fun d => d.relName n op v) := by
  obtain ⟨hodd, h⟩ := parse_prefixed hmm n hn
  have hclean : CleanTok (.paren [.ident (n.printPrefixed pre), .colon, v.print]) := by
    simp only [CleanTok, CleanToks, v.print_clean, and_true, true_and]
    exact ⟨fun s' h => by simp only [firstIdent, Option.some.injEq] at h; exact h ▸ hodd, by simp⟩
  refine ⟨hclean, ?_⟩
  rcases h with ⟨id, rfl, hp⟩ | ⟨hne, hp⟩
  · exact ⟨_, .feature (parse_minmax hp hc hr), fun d => rfl⟩
  · refine ⟨_, .feature (parse_plain hp (checkType_unknown v)), fun d => ?_⟩
    cases n with
    | standard id => exact absurd rfl (hne id)
    | custom => rfl
    | unknown => rfl

theorem plain_eq_rel (d : Device) (n : Name) (v : Val) (hr : n.ftype.allowsRanges = true) :
    d.plainName n v = d.relName n .eq v := by
  cases n with
  | standard id =>
    simp only [Name.ftype] at hr
    simp [Device.plainName, Device.relName, hr]
  | custom => rfl
  | unknown => rfl

theorem rel_not (d : Device) (n : Name) (o : Cmp) (v : Val) (h : o ≠ .eq) :
    (d.relName n o v).not = d.relName n o.negate v := by
  cases n with
  | standard id =>
    simp only [Device.relName, Device.rel]
    cases d.compare id v with
    | none => rfl
    | some r => cases o <;> cases r <;> first | exact absurd rfl h | rfl
  | custom => rfl
  | unknown => rfl

/-- A lone `not (..)` block (lowered `>`/`<`) or a plain block, as printed by `write_min_max`. -/
theorem writeMinMax_ok (op : Cmp) (n : Name) (v : Val) (hn : NameWF n) (hc : v.checkType n.ftype = true)
    (hr : n.ftype.allowsRanges = true) :
    (∃ t, writeMinMax op n v true = [t] ∧ Good t (fun d => d.relName n op v)) ∧
    ((op = .gt ∨ op = .lt) → ∃ t, writeMinMax op n v false = [kwNot, t] ∧
        Good t (fun d => (d.relName n op v).not)) ∧
    (¬ (op = .gt ∨ op = .lt) → ∃ t, writeMinMax op n v false = [t] ∧ Good t (fun d => d.relName n op v)) := by
  have hmin := good_minmax (v := v) MinMax.min hn hc hr
  have hmax := good_minmax (v := v) MinMax.max hn hc hr
  have hwrap : ∀ {t m}, Good t m → Good (.paren [kwNot, t]) (fun d => (m d).not) := by
    rintro t m ⟨hcl, c, hp, he⟩
    refine ⟨?_, _, .cond (.not (s := cs!"not") kw_not hp), fun d => ?_⟩
    · simp only [CleanTok, CleanToks, kwNot, hcl, and_true, true_and]
      refine ⟨fun s h => ?_, by simp⟩
      simp only [firstIdent, Option.some.injEq] at h
      rw [← h]; decide
    · simp only [Cond.eval, he]
  cases op with
  | gt =>
    refine ⟨⟨_, rfl, ?_⟩, fun _ => ⟨_, rfl, ?_⟩, fun h => absurd (.inl rfl) h⟩
    · obtain ⟨h1, c, h2, h3⟩ := hwrap hmax
      exact ⟨h1, c, h2, fun d => by rw [h3]; exact rel_not d n .le v (by simp)⟩
    · obtain ⟨h1, c, h2, h3⟩ := hmax
      exact ⟨h1, c, h2, fun d => by rw [h3]; exact (rel_not d n .gt v (by simp)).symm⟩
  | lt =>
    refine ⟨⟨_, rfl, ?_⟩, fun _ => ⟨_, rfl, ?_⟩, fun h => absurd (.inr rfl) h⟩
    · obtain ⟨h1, c, h2, h3⟩ := hwrap hmin
      exact ⟨h1, c, h2, fun d => by rw [h3]; exact rel_not d n .ge v (by simp)⟩
    · obtain ⟨h1, c, h2, h3⟩ := hmin
      exact ⟨h1, c, h2, fun d => by rw [h3]; exact (rel_not d n .lt v (by simp)).symm⟩
  | ge => exact ⟨⟨_, rfl, hmin⟩, fun h => absurd h (by simp), fun _ => ⟨_, rfl, hmin⟩⟩
  | le => exact ⟨⟨_, rfl, hmax⟩, fun h => absurd h (by simp), fun _ => ⟨_, rfl, hmax⟩⟩
  | eq =>
    have := good_plain (v := v) (Name.parse_print n hn) (lower_not_odd n hn) hc
    have h' : Good (.paren [.ident n.print, .colon, v.print]) (fun d => d.relName n .eq v) := by
      obtain ⟨h1, c, h2, h3⟩ := this
      exact ⟨h1, c, h2, fun d => by rw [h3]; exact plain_eq_rel d n v hr⟩
    exact ⟨⟨_, rfl, h'⟩, fun h => absurd h (by simp), fun _ => ⟨_, rfl, h'⟩⟩

/-- What a feature prints: one block; `not` and a block; or two blocks joined by `and`. -/
inductive FeatShape (t : PTargets) (f : Feature) : Prop where
  | block (x : Tok) : f.print t = [x] → (∀ p, f.needsParens t p = false) → Good x (fun d => f.eval d) → FeatShape t f
  | neg (x : Tok) : f.print t = [kwNot, x] → (∀ p, f.needsParens t p = true) →
      Good x (fun d => (f.eval d).not) → FeatShape t f
  | both (x y : Tok) (m m' : Device → K3) : f.print t = [x, kwAnd, y] →
      (∀ p, f.needsParens t p = (p != some .and)) → Good x m → Good y m' →
      (∀ d, f.eval d = (m d).and (m' d)) → FeatShape t f

theorem K3.not_not (a : K3) : a.not.not = a := by cases a <;> rfl

theorem feature_shape (t : PTargets) (f : Feature) (h : FeatureWF f) : FeatShape t f := by
  cases f with
  | plain n v =>
    simp only [FeatureWF] at h
    exact .block _ rfl (fun _ => rfl) (good_plain (Name.parse_print n h.1) (lower_not_odd n h.1) h.2)
  | boolean n =>
    simp only [FeatureWF] at h
    refine .block _ rfl (fun _ => rfl) ⟨?_, .feature (.boolean n), .feature ?_, fun d => ?_⟩
    · simp only [CleanTok, CleanToks, and_true, true_and]
      have hp := Name.parse_print n h
      refine ⟨fun s hs => ?_, fun s hs id o ht => ?_⟩
      · simp only [firstIdent, Option.some.injEq] at hs
        exact hs ▸ lower_not_odd n h
      · simp only [List.cons.injEq, Tok.ident.injEq, and_true] at hs
        subst hs
        rw [Name.parse_standard ht] at hp
        simp at hp
    · simp [Feature.parse, parseNameFirst, Name.parse_print n h, consumeOp]
    · rfl
  | range n op v =>
    simp only [FeatureWF] at h
    obtain ⟨hn, hc, hr⟩ := h
    by_cases hl : t.lowerRange = true
    · obtain ⟨_, h2, h3⟩ := writeMinMax_ok op n v hn hc hr
      by_cases hop : op = .gt ∨ op = .lt
      · obtain ⟨x, hx, hg⟩ := h2 hop
        refine .neg x (by simp [Feature.print, hl, hx]) (fun p => ?_) hg
        simp only [Feature.needsParens, hl, Bool.true_and]
        rcases hop with rfl | rfl <;> rfl
      · obtain ⟨x, hx, hg⟩ := h3 hop
        refine .block x (by simp [Feature.print, hl, hx]) (fun p => ?_) hg
        simp only [Feature.needsParens, hl, Bool.true_and]
        cases op <;> simp_all <;> rfl
    · refine .block _ (by simp [Feature.print, hl]; rfl) (fun p => by simp [Feature.needsParens, hl]) ⟨?_, .feature (.range n op v), .feature ?_, fun d => rfl⟩
      · simp only [CleanTok, CleanToks, CleanToks.append, clean_ops, v.print_clean, and_true, true_and]
        refine ⟨fun s hs => ?_, fun s hs => ?_⟩
        · simp only [firstIdent, Option.some.injEq] at hs
          exact hs ▸ lower_not_odd n hn
        · simp at hs
      · have := parse_range (o := op) (Name.parse_print n hn) hc hr
        simpa using this
  | interval n a oa b ob =>
    simp only [FeatureWF] at h
    obtain ⟨hn, hca, hcb, hr, hm, hx⟩ := h
    by_cases hl : t.lowerInterval = true
    · obtain ⟨⟨x, hx1, hg1⟩, _⟩ := writeMinMax_ok oa.opposite n a hn hca hr
      obtain ⟨⟨y, hy1, hg2⟩, _⟩ := writeMinMax_ok ob n b hn hcb hr
      refine .both x y _ _ (by simp [Feature.print, hl, hx1, hy1]) (fun p => by simp [Feature.needsParens, hl]) hg1 hg2 (fun d => ?_)
      rw [Cmp.opposite_eq_flip]; rfl
    · refine .block _ (by simp [Feature.print, hl]; rfl) (fun p => by simp [Feature.needsParens, hl])
        ⟨?_, .feature (.interval n a oa b ob), .feature ?_, fun d => rfl⟩
      · simp only [CleanTok, CleanToks, CleanToks.append, clean_ops, a.print_clean, b.print_clean, and_true, true_and]
        refine ⟨fun s hs => ?_, fun s hs => ?_⟩
        · cases a with
          | ident x => exact absurd rfl (hx x)
          | other =>
            simp only [Val.print, firstIdent, firstIdent_print_ops, Option.some.injEq] at hs
            exact hs ▸ lower_not_odd n hn
        · simp at hs
      · have := parse_interval (Name.parse_print n hn) hca hcb hr hm hx
        simpa using this

end Verif.Media
