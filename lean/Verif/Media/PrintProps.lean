import Verif.Media.Unique
import Verif.Media.LogicProps
/-! Properties C05 and C06: serialisation and parsing of media conditions, queries and lists. -/
namespace Verif.Media

/-! ## C05: serialisation preserves meaning -/

/-- The text meaning used below is a function of the text (sanity of the specification). -/
theorem C05_text_meaning_unique {ts : List Tok} {m m' : Device → K3} (h : CondMeans ts m) (h' : CondMeans ts m') :
    m = m' := h.unique h'

/-- **C05, partial.** For every compile target, the printed text of a condition means, by the grammar of the
specification, exactly the condition. Missing: `not` directly in front of an equality comparison, which the code
prints without `not` (`C05_counterexample_not_eq`); raw token conditions; empty operations (the code panics). -/
theorem C05_print_means_partial (t : PTargets) (c : Cond) (h : CondWF c) :
    CondMeans (c.print t) (fun d => c.eval d) := (print_good t c h).1.means.1

/-- **C05, partial.** Printing a condition and parsing the text succeeds and gives a condition that is true on the same
devices. (`fuel` only bounds the parser's recursion: any large enough value works.) -/
theorem C05_roundtrip_partial (t : PTargets) (c : Cond) (h : CondWF c) :
    ∃ c', (∃ n, ∀ fuel ≥ n, parseCond fuel true (c.print t) = some (c', [])) ∧ ∀ d, c'.eval d = c.eval d := by
  obtain ⟨_, c', hp, he⟩ := (print_good t c h).1
  exact ⟨c', hp.weaken.complete, he⟩

/-- **C05, partial.** What the parser accepts, it understands as the specification does, except for the two texts
excluded by `CleanToks` (`C05_counterexample_parse`). -/
theorem C05_parse_sound_partial (fuel : Nat) (ts : List Tok) (c : Cond)
    (h : parseCond fuel true ts = some (c, [])) (hc : CleanToks ts) : CondMeans ts (fun d => c.eval d) := by
  obtain ⟨pre, he, hp⟩ := (psound fuel).1 _ _ _ _ h
  rw [List.append_nil] at he
  subst he
  exact (hp.means hc).1

/-- **C05, partial.** A printed media query means the query. Missing: queries whose condition follows a media type and
hides an `or` behind a double negation (`C05_counterexample_hidden_or`). -/
theorem C05_query_print_means_partial (t : PTargets) (q : Query) (h : QueryWF q) :
    QueryMeans (q.print t) (fun d => q.eval d) := query_print_means t q h

/-- **C05, partial.** A printed media query parses back to a query with the same meaning. -/
theorem C05_query_roundtrip_partial (t : PTargets) (q : Query) (h : QueryWF q) :
    ∃ q', (∃ n, ∀ fuel ≥ n, Query.parse fuel (q.print t) = some q') ∧ ∀ d, q'.eval d = q.eval d := by
  obtain ⟨q', h1, h2, _⟩ := query_print_parse t q h
  exact ⟨q', h1, h2⟩

/-- **C05, partial.** A printed non-empty media list means the list. Missing: the empty list, which matches everything
but prints as `not all` (`C05_counterexample_empty_list`). -/
theorem C05_list_print_means_partial (t : PTargets) (l : List Query) (hne : l ≠ []) (h : ∀ q ∈ l, QueryWF q) :
    ListMeans (printList t l) (fun d => ListMatches d l) := (list_print_means t l hne h).1

/-- **C05, partial.** A printed non-empty media list parses back to a list that matches the same devices. -/
theorem C05_list_roundtrip_partial (t : PTargets) (l : List Query) (hne : l ≠ []) (h : ∀ q ∈ l, QueryWF q) :
    ∃ l', (∃ n, ∀ fuel ≥ n, parseList fuel (printList t l) = some l') ∧ ∀ d, ListMatches d l' ↔ ListMatches d l := by
  obtain ⟨l', h1, h2, h3⟩ := list_print_parse t l hne h
  refine ⟨l', h1, fun d => ?_⟩
  simp only [ListMatches, hne, h2, false_or, Query.matches]
  exact h3 d

/-! A non-trivial condition meeting the hypotheses:
`not ((width > 1) and (1 < height <= 2) or (not (color)))`-like nesting, with an unknown name. -/

/-- A sample condition. -/
def sampleCond : Cond :=
  .op .or [.not (.op .and [wide 1, .feature (.interval (.standard .height) (.other .length 1) .lt (.other .length 2) .le)]),
    .not (.not (.not (.feature (.boolean (.standard .color))))),
    .not (wide 3),
    .feature (.plain (.custom cs!"--x") (.ident cs!"y"))]

theorem sampleCond_wf : CondWF sampleCond := by
  simp [sampleCond, CondWF, CondsWF, FeatureWF, NameWF, wide, Val.checkType, Name.ftype, Val.ftype,
    FeatureId.ftype, FType.allowsRanges, matchingOps]

example : CondWF sampleCond := sampleCond_wf
example : QueryWF ⟨some .only, .screen, some sampleCond⟩ := by
  refine ⟨by simp, fun c h => ?_⟩
  cases h
  exact ⟨sampleCond_wf, fun _ _ => ⟨_, rfl⟩⟩
/-- The printed text for targets without range syntax (a test of the model). -/
example : Cond.print ⟨true, true⟩ sampleCond =
    [.paren [kwNot, .paren [.paren [kwNot, .paren [.ident cs!"max-width", .colon, .val .length 1]], kwAnd,
        .paren [kwNot, .paren [.ident cs!"max-height", .colon, .val .length 1]], kwAnd,
        .paren [.ident cs!"max-height", .colon, .val .length 2]]],
      kwOr, .paren [kwNot, .paren [.ident cs!"color"]],
      kwOr, .paren [.paren [.ident cs!"max-width", .colon, .val .length 3]],
      kwOr, .paren [.ident cs!"--x", .colon, .ident cs!"y"]] := by
  simp [Cond.print, Cond.printOp, Cond.printRest, sampleCond, wide, Feature.negate, Feature.print, Cmp.negate,
    writeMinMax, Name.printPrefixed, Name.print, FeatureId.name, Cond.needsParens, Feature.needsParens, parensIf, Val.print,
    Cmp.opposite, Operator.kw, kwAnd, kwNot, kwOr]

/-- The full C05 is false of the code: `not (width = 1)` prints as `(width = 1)`. -/
theorem C05_counterexample_not_eq (t : PTargets) :
    let c := Cond.not (.feature (.range (.standard .width) .eq (.other .length 1)))
    ∃ m d, CondMeans (c.print t) m ∧ m d ≠ c.eval d := by
  have hwf : CondWF (.feature (.range (.standard .width) .eq (.other .length 1))) := by
    simp [CondWF, FeatureWF, NameWF, Val.checkType, Name.ftype, Val.ftype, FeatureId.ftype, FType.allowsRanges]
  refine ⟨fun d => Cond.eval d (.feature (.range (.standard .width) .eq (.other .length 1))),
    sampleDevice .screen 1, ?_, ?_⟩
  · have := C05_print_means_partial t _ hwf
    exact this
  · decide +kernel

/-- The full C05 is false of the code: `screen and (not (not ((width > 1) or (width > 2))))` prints as
`screen and (width > 1) or (width > 2)`, which is not a media query. -/
theorem C05_counterexample_hidden_or :
    let q : Query := ⟨none, .screen, some (.not (.not (.op .or [wide 1, wide 2])))⟩
    q.print ⟨false, false⟩ = [.ident cs!"screen", kwAnd,
      .paren [.ident cs!"width", .delim '>', .val .length 1], kwOr,
      .paren [.ident cs!"width", .delim '>', .val .length 2]] ∧
    (∀ fuel, Query.parse fuel (q.print ⟨false, false⟩) = none) ∧ ∀ m, ¬ QueryMeans (q.print ⟨false, false⟩) m := by
  have hp : Query.print ⟨false, false⟩ ⟨none, .screen, some (.not (.not (.op .or [wide 1, wide 2])))⟩ =
      [.ident cs!"screen", kwAnd,
      .paren [.ident cs!"width", .delim '>', .val .length 1], kwOr,
      .paren [.ident cs!"width", .delim '>', .val .length 2]] := by
    simp [Query.print, MediaType.text, Cond.isNonAndOp, parensIf, Cond.print, Cond.printOp, Cond.printRest, wide,
      Feature.print, Cond.needsParens, Feature.needsParens, Name.print, FeatureId.name, Cmp.print, Val.print,
      Operator.kw]
  intro q
  refine ⟨hp, fun fuel => ?_, fun m h => ?_⟩
  · rw [hp]
    have hq : parseQualType [.ident cs!"screen", kwAnd,
      .paren [.ident cs!"width", .delim '>', .val .length 1], kwOr,
      .paren [.ident cs!"width", .delim '>', .val .length 2]] = some (none, .screen,
        [kwAnd, .paren [.ident cs!"width", .delim '>', .val .length 1], kwOr,
      .paren [.ident cs!"width", .delim '>', .val .length 2]]) := rfl
    simp only [Query.parse, hq]
    have hk : isKw kwAnd cs!"and" = true := by decide
    simp only [hk, if_true]
    cases fuel with
    | zero => simp [parseCond]
    | succ n =>
      have h1 : (lowerAscii cs!"or" == cs!"and") = false := by decide
      have h2 : (lowerAscii cs!"or" == cs!"or") = true := by decide
      simp only [parseCond, kwOr]
      cases parseParenBlock n [.ident cs!"width", .delim '>', .val .length 1] <;> simp [h1, h2]
  · rw [hp] at h
    have hcond : ∀ {m'}, CondNoOr [.paren [.ident cs!"width", .delim '>', .val .length 1], kwOr,
        .paren [.ident cs!"width", .delim '>', .val .length 2]] m' → False := by
      intro m' h
      cases h with
      | and _ ht =>
        obtain ⟨s, rest, he, hk⟩ := ht.starts
        simp only [kwOr, List.cons.injEq, Tok.ident.injEq] at he
        obtain ⟨rfl, _⟩ := he
        unfold Kw at hk
        exact absurd hk (by decide)
    cases h with
    | cond h =>
      rcases h.head with ⟨x, r, e⟩ | ⟨s, x, e, hk⟩ <;> simp at e
    | type _ _ _ hc =>
      cases hc with
      | some _ h => exact hcond h
    | only hk =>
      unfold Kw at hk
      exact absurd hk (by decide)
    | not hk =>
      unfold Kw at hk
      exact absurd hk (by decide)

/-- The full C05 is false of the code: the empty list matches every device, but prints as `not all`. -/
theorem C05_counterexample_empty_list (t : PTargets) (d : Device) :
    ListMatches d [] ∧ ∃ p, ListMeans (printList t []) p ∧ ¬ p d := by
  refine ⟨.inl rfl, _, .single (.not (k := cs!"not") (s := cs!"all") (by unfold Kw; decide)
    (.all (by unfold Kw; decide)) .none), ?_⟩
  simp [MediaType.matchesDevice, K3.ofBool, K3.and, K3.not]

/-- The parser reads `(min-width)` as `(width)`, and `(min--webkit-device-pixel-ratio: 1)` as
`(-webkit-min-device-pixel-ratio: 1)`; by the specification both are unknown features. -/
theorem C05_counterexample_parse :
    parseCond 2 true [.paren [.ident cs!"min-width"]] = some (.feature (.boolean (.standard .width)), []) ∧
    parseCond 2 true [.paren [.ident cs!"min--webkit-device-pixel-ratio", .colon, .val .number 1]] =
      some (.feature (.range (.standard .webKitDevicePixelRatio) .ge (.other .number 1)), []) ∧
    CondMeans [.paren [.ident cs!"min--webkit-device-pixel-ratio", .colon, .val .number 1]] (fun _ => .u) ∧
    ∀ m, ¬ CondMeans [.paren [.ident cs!"min-width"]] m := by
  refine ⟨?_, ?_, ?_, ?_⟩
  · have : Feature.parse [.ident cs!"min-width"] = .ok (.boolean (.standard .width)) [] := by rfl
    simp [parseCond, parseParenBlock, this]
  · have : Feature.parse [.ident cs!"min--webkit-device-pixel-ratio", .colon, .val .number 1] =
      .ok (.range (.standard .webKitDevicePixelRatio) .ge (.other .number 1)) [] := by rfl
    simp [parseCond, parseParenBlock, this]
  · refine .withoutOr (.single (.feature (.plainUnknown ?_ (.other .number 1))))
    intro id c h
    exact h.not_odd (by decide)
  · intro m h
    have hin : InParens (.paren [.ident cs!"min-width"]) m := by
      cases h with
      | withoutOr h =>
        cases h with
        | single h => exact h
        | and _ ht => obtain ⟨s, rest, e, _⟩ := ht.starts; cases e
      | or _ ht => obtain ⟨s, rest, e, _⟩ := ht.starts; cases e
    cases hin with
    | cond h =>
      rcases h.head with ⟨x, r, e⟩ | ⟨s, x, e, hk⟩ <;> simp at e
    | feature h =>
      have h1 := fm_means h
      have : fm [.ident cs!"min-width"] = none := by rfl
      rw [this] at h1
      cases h1

/-! ## C06: lowering of range syntax -/

/-- **C06, partial.** The text printed for any two sets of targets means the same, for the conditions of C05. -/
theorem C06_lowering_same_meaning_partial (t t' : PTargets) (c : Cond) (h : CondWF c) (m m' : Device → K3)
    (hm : CondMeans (c.print t) m) (hm' : CondMeans (c.print t') m') : m = m' := by
  rw [hm.unique (C05_print_means_partial t c h), hm'.unique (C05_print_means_partial t' c h)]

/-- **C06.** A range feature lowered for targets without range syntax (`width op v` for every operator) means the original
comparison, whatever the surrounding context prints. -/
theorem C06_range_lowering (op : Cmp) (n : Name) (v : Val) (h : FeatureWF (.range n op v)) :
    CondMeans (writeMinMax op n v false) (fun d => d.relName n op v) ∧
    ∃ x, writeMinMax op n v true = [x] ∧ InParens x (fun d => d.relName n op v) := by
  have h0 := h
  simp only [FeatureWF] at h
  refine ⟨?_, ?_⟩
  · have := C05_print_means_partial ⟨true, true⟩ (.feature (.range n op v)) h0
    simp only [Cond.print, Feature.print, Cond.eval, Feature.eval, if_true] at this
    exact this
  · obtain ⟨⟨x, hx, hc, c, hp, he⟩, _⟩ := writeMinMax_ok op n v h.1 h.2.1 h.2.2
    refine ⟨x, hx, ?_⟩
    have := hp.means hc
    have e : (fun d => c.eval d) = fun d => d.relName n op v := funext he
    rwa [e] at this

mutual
/-- A token tree contains no comparison operator. -/
def NoDelim : Tok → Prop
  | .delim _ => False
  | .paren ts => NoDelims ts
  | _ => True
/-- All tokens of a list. -/
def NoDelims : List Tok → Prop
  | [] => True
  | t :: ts => NoDelim t ∧ NoDelims ts
end

theorem NoDelims.append {a b : List Tok} : NoDelims (a ++ b) ↔ NoDelims a ∧ NoDelims b := by
  induction a with
  | nil => simp [NoDelims]
  | cons t ts ih => simp [NoDelims, ih, and_assoc]

theorem writeMinMax_noDelim (op : Cmp) (n : Name) (v : Val) (b : Bool) : NoDelims (writeMinMax op n v b) := by
  have hv : NoDelim v.print := by cases v <;> simp [Val.print, NoDelim]
  cases op <;> cases b <;> simp [writeMinMax, NoDelims, NoDelim, hv, kwNot]

theorem feature_noDelim (f : Feature) : NoDelims (f.print ⟨true, true⟩) := by
  have hv : ∀ v : Val, NoDelim v.print := by intro v; cases v <;> simp [Val.print, NoDelim]
  cases f with
  | plain n v => simp [Feature.print, NoDelims, NoDelim, hv]
  | boolean n => simp [Feature.print, NoDelims, NoDelim]
  | range n op v => simp [Feature.print, writeMinMax_noDelim]
  | interval n a oa b ob =>
    simp [Feature.print, NoDelims.append, writeMinMax_noDelim, NoDelims, NoDelim, kwAnd]

theorem parensIf_noDelim {b : Bool} {ts : List Tok} (h : NoDelims ts) : NoDelims (parensIf b ts) := by
  cases b <;> simp [parensIf, NoDelims, NoDelim, h]

mutual
/-- **C06.** For targets without range and interval syntax no comparison operator is left anywhere in the printed
condition. -/
theorem C06_no_range_syntax : ∀ c, CondWF c → NoDelims (Cond.print ⟨true, true⟩ c)
  | .feature f, _ => by simp only [Cond.print]; exact feature_noDelim f
  | .unknown ts, h => by simp [CondWF] at h
  | .op o cs, h => by
    simp only [CondWF] at h
    simp only [Cond.print]
    exact C06_no_range_syntax_op o cs h.2
  | .not (.not c), h => by
    simp only [CondWF] at h
    simp only [Cond.print]
    exact C06_no_range_syntax c h.1.1
  | .not (.feature f), _ => by
    simp only [Cond.print]
    split
    · exact feature_noDelim _
    · simp only [NoDelims, kwNot, NoDelim, true_and]
      exact parensIf_noDelim (feature_noDelim _)
  | .not (.op o cs), h => by
    simp only [CondWF] at h
    simp only [Cond.print, NoDelims, kwNot, NoDelim, true_and]
    exact parensIf_noDelim (C06_no_range_syntax_op o cs h.1.2)
  | .not (.unknown ts), h => by simp [CondWF] at h
theorem C06_no_range_syntax_op (o : Operator) : ∀ cs, CondsWF cs → NoDelims (Cond.printOp ⟨true, true⟩ o cs)
  | [], _ => by simp [Cond.printOp, NoDelims]
  | [c], h => by
    simp only [CondsWF] at h
    simp only [Cond.printOp, Cond.printRest, List.append_nil]
    exact parensIf_noDelim (C06_no_range_syntax c h.1)
  | c :: c' :: cs, h => by
    simp only [CondsWF] at h
    have h1 := C06_no_range_syntax c h.1
    have h2 := C06_no_range_syntax_op o (c' :: cs) (by simp only [CondsWF]; exact h.2)
    simp only [Cond.printOp, Cond.printRest] at h2 ⊢
    rw [NoDelims.append]
    refine ⟨parensIf_noDelim h1, ?_⟩
    simp only [NoDelims, List.cons_append]
    refine ⟨by cases o <;> simp [Operator.kw, kwAnd, kwOr, NoDelim], h2⟩
end

example : FeatureWF (.range (.standard .width) .gt (.other .length 4)) := by
  simp [FeatureWF, NameWF, Val.checkType, Name.ftype, Val.ftype, FeatureId.ftype, FType.allowsRanges]
example : ¬ NoDelims (Cond.print ⟨false, false⟩ sampleCond) := by
  simp [Cond.print, Cond.printOp, sampleCond, wide, Feature.print, parensIf, NoDelims, NoDelim,
    Cmp.print, Cond.needsParens, Feature.needsParens]

end Verif.Media
