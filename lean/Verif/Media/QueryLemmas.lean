import Verif.Media.RoundTrip
/-! Printing and parsing of whole media queries and lists; uniqueness of the text meaning. -/
namespace Verif.Media

/-- Queries for which printing keeps the meaning: the condition is well-formed, a custom media type is not one of the
reserved words, and a condition that follows a media type or qualifier does not hide an `or` under a double
negation (the code forgets the parentheses there). -/
def QueryWF (q : Query) : Prop :=
  (∀ s, q.type = .custom s → ¬ Kw s cs!"all" ∧ ¬ Kw s cs!"print" ∧ ¬ Kw s cs!"screen" ∧ ¬ Kw s cs!"not" ∧
    ¬ Kw s cs!"only") ∧
  ∀ c, q.cond = some c → CondWF c ∧
    ((q.type ≠ .all ∨ q.qualifier.isSome = true) → hiddenOr c = true → ∃ cs, c = .op .or cs)

theorem CondGood.means {b : Bool} {ts : List Tok} {m : Device → K3} (h : CondGood b ts m) :
    CondMeans ts m ∧ (b = false → CondNoOr ts m) := by
  obtain ⟨h1, c, h2, h3⟩ := h
  have := h2.means h1
  exact ⟨this.1.congr h3, fun hb => (this.2 hb).congr h3⟩

theorem PTail.tokens {o : Operator} {ts : List Tok} {cs : List Cond} (h : PTail o ts cs) :
    ∀ t ∈ ts, t ≠ .comma := by
  match h with
  | .last _ hp =>
    obtain ⟨i, rfl⟩ := hp.is_paren
    simp
  | .more _ hp ht =>
    obtain ⟨i, rfl⟩ := hp.is_paren
    have := PTail.tokens ht
    simp only [List.mem_cons]
    rintro t (rfl | rfl | ht)
    · simp
    · simp
    · exact this t ht

theorem PCond.tokens {b : Bool} {ts : List Tok} {c : Cond} (h : PCond b ts c) : ∀ t ∈ ts, t ≠ .comma := by
  match h with
  | .single hp => obtain ⟨i, rfl⟩ := hp.is_paren; simp
  | .not _ hp => obtain ⟨i, rfl⟩ := hp.is_paren; simp
  | .and hp ht =>
    obtain ⟨i, rfl⟩ := hp.is_paren
    have := ht.tokens
    simp only [List.mem_cons]
    rintro t (rfl | ht)
    · simp
    · exact this t ht
  | .or hp ht =>
    obtain ⟨i, rfl⟩ := hp.is_paren
    have := ht.tokens
    simp only [List.mem_cons]
    rintro t (rfl | ht)
    · simp
    · exact this t ht

/-- Text of a condition never looks like a qualifier or media type. -/
theorem PCond.not_qual {b : Bool} {ts : List Tok} {c : Cond} (h : PCond b ts c) : parseQualType ts = none := by
  match h with
  | .single hp => obtain ⟨i, rfl⟩ := hp.is_paren; rfl
  | .not hk hp =>
    obtain ⟨i, rfl⟩ := hp.is_paren
    unfold Kw at hk
    simp [parseQualType, Qualifier.parse, hk]
  | .and hp ht => obtain ⟨i, rfl⟩ := hp.is_paren; rfl
  | .or hp ht => obtain ⟨i, rfl⟩ := hp.is_paren; rfl

theorem typeText_text (m : MediaType)
    (h : ∀ s, m = .custom s → ¬ Kw s cs!"all" ∧ ¬ Kw s cs!"print" ∧ ¬ Kw s cs!"screen" ∧ ¬ Kw s cs!"not" ∧
      ¬ Kw s cs!"only") :
    TypeText m.text m ∧ MediaType.parse m.text = m ∧ ¬ Kw m.text cs!"not" ∧ ¬ Kw m.text cs!"only" := by
  cases m with
  | all => exact ⟨.all (by unfold Kw; decide), by decide, by unfold Kw; decide, by unfold Kw; decide⟩
  | print => exact ⟨.print (by unfold Kw; decide), by decide, by unfold Kw; decide, by unfold Kw; decide⟩
  | screen => exact ⟨.screen (by unfold Kw; decide), by decide, by unfold Kw; decide, by unfold Kw; decide⟩
  | custom s =>
    obtain ⟨h1, h2, h3, h4, h5⟩ := h s rfl
    refine ⟨.custom h1 h2 h3, ?_, h4, h5⟩
    unfold Kw at h1 h2 h3
    simp [MediaType.parse, MediaType.text, h1, h2, h3]

/-- The text after the media type. -/
def condText (t : PTargets) : Option Cond → List Tok
  | none => []
  | some c => kwAnd :: parensIf c.isNonAndOp (c.print t)

theorem condText_good (t : PTargets) (c : Cond) (hw : CondWF c)
    (ho : hiddenOr c = true → ∃ cs, c = .op .or cs) :
    CondGood false (parensIf c.isNonAndOp (c.print t)) (fun d => c.eval d) := by
  have h := (print_good t c hw).1
  cases hh : hiddenOr c with
  | true =>
    obtain ⟨cs, rfl⟩ := ho hh
    exact h.paren.cond
  | false =>
    rw [hh] at h
    cases c with
    | op o cs =>
      cases o with
      | and => exact h
      | or => simp [hiddenOr] at hh
    | _ => exact h

theorem Query.print_typed (t : PTargets) (q : Query) (h : q.type ≠ .all ∨ q.qualifier.isSome = true ∨ q.cond = none) :
    q.print t = (match q.qualifier with | some x => [Tok.ident x.print] | none => []) ++
      [.ident q.type.text] ++ condText t q.cond := by
  obtain ⟨ql, ty, c⟩ := q
  cases c with
  | none => cases ql <;> cases ty <;> simp [Query.print, condText, MediaType.text]
  | some c =>
    cases ql <;> cases ty <;> simp_all [Query.print, condText, MediaType.text]

/-- The meaning of the printed query. -/
theorem query_print_means (t : PTargets) (q : Query) (h : QueryWF q) :
    QueryMeans (q.print t) (fun d => q.eval d) := by
  obtain ⟨ql, ty, c⟩ := q
  obtain ⟨hty, hc⟩ := h
  obtain ⟨ht1, _, ht2, ht3⟩ := typeText_text ty hty
  by_cases htyped : ty ≠ .all ∨ ql.isSome = true ∨ c = none
  · rw [Query.print_typed t _ htyped]
    have hac : AndCondOpt (condText t c) (fun d => optEval d c) := by
      cases c with
      | none => exact .none
      | some c =>
        have hcond := hc c rfl
        have htq : ty ≠ .all ∨ ql.isSome = true := by
          rcases htyped with h | h | h
          · exact .inl h
          · exact .inr h
          · simp at h
        exact .some (by unfold Kw; decide) ((condText_good t c hcond.1 (hcond.2 htq)).means.2 rfl)
    rcases ql with _ | (_ | _)
    · exact .type ht2 ht3 ht1 hac
    · exact .only (by unfold Kw; decide) ht1 hac
    · exact .not (by unfold Kw; decide) ht1 hac
  · simp only [ne_eq, not_or, Decidable.not_not] at htyped
    obtain ⟨rfl, hq, hcn⟩ := htyped
    have hq' : ql = none := by cases ql <;> simp_all
    subst hq'
    obtain ⟨c, rfl⟩ : ∃ x, c = some x := by cases c <;> simp_all
    have := (print_good t c (hc c rfl).1).1.means.1
    have hp : Query.print t ⟨none, .all, some c⟩ = c.print t := by simp [Query.print]
    rw [hp]
    refine .cond (this.congr fun d => ?_)
    simp [Query.eval, typeAndCond, optEval, MediaType.matchesDevice, K3.ofBool]
    cases c.eval d <;> rfl

/-- The printed query parses back. -/
theorem query_print_parse (t : PTargets) (q : Query) (h : QueryWF q) :
    ∃ q', (∃ n, ∀ fuel ≥ n, Query.parse fuel (q.print t) = some q') ∧ (∀ d, q'.eval d = q.eval d) ∧
      (∀ x ∈ q.print t, x ≠ .comma) ∧ q.print t ≠ [] := by
  obtain ⟨ql, ty, c⟩ := q
  obtain ⟨hty, hc⟩ := h
  obtain ⟨_, hpt, ht2, ht3⟩ := typeText_text ty hty
  by_cases htyped : ty ≠ .all ∨ ql.isSome = true ∨ c = none
  · rw [Query.print_typed t _ htyped]
    have hq : ∀ rest, parseQualType ((match ql with | some x => [Tok.ident x.print] | none => []) ++
        [.ident ty.text] ++ rest) = some (ql, ty, rest) := by
      intro rest
      unfold Kw at ht2 ht3
      rcases ql with _ | (_ | _)
      · simp [parseQualType, Qualifier.parse, ht2, ht3, hpt]
      · have : lowerAscii (Qualifier.print .only) = cs!"only" := by decide
        simp [parseQualType, Qualifier.parse, this, hpt]
      · have : lowerAscii (Qualifier.print .not) = cs!"not" := by decide
        simp [parseQualType, Qualifier.parse, this, hpt]
    have hcom : ∀ rest, (∀ x ∈ rest, x ≠ Tok.comma) → ∀ x ∈ ((match ql with | some x => [Tok.ident x.print] | none => []) ++
        [.ident ty.text] ++ rest), x ≠ Tok.comma := by
      intro rest hr x hx
      rcases ql with _ | ql <;> simp only [List.mem_append, List.mem_cons, List.not_mem_nil, or_false, List.nil_append] at hx
      · rcases hx with rfl | hx
        · simp
        · exact hr x hx
      · rcases hx with (rfl | rfl) | hx
        · simp
        · simp
        · exact hr x hx
    cases c with
    | none =>
      refine ⟨⟨ql, ty, none⟩, ⟨0, fun fuel _ => ?_⟩, fun d => rfl, hcom _ (by simp [condText]), by simp⟩
      simp only [Query.parse, hq, condText]
    | some c =>
      have hcond := hc c rfl
      have htq : ty ≠ .all ∨ ql.isSome = true := by
        rcases htyped with h | h | h
        · exact .inl h
        · exact .inr h
        · simp at h
      obtain ⟨hcl, c', hp, he⟩ := condText_good t c hcond.1 (hcond.2 htq)
      obtain ⟨n, hn⟩ := hp.complete
      refine ⟨⟨ql, ty, some c'⟩, ⟨n, fun fuel hf => ?_⟩, fun d => ?_, hcom _ ?_, by simp⟩
      · simp only [Query.parse, hq, condText]
        have : isKw kwAnd cs!"and" = true := by decide
        simp only [this, if_true, hn fuel hf]
      · simp only [Query.eval, typeAndCond, optEval, he]
      · intro x hx
        simp only [condText, List.mem_cons] at hx
        rcases hx with rfl | hx
        · simp [kwAnd]
        · exact hp.tokens x hx
  · simp only [ne_eq, not_or, Decidable.not_not] at htyped
    obtain ⟨rfl, hq, hcn⟩ := htyped
    have hq' : ql = none := by cases ql <;> simp_all
    subst hq'
    obtain ⟨c, rfl⟩ : ∃ x, c = some x := by cases c <;> simp_all
    obtain ⟨hcl, c', hp0, he⟩ := (print_good t c (hc c rfl).1).1
    have hp1 := hp0.weaken
    obtain ⟨n, hn⟩ := hp1.complete
    have hp : Query.print t ⟨none, .all, some c⟩ = c.print t := by simp [Query.print]
    rw [hp]
    refine ⟨⟨none, .all, some c'⟩, ⟨n, fun fuel hf => ?_⟩, fun d => ?_, hp1.tokens, hp1.ne_nil⟩
    · simp only [Query.parse, hp1.not_qual, hn fuel hf]
    · simp only [Query.eval, typeAndCond, optEval, he]

theorem splitComma_none {ts : List Tok} (h : ∀ x ∈ ts, x ≠ .comma) : splitComma ts = (ts, none) := by
  induction ts with
  | nil => rfl
  | cons t ts ih =>
    have h1 := h t (by simp)
    have h2 := ih fun x hx => h x (by simp [hx])
    cases t <;> simp_all [splitComma]

theorem splitComma_append {ts : List Tok} (h : ∀ x ∈ ts, x ≠ .comma) (rest : List Tok) :
    splitComma (ts ++ .comma :: rest) = (ts, some rest) := by
  induction ts with
  | nil => rfl
  | cons t ts ih =>
    have h1 := h t (by simp)
    have h2 := ih fun x hx => h x (by simp [hx])
    cases t <;> simp_all [splitComma]

theorem parseQueries_one {fuel : Nat} {ts : List Tok} {q : Query} (h : ∀ x ∈ ts, x ≠ .comma)
    (hq : Query.parse fuel ts = some q) : parseQueries fuel ts = some [q] := by
  unfold parseQueries
  have hs := splitComma_none h
  simp only [hs, hq]
  split
  · rfl
  · rename_i h'; rw [hs] at h'; simp at h'

theorem parseQueries_cons {fuel : Nat} {ts rest : List Tok} {q : Query} {qs : List Query}
    (h : ∀ x ∈ ts, x ≠ .comma) (hq : Query.parse fuel ts = some q) (hqs : parseQueries fuel rest = some qs) :
    parseQueries fuel (ts ++ .comma :: rest) = some (q :: qs) := by
  rw [parseQueries]
  have := splitComma_append h rest
  simp only [this, hq]
  split
  · rename_i h'; rw [this] at h'; simp at h'
  · rename_i r h'
    rw [this] at h'
    simp only [Option.some.injEq] at h'
    subst h'
    rw [hqs]

/-- The printed list means what the list means. -/
theorem list_print_means (t : PTargets) (l : List Query) (hne : l ≠ []) (h : ∀ q ∈ l, QueryWF q) :
    ListMeans (printList t l) (fun d => ListMatches d l) ∧ printList t l ≠ [] := by
  induction l with
  | nil => exact absurd rfl hne
  | cons q qs ih =>
    have hq := query_print_means t q (h q (by simp))
    obtain ⟨_, _, _, _, hnil⟩ := query_print_parse t q (h q (by simp))
    cases qs with
    | nil =>
      refine ⟨?_, by simpa [printList] using hnil⟩
      have := ListMeans.single hq
      have e : (fun d => ListMatches d [q]) = fun d => q.eval d = .t := by
        funext d; simp [ListMatches, Query.matches]
      rw [e]
      exact this
    | cons q' qs =>
      obtain ⟨h1, h2⟩ := ih (by simp) (fun x hx => h x (by simp [hx]))
      have := ListMeans.cons hq h1 h2
      refine ⟨?_, by simp [printList]⟩
      have e : (fun d => ListMatches d (q :: q' :: qs)) = fun d => q.eval d = .t ∨ ListMatches d (q' :: qs) := by
        funext d; simp [ListMatches, Query.matches]
      rw [e]
      exact this

/-- The printed list parses back. -/
theorem list_print_parse (t : PTargets) (l : List Query) (hne : l ≠ []) (h : ∀ q ∈ l, QueryWF q) :
    ∃ l', (∃ n, ∀ fuel ≥ n, parseList fuel (printList t l) = some l') ∧ l' ≠ [] ∧
      ∀ d, (∃ q ∈ l', q.eval d = .t) ↔ (∃ q ∈ l, q.eval d = .t) := by
  suffices hs : ∃ l', (∃ n, ∀ fuel ≥ n, parseQueries fuel (printList t l) = some l') ∧ l' ≠ [] ∧
      ∀ d, (∃ q ∈ l', q.eval d = .t) ↔ (∃ q ∈ l, q.eval d = .t) by
    obtain ⟨l', ⟨n, hn⟩, h1, h2⟩ := hs
    have hp := (list_print_means t l hne h).2
    refine ⟨l', ⟨n, fun fuel hf => ?_⟩, h1, h2⟩
    unfold parseList
    have : (printList t l).isEmpty = false := by cases hh : printList t l <;> simp_all
    simp only [this, Bool.false_eq_true, if_false]
    exact hn fuel hf
  induction l with
  | nil => exact absurd rfl hne
  | cons q qs ih =>
    obtain ⟨q', ⟨n, hn⟩, he, hcom, _⟩ := query_print_parse t q (h q (by simp))
    cases qs with
    | nil =>
      refine ⟨[q'], ⟨n, fun fuel hf => parseQueries_one hcom (hn fuel hf)⟩, by simp, fun d => ?_⟩
      simp [he]
    | cons q2 qs =>
      obtain ⟨l', ⟨m, hm⟩, h1, h2⟩ := ih (by simp) (fun x hx => h x (by simp [hx]))
      refine ⟨q' :: l', ⟨n + m, fun fuel hf => ?_⟩, by simp, fun d => ?_⟩
      · have := parseQueries_cons hcom (hn fuel (by omega)) (hm fuel (by omega))
        simpa [printList] using this
      · have := h2 d
        simp only [List.mem_cons, exists_eq_or_imp, he] at this ⊢
        rw [this]

end Verif.Media
