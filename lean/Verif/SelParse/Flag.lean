import Verif.SelParse.Css
/-!
# When the parser has seen `&`
-/
namespace Verif.SelParse

/-- What an entry point says about `&`: `A` if there is none among the tokens, `m` if `&` is in the value. -/
def FlagOut {α : Type} (A : Prop) (b0 : Bool) (m : α → Bool) (x : Out (α × Bool)) : Prop :=
  (∀ a b, x = .ok (a, b) → (b0 = true ∨ m a = true → b = true) ∧ (A → b = b0)) ∧ ∀ b, x = .error b → A → b = b0

/-- What the entry points say about `&`. -/
structure FlagE (A : Prop) (e : Entries) : Prop where
  list : ∀ st f, FlagOut A st.nesting ampLL (e.list st f)
  relative : ∀ st, FlagOut A st.nesting ampLL (e.relative st)
  inner : ∀ st, FlagOut A st.nesting ampL (e.inner st)

/-- The entry points of all functions among the tokens are right about `&`. -/
def FlagL (ts : List LTok) : Prop := ∀ n args e, LTok.func n args e ∈ ts → FlagE (toksAmp args = false) e
/-- No `&` among the tokens. -/
def NoAmp (ts : List LTok) : Prop := LTok.tok (.delim '&') ∉ ts ∧ ∀ n args e, LTok.func n args e ∈ ts → toksAmp args = false

theorem flagL_sub {a ts : List LTok} (h : FlagL ts) (hs : ∀ t ∈ a, t ∈ ts) : FlagL a := fun n args e hm => h n args e (hs _ hm)
theorem noAmp_sub {a ts : List LTok} (h : NoAmp ts) (hs : ∀ t ∈ a, t ∈ ts) : NoAmp a :=
  ⟨fun hm => h.1 (hs _ hm), fun n args e hm => h.2 n args e (hs _ hm)⟩

theorem or_flag {b0 b : Bool} {P Q : Prop} (h : (b0 = true ∨ P → b = true) ∧ (Q → b = b0)) : (b0 = true ∨ P → (b0 || b) = true) ∧ (Q → (b0 || b) = b0) := by
  refine ⟨fun g => by rw [h.1 g]; simp, fun g => by rw [h.2 g]; simp⟩

variable {o : Opts}

theorem pseudoElemFn_flag {st : St} {n : Str} {args : List Tok} {e : Entries} (he : FlagE (toksAmp args = false) e) {r : List LTok} {c : Comp} {st' : St}
    {r' : List LTok} (h : pseudoElemFn o st n args e r = .ok c st' r') :
    (st.nesting = true ∨ c.amp = true → st'.nesting = true) ∧ (toksAmp args = false → st'.nesting = st.nesting) ∧ r' = r := by
  unfold pseudoElemFn at h
  split at h; · simp at h
  split at h
  · split at h; · simp at h
    split at h
    · simp at h; obtain ⟨rfl, rfl, rfl⟩ := h; simp [Comp.amp]
    · simp at h
  split at h
  · split at h; · simp at h
    split at h
    · next s b hl =>
      simp at h
      obtain ⟨rfl, rfl, rfl⟩ := h
      have := or_flag ((he.inner _).1 _ _ hl)
      exact ⟨by simpa [Comp.amp] using this.1, this.2, rfl⟩
    · simp at h
  split at h
  · split at h
    · split at h; · simp at h
      simp at h; obtain ⟨rfl, rfl, rfl⟩ := h; simp [Comp.amp]
    · simp at h
  split at h; · simp at h
  split at h; · simp at h
  simp at h
  obtain ⟨rfl, rfl, rfl⟩ := h
  simp [Comp.amp, St.afterElemFn]

theorem pseudoClassFn_flag {st : St} {n : Str} {args : List Tok} {e : Entries} (he : FlagE (toksAmp args = false) e) {r : List LTok} {c : Comp} {st' : St}
    {r' : List LTok} (h : pseudoClassFn o st n args e r = .ok c st' r') :
    (st.nesting = true ∨ c.amp = true → st'.nesting = true) ∧ (toksAmp args = false → st'.nesting = st.nesting) ∧ r' = r := by
  unfold pseudoClassFn at h
  split at h
  · split at h; · simp at h
    split at h
    · simp at h; obtain ⟨rfl, rfl, rfl⟩ := h; simp [Comp.amp]
    · simp at h; obtain ⟨rfl, rfl, rfl⟩ := h; simp [Comp.amp]
    · simp at h
  split at h
  · split at h
    · next l b hl =>
      simp at h
      obtain ⟨rfl, rfl, rfl⟩ := h
      have := or_flag ((he.list _ _).1 _ _ hl)
      exact ⟨by simpa [Comp.amp] using this.1, this.2, rfl⟩
    · simp at h
  split at h
  · split at h
    · next l b hl =>
      simp at h
      obtain ⟨rfl, rfl, rfl⟩ := h
      have := or_flag ((he.relative _).1 _ _ hl)
      exact ⟨by simpa [Comp.amp] using this.1, this.2, rfl⟩
    · simp at h
  split at h
  · split at h; · simp at h
    split at h
    · next l b hl =>
      simp at h
      obtain ⟨rfl, rfl, rfl⟩ := h
      have := or_flag ((he.inner _).1 _ _ hl)
      exact ⟨by simpa [Comp.amp] using this.1, this.2, rfl⟩
    · simp at h
  split at h; · simp at h
  split at h; · simp at h
  simp at h
  obtain ⟨rfl, rfl, rfl⟩ := h
  simp [Comp.amp]

theorem pseudoElem_flag {st : St} {n : Str} {r : List LTok} {c : Comp} {st' : St} {r' : List LTok} (h : pseudoElem st n r = .ok c st' r') :
    c.amp = false ∧ st'.nesting = st.nesting ∧ r' = r := by
  unfold pseudoElem at h
  split at h; · simp at h
  split at h; · simp at h
  simp at h
  obtain ⟨rfl, rfl, rfl⟩ := h
  simp [Comp.amp, St.afterElem]

theorem pseudoClass_flag {st : St} {n : Str} {r : List LTok} {c : Comp} {st' : St} {r' : List LTok} (h : pseudoClass st n r = .ok c st' r') :
    c.amp = false ∧ st'.nesting = st.nesting ∧ r' = r := by
  unfold pseudoClass at h
  repeat' split at h
  all_goals first | (simp at h; done) | (simp at h; obtain ⟨rfl, rfl, rfl⟩ := h; simp [Comp.amp])

theorem simple_flag {st : St} {ts : List LTok} (hf : FlagL ts) {c : Comp} {st' : St} {r : List LTok} (h : simple o st ts = .ok c st' r) :
    (st.nesting = true ∨ c.amp = true → st'.nesting = true) ∧ (NoAmp ts → st'.nesting = st.nesting) ∧ (∀ t ∈ r, t ∈ ts) := by
  unfold simple at h
  split at h
  · split at h; · simp at h
    simp at h; obtain ⟨rfl, rfl, rfl⟩ := h
    exact ⟨by simp [Comp.amp], fun _ => rfl, fun t ht => by simp [ht]⟩
  · split at h; · simp at h
    split at h
    · simp at h; obtain ⟨rfl, rfl, rfl⟩ := h
      exact ⟨by simp [Comp.amp], fun _ => rfl, fun t ht => by simp [ht]⟩
    · simp at h
  · split at h; · simp at h
    split at h
    · simp at h; obtain ⟨rfl, rfl, rfl⟩ := h
      exact ⟨by simp [Comp.amp], fun _ => rfl, fun t ht => by simp [ht]⟩
    · simp at h
  · split at h
    · split at h
      · obtain ⟨h1, h2, rfl⟩ := pseudoElem_flag h
        exact ⟨by rw [h1, h2]; simp, fun _ => h2, fun t ht => by simp [ht]⟩
      · next n args e r' =>
        obtain ⟨h1, h2, rfl⟩ := pseudoElemFn_flag (hf n args e (by simp)) h
        exact ⟨h1, fun hn => h2 (hn.2 n args e (by simp)), fun t ht => by simp [ht]⟩
      · simp at h
    · split at h
      · obtain ⟨h1, h2, rfl⟩ := pseudoElem_flag h
        exact ⟨by rw [h1, h2]; simp, fun _ => h2, fun t ht => by simp [ht]⟩
      · obtain ⟨h1, h2, rfl⟩ := pseudoClass_flag h
        exact ⟨by rw [h1, h2]; simp, fun _ => h2, fun t ht => by simp [ht]⟩
    · next n args e r' =>
      split at h
      · obtain ⟨h1, h2, rfl⟩ := pseudoElemFn_flag (hf n args e (by simp)) h
        exact ⟨h1, fun hn => h2 (hn.2 n args e (by simp)), fun t ht => by simp [ht]⟩
      · obtain ⟨h1, h2, rfl⟩ := pseudoClassFn_flag (hf n args e (by simp)) h
        exact ⟨h1, fun hn => h2 (hn.2 n args e (by simp)), fun t ht => by simp [ht]⟩
    · simp at h
  · simp at h; obtain ⟨rfl, rfl, rfl⟩ := h
    refine ⟨fun _ => rfl, fun hn => ?_, fun t ht => by simp [ht]⟩
    exact absurd (by simp) hn.1
  · simp at h

/-- What a part of the parser says about `&`. -/
def FlagR {α : Type} (A : Prop) (b0 : Bool) (m : α → Bool) (fl : α → Bool) (x : Out α) : Prop :=
  (∀ a, x = .ok a → (b0 = true ∨ m a = true → fl a = true) ∧ (A → fl a = b0)) ∧ ∀ b, x = .error b → A → b = b0

theorem simples_flag (n : Nat) : ∀ {st : St} {ts : List LTok}, FlagL ts →
    FlagR (NoAmp ts) st.nesting (fun x => ampL x.1) (fun x => x.2.1.nesting) (simples o n st ts) ∧
    ∀ x, simples o n st ts = .ok x → ∀ t ∈ x.2.2, t ∈ ts := by
  induction n with
  | zero => intro st ts _; refine ⟨⟨fun a h => by simp [simples] at h, fun b h _ => by simp [simples] at h; exact h.symm⟩, fun x h => by simp [simples] at h⟩
  | succ n ih =>
    intro st ts hf
    rw [simples]
    cases hs : simple o st ts with
    | err => exact ⟨⟨fun a h => by simp at h, fun b h _ => by simp at h; exact h.symm⟩, fun x h => by simp at h⟩
    | stop =>
      refine ⟨⟨fun a h => ?_, fun b h => by simp at h⟩, fun x h => ?_⟩
      · simp at h; subst h; simp [ampL]
      · simp at h; subst h; exact fun t ht => ht
    | ok c st1 r =>
      obtain ⟨h1, h2, h3⟩ := simple_flag hf hs
      obtain ⟨⟨g1, g2⟩, g3⟩ := ih (st := st1) (flagL_sub hf h3)
      simp only
      cases hx : simples o n st1 r with
      | error e =>
        refine ⟨⟨fun a h => by simp [Except.map] at h, fun b h hA => ?_⟩, fun x h => by simp [Except.map] at h⟩
        simp [Except.map] at h
        subst h
        rw [g2 _ hx (noAmp_sub hA h3), h2 hA]
      | ok y =>
        refine ⟨⟨fun a h => ?_, fun b h => by simp [Except.map] at h⟩, fun x h => ?_⟩
        · simp [Except.map] at h
          subst h
          obtain ⟨q1, q2⟩ := g1 _ hx
          simp only at q1 q2
          simp only [ampL, Bool.or_eq_true]
          refine ⟨?_, fun hA => by rw [q2 (noAmp_sub hA h3), h2 hA]⟩
          rintro (h | h | h)
          · exact q1 (.inl (h1 (.inl h)))
          · exact q1 (.inl (h1 (.inr h)))
          · exact q1 (.inr h)
        · simp [Except.map] at h
          subst h
          exact fun t ht => h3 t (g3 _ hx t ht)

theorem localPart_sub {ns : Ns} {ts : List LTok} {c : Comp} {r : List LTok} (h : localPart ns ts = .ok c r) : c.amp = false ∧ ∀ t ∈ r, t ∈ ts := by
  unfold localPart at h
  split at h <;> simp at h <;> obtain ⟨rfl, rfl⟩ := h <;> exact ⟨rfl, fun t ht => by simp [ht]⟩

theorem qname_sub {ts : List LTok} {c : Comp} {r : List LTok} (h : qname ts = .ok c r) : c.amp = false ∧ ∀ t ∈ r, t ∈ ts := by
  unfold qname at h
  split at h
  · split at h
    · obtain ⟨h1, h2⟩ := localPart_sub h; exact ⟨h1, fun t ht => by simp [h2 t ht]⟩
    · simp at h; obtain ⟨rfl, rfl⟩ := h; exact ⟨rfl, fun t ht => by simp [ht]⟩
  · split at h
    · obtain ⟨h1, h2⟩ := localPart_sub h; exact ⟨h1, fun t ht => by simp [h2 t ht]⟩
    · simp at h; obtain ⟨rfl, rfl⟩ := h; exact ⟨rfl, fun t ht => by simp [ht]⟩
  · obtain ⟨h1, h2⟩ := localPart_sub h; exact ⟨h1, fun t ht => by simp [h2 t ht]⟩
  · simp at h

theorem afterNesting_flag {st : St} {ts : List LTok} (hf : FlagL ts) :
    FlagR (NoAmp ts) st.nesting (fun x => ampL x.1) (fun x => x.2.1.nesting) (afterNesting o st ts) ∧
    ∀ x, afterNesting o st ts = .ok x → ∀ t ∈ x.2.2, t ∈ ts := by
  unfold afterNesting
  cases hq : qname ts with
  | err => exact ⟨⟨fun a h => by simp at h, fun b h _ => by simp at h; exact h.symm⟩, fun x h => by simp at h⟩
  | stop => exact simples_flag _ hf
  | eof =>
    refine ⟨⟨fun a h => ?_, fun b h => by simp at h⟩, fun x h => ?_⟩
    · simp at h; subst h; simp [ampL]
    · simp at h; subst h; simp
  | ok c r =>
    obtain ⟨hc, hr⟩ := qname_sub hq
    simp only
    split
    · exact ⟨⟨fun a h => by simp at h, fun b h _ => by simp at h; exact h.symm⟩, fun x h => by simp at h⟩
    · obtain ⟨⟨g1, g2⟩, g3⟩ := simples_flag (o := o) (r.length + 1) (st := st) (flagL_sub hf hr)
      cases hx : simples o (r.length + 1) st r with
      | error e =>
        refine ⟨⟨fun a h => by simp [Except.map] at h, fun b h hA => ?_⟩, fun x h => by simp [Except.map] at h⟩
        simp [Except.map] at h
        subst h
        exact g2 _ hx (noAmp_sub hA hr)
      | ok y =>
        refine ⟨⟨fun a h => ?_, fun b h => by simp [Except.map] at h⟩, fun x h => ?_⟩
        · simp [Except.map] at h
          subst h
          obtain ⟨q1, q2⟩ := g1 _ hx
          simp only [ampL, hc, Bool.false_or]
          exact ⟨q1, fun hA => q2 (noAmp_sub hA hr)⟩
        · simp [Except.map] at h
          subst h
          exact fun t ht => hr t (g3 _ hx t ht)

theorem skipWs_sub (ts : List LTok) : ∀ t ∈ skipWs ts, t ∈ ts := by
  induction ts with
  | nil => simp [skipWs]
  | cons x ts ih =>
    unfold skipWs
    split
    · next heq => simp at heq; obtain ⟨rfl, rfl⟩ := heq; exact fun t ht => by simp [ih t ht]
    · exact fun t ht => ht

theorem compound_flag {st : St} {ts : List LTok} (hf : FlagL ts) :
    FlagR (NoAmp ts) st.nesting (fun x => ampL x.1) (fun x => x.2.1.nesting) (compound o st ts) ∧
    ∀ x, compound o st ts = .ok x → ∀ t ∈ x.2.2, t ∈ ts := by
  have hsub := skipWs_sub ts
  unfold compound
  split
  · next r heq =>
    rw [heq] at hsub
    have hr : ∀ t ∈ r, t ∈ ts := fun t ht => hsub t (by simp [ht])
    obtain ⟨⟨g1, g2⟩, g3⟩ := afterNesting_flag (o := o) (st := { st with nesting := true }) (flagL_sub hf hr)
    have hno : ¬ NoAmp ts := fun h => h.1 (hsub _ (by simp))
    cases hx : afterNesting o { st with nesting := true } r with
    | error e => exact ⟨⟨fun a h => by simp [Except.map] at h, fun b h hA => absurd hA hno⟩, fun x h => by simp [Except.map] at h⟩
    | ok y =>
      refine ⟨⟨fun a h => ?_, fun b h => by simp [Except.map] at h⟩, fun x h => ?_⟩
      · simp [Except.map] at h
        subst h
        exact ⟨fun _ => (g1 _ hx).1 (.inl rfl), fun hA => absurd hA hno⟩
      · simp [Except.map] at h
        subst h
        exact fun t ht => hr t (g3 _ hx t ht)
  · obtain ⟨⟨g1, g2⟩, g3⟩ := afterNesting_flag (o := o) (st := st) (flagL_sub hf hsub)
    exact ⟨⟨fun a h => ⟨(g1 a h).1, fun hA => (g1 a h).2 (noAmp_sub hA hsub)⟩, fun b h hA => g2 b h (noAmp_sub hA hsub)⟩,
      fun x h t ht => hsub t (g3 x h t ht)⟩

theorem nextComb_sub (w : Bool) : ∀ {ts : List LTok} {k : Comb} {r : List LTok}, nextComb w ts = .comb k r → ∀ t ∈ r, t ∈ ts := by
  intro ts
  induction ts generalizing w with
  | nil => intro k r h; simp [nextComb] at h
  | cons x ts ih =>
    intro k r h
    unfold nextComb at h
    split at h
    · simp at h
    · next heq => simp at heq; obtain ⟨rfl, rfl⟩ := heq; exact fun t ht => by simp [ih true h t ht]
    · next heq => simp at heq h; obtain ⟨rfl, rfl⟩ := heq; obtain ⟨rfl, rfl⟩ := h; exact fun t ht => by simp [ht]
    · next heq => simp at heq h; obtain ⟨rfl, rfl⟩ := heq; obtain ⟨rfl, rfl⟩ := h; exact fun t ht => by simp [ht]
    · next heq => simp at heq h; obtain ⟨rfl, rfl⟩ := heq; obtain ⟨rfl, rfl⟩ := h; exact fun t ht => by simp [ht]
    · split at h
      · simp at h; obtain ⟨rfl, rfl⟩ := h; exact fun t ht => ht
      · simp at h

theorem ampL_append (a b : List Comp) : ampL (a ++ b) = (ampL a || ampL b) := by
  induction a with
  | nil => simp [ampL]
  | cons c a ih => simp [ampL, ih, Bool.or_assoc]

theorem complex_flag (n : Nat) : ∀ {st : St} {ts : List LTok}, FlagL ts →
    FlagR (NoAmp ts) st.nesting (fun x => ampL x.1) (fun x => x.2.nesting) (complex o n st ts) := by
  induction n with
  | zero => intro st ts _; exact ⟨fun a h => by simp [complex] at h, fun b h _ => by simp [complex] at h; exact h.symm⟩
  | succ n ih =>
    intro st ts hf
    obtain ⟨⟨g1, g2⟩, g3⟩ := compound_flag (o := o) (st := st) hf
    rw [complex]
    cases hc : compound o st ts with
    | error e => exact ⟨fun a h => by simp at h, fun b h hA => by simp at h; subst h; exact g2 _ hc hA⟩
    | ok x =>
      obtain ⟨cs, st1, r⟩ := x
      obtain ⟨q1, q2⟩ := g1 _ hc
      have q3 := g3 _ hc
      simp only at q1 q2 q3
      cases cs with
      | nil => exact ⟨fun a h => by simp at h, fun b h hA => by simp at h; subst h; exact q2 hA⟩
      | cons c cs =>
        simp only
        have herr : FlagR (NoAmp ts) st.nesting (fun x : Sel × St => ampL x.1) (fun x => x.2.nesting) (.error st1.nesting) :=
          ⟨fun a h => by simp at h, fun b h hA => by simp at h; subst h; exact q2 hA⟩
        have hend : FlagR (NoAmp ts) st.nesting (fun x : Sel × St => ampL x.1) (fun x => x.2.nesting) (.ok (c :: cs, st1)) :=
          ⟨fun a h => by simp at h; subst h; exact ⟨q1, q2⟩, fun b h => by simp at h⟩
        split
        · split
          · exact hend
          · exact herr
        · cases hk : nextComb false r with
          | done => exact hend
          | bad => exact herr
          | comb k r' =>
            simp only
            split
            · exact herr
            · have hr' : ∀ t ∈ r', t ∈ ts := fun t ht => q3 t (nextComb_sub _ hk t ht)
              obtain ⟨p1, p2⟩ := ih (st := st1) (flagL_sub hf hr')
              cases hx : complex o n st1 r' with
              | error e =>
                refine ⟨fun a h => by simp [Except.map] at h, fun b h hA => ?_⟩
                simp [Except.map] at h
                subst h
                rw [p2 _ hx (noAmp_sub hA hr'), q2 hA]
              | ok y =>
                refine ⟨fun a h => ?_, fun b h => by simp [Except.map] at h⟩
                simp [Except.map] at h
                subst h
                obtain ⟨s1, s2⟩ := p1 _ hx
                simp only at s1 s2
                refine ⟨?_, fun hA => by simp only; rw [s2 (noAmp_sub hA hr'), q2 hA]⟩
                rintro (h | h)
                · exact s1 (.inl (q1 (.inl h)))
                · simp only at h
                  rw [← List.cons_append, ampL_append, Bool.or_eq_true] at h
                  rcases h with h | h
                  · exact s1 (.inl (q1 (.inr h)))
                  · rw [ampL] at h
                    simp [Comp.amp] at h
                    exact s1 (.inr h)

theorem selector_flag_out {st : St} {ts : List LTok} (hf : FlagL ts) : FlagOut (NoAmp ts) st.nesting ampL (selector o .none st ts) := by
  obtain ⟨h1, h2⟩ := complex_flag (o := o) (ts.length + 1) (st := st) hf
  rw [selector_none]
  cases hx : complex o (ts.length + 1) st ts with
  | error e => exact ⟨fun a b h => by simp at h, fun b h hA => by simp at h; subst h; exact h2 _ hx hA⟩
  | ok y =>
    refine ⟨fun a b h => ?_, fun b h => by simp at h⟩
    simp at h
    obtain ⟨rfl, rfl⟩ := h
    exact h1 _ hx

theorem relative_flag_out {st : St} {ts : List LTok} (hf : FlagL ts) : FlagOut (NoAmp ts) st.nesting ampL (relative o .none st ts) := by
  have hsub := skipWs_sub ts
  have comb : ∀ k r, (∀ t ∈ r, t ∈ ts) → FlagOut (NoAmp ts) st.nesting ampL
      ((selector o .none st r).map fun x => ((if Req.none = .implicit then Comp.nesting else .pclass cs!"scope") :: .comb k :: x.1, x.2)) := by
    intro k r hr
    obtain ⟨h1, h2⟩ := selector_flag_out (o := o) (st := st) (flagL_sub hf hr)
    cases hx : selector o .none st r with
    | error e => exact ⟨fun a b h => by simp [Except.map] at h, fun b h hA => by simp [Except.map] at h; subst h; exact h2 _ hx (noAmp_sub hA hr)⟩
    | ok y =>
      refine ⟨fun a b h => ?_, fun b h => by simp [Except.map] at h⟩
      simp [Except.map] at h
      obtain ⟨rfl, rfl⟩ := h
      obtain ⟨q1, q2⟩ := h1 _ _ hx
      refine ⟨fun h => q1 ?_, fun hA => q2 (noAmp_sub hA hr)⟩
      simpa [ampL, Comp.amp] using h
  unfold relative
  simp only at comb ⊢
  generalize (if Req.none = .implicit then Comp.nesting else .pclass cs!"scope") = scope at comb ⊢
  split
  · exact ⟨fun a b h => by simp at h, fun b h _ => by simp at h; exact h.symm⟩
  · next r heq => rw [heq] at hsub; exact comb _ _ fun t ht => hsub t (by simp [ht])
  · next r heq => rw [heq] at hsub; exact comb _ _ fun t ht => hsub t (by simp [ht])
  · next r heq => rw [heq] at hsub; exact comb _ _ fun t ht => hsub t (by simp [ht])
  · obtain ⟨h1, h2⟩ := selector_flag_out (o := o) (st := st) (flagL_sub hf hsub)
    exact ⟨fun a b h => ⟨(h1 a b h).1, fun hA => (h1 a b h).2 (noAmp_sub hA hsub)⟩, fun b h hA => h2 b h (noAmp_sub hA hsub)⟩

theorem listLoop_flag {A : Prop} {b0 : Bool} {f : Bool} {P : List LTok → Out (Sel × Bool)} (xs : List (List LTok))
    (h : ∀ x ∈ xs, FlagOut A b0 ampL (P x)) : ∀ b, (b0 = true → b = true) → (A → b = b0) →
    (∀ l b', listLoop f P xs b = .ok (l, b') → (b = true ∨ ampLL l = true → b' = true) ∧ (A → b' = b0)) ∧ ∀ b', listLoop f P xs b = .error b' → A → b' = b0 := by
  induction xs with
  | nil =>
    intro b hb hA
    refine ⟨fun l b' e => ?_, fun b' e => by simp [listLoop] at e⟩
    simp [listLoop] at e
    obtain ⟨rfl, rfl⟩ := e
    exact ⟨by simp [ampLL], hA⟩
  | cons x xs ih =>
    intro b hb hA
    obtain ⟨h1, h2⟩ := h x (by simp)
    have ih' := ih fun y hy => h y (by simp [hy])
    rw [listLoop]
    cases hx : P x with
    | ok y =>
      obtain ⟨s, b1⟩ := y
      obtain ⟨q1, q2⟩ := h1 _ _ hx
      obtain ⟨r1, r2⟩ := ih' (b || b1) (fun h => by rw [hb h]; rfl) (fun h => by rw [hA h, q2 h]; simp)
      simp only
      cases hl : listLoop f P xs (b || b1) with
      | error e => exact ⟨fun l b' e => by simp [Except.map] at e, fun b' e hA' => by simp [Except.map] at e; subst e; exact r2 _ hl hA'⟩
      | ok z =>
        refine ⟨fun l b' e => ?_, fun b' e => by simp [Except.map] at e⟩
        simp [Except.map] at e
        obtain ⟨rfl, rfl⟩ := e
        obtain ⟨s1, s2⟩ := r1 _ _ hl
        refine ⟨?_, s2⟩
        simp only [ampLL, Bool.or_eq_true]
        rintro (h | h | h)
        · exact s1 (.inl (by simp [h]))
        · exact s1 (.inl (by simp [q1 (.inr h)]))
        · exact s1 (.inr h)
    | error b1 =>
      have q := h2 _ hx
      simp only
      cases f with
      | false => exact ⟨fun l b' e => by simp at e, fun b' e hA' => by simp at e; rw [← e, hA hA', q hA']; simp⟩
      | true =>
        obtain ⟨r1, r2⟩ := ih' (b || b1) (fun h => by rw [hb h]; rfl) (fun h => by rw [hA h, q h]; simp)
        simp only [if_true]
        refine ⟨fun l b' e => ⟨fun h => (r1 l b' e).1 ?_, (r1 l b' e).2⟩, r2⟩
        rcases h with h | h
        · left; simp [h]
        · exact .inr h

theorem splitComma_sub {ts p : List LTok} (h : p ∈ splitComma ts) : ∀ t ∈ p, t ∈ ts := by
  induction ts generalizing p with
  | nil => simp [splitComma] at h; subst h; simp
  | cons x ts ih =>
    unfold splitComma at h
    split at h
    · simp at h; subst h; simp
    · next heq =>
      simp at heq
      obtain ⟨rfl, rfl⟩ := heq
      simp at h
      rcases h with rfl | h
      · simp
      · exact fun t ht => by simp [ih h t ht]
    · next heq =>
      simp at heq
      obtain ⟨rfl, rfl⟩ := heq
      split at h
      · simp at h; subst h; simp
      · next q qs heq =>
        rw [heq] at ih
        simp at h
        rcases h with rfl | h
        · intro t ht
          simp at ht
          rcases ht with rfl | ht
          · simp
          · simp [ih (by simp : q ∈ q :: qs) t ht]
        · intro t ht
          simp [ih (by simp [h] : p ∈ q :: qs) t ht]

theorem entries_flag {ts : List LTok} (hf : FlagL ts) : FlagE (NoAmp ts) (entries o ts) where
  list st f := by
    obtain ⟨h1, h2⟩ := listLoop_flag (A := NoAmp ts) (b0 := st.nesting) (f := f) (P := selector o .none st) (splitComma ts) (by
      intro x hx
      obtain ⟨g1, g2⟩ := selector_flag_out (o := o) (st := st) (flagL_sub hf (splitComma_sub hx))
      exact ⟨fun a b h => ⟨(g1 a b h).1, fun hA => (g1 a b h).2 (noAmp_sub hA (splitComma_sub hx))⟩, fun b h hA => g2 b h (noAmp_sub hA (splitComma_sub hx))⟩)
      st.nesting id (fun _ => rfl)
    exact ⟨h1, h2⟩
  relative st := by
    obtain ⟨h1, h2⟩ := listLoop_flag (A := NoAmp ts) (b0 := st.nesting) (f := true) (P := relative o .none st) (splitComma ts) (by
      intro x hx
      obtain ⟨g1, g2⟩ := relative_flag_out (o := o) (st := st) (flagL_sub hf (splitComma_sub hx))
      exact ⟨fun a b h => ⟨(g1 a b h).1, fun hA => (g1 a b h).2 (noAmp_sub hA (splitComma_sub hx))⟩, fun b h hA => g2 b h (noAmp_sub hA (splitComma_sub hx))⟩)
      st.nesting id (fun _ => rfl)
    exact ⟨h1, h2⟩
  inner st := selector_flag_out hf

theorem noAmp_liftL (ts : List Tok) : NoAmp (liftL o ts) ↔ toksAmp ts = false := by
  induction ts with
  | nil => simp [NoAmp, toksAmp]
  | cons t ts ih =>
    have : NoAmp (liftL o (t :: ts)) ↔ t.amp = false ∧ NoAmp (liftL o ts) := by
      cases t with
      | delim c =>
        simp [NoAmp, lift, Tok.amp, eq_comm (a := '&')]
        tauto
      | func n args =>
        simp only [NoAmp, liftL_cons, lift, List.mem_cons, LTok.func.injEq, reduceCtorEq, false_or, Tok.amp]
        constructor
        · rintro ⟨h1, h2⟩
          exact ⟨h2 n args _ (.inl ⟨rfl, rfl, rfl⟩), h1, fun n a e h => h2 n a e (.inr h)⟩
        · rintro ⟨h1, h2, h3⟩
          refine ⟨h2, ?_⟩
          rintro n' a e (⟨rfl, rfl, rfl⟩ | h)
          · exact h1
          · exact h3 n' a e h
      | _ => simp [NoAmp, lift, Tok.amp]
    rw [this, ih, toksAmp, Bool.or_eq_false_iff]

mutual
theorem flagTok (o : Opts) : ∀ t n args e, lift o t = .func n args e → FlagE (toksAmp args = false) e
  | .func m as, n, args, e, h => by
    have ih := flagToks o as
    simp only [lift, LTok.func.injEq] at h
    obtain ⟨rfl, rfl, rfl⟩ := h
    have := entries_flag (o := o) (ts := liftL o as) ih
    have e : NoAmp (liftL o as) = (toksAmp as = false) := propext (noAmp_liftL as)
    rw [e] at this
    exact this
  | .ident _, _, _, _, h | .idHash _, _, _, _, h | .str _, _, _, _, h | .delim _, _, _, _, h | .op _, _, _, _, h | .colon, _, _, _, h
  | .comma, _, _, _, h | .ws, _, _, _, h | .anb _ _, _, _, _, h | .bracket _, _, _, _, h | .other _, _, _, _, h => by simp [lift] at h
theorem flagToks (o : Opts) : ∀ ts : List Tok, FlagL (liftL o ts)
  | [] => by intro n args e h; simp at h
  | t :: ts => by
    have h1 := flagTok o t
    have h2 := flagToks o ts
    intro n args e h
    rw [liftL_cons, List.mem_cons] at h
    rcases h with h | h
    · exact h1 n args e h.symm
    · exact h2 n args e h
end

/-- The flag after a selector. -/
theorem selector_seen {st : St} {ts : List Tok} {s : Sel} {b : Bool} (h : selector o .none st (liftL o ts) = .ok (s, b)) (hst : st.nesting = false) :
    (ampL s = true → b = true) ∧ (toksAmp ts = false → b = false) := by
  obtain ⟨h1, _⟩ := selector_flag_out (o := o) (st := st) (flagToks o ts)
  obtain ⟨g1, g2⟩ := h1 _ _ h
  exact ⟨fun h => g1 (.inr h), fun h => by rw [g2 ((noAmp_liftL ts).2 h), hst]⟩

end Verif.SelParse
