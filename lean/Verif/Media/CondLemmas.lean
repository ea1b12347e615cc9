import Verif.Media.ParseLemmas
/-! The condition parser is sound and complete for `PCond`, and `PCond` agrees with the specification. -/
namespace Verif.Media

theorem beq_word (o : Operator) (s : Str) :
    (lowerAscii s == o.word) = true ↔ Kw s o.word := by
  simp [Kw]

/-- Soundness of the four parser functions at one fuel. -/
def PSound (fuel : Nat) : Prop :=
  (∀ b ts c rest, parseCond fuel b ts = some (c, rest) → ∃ pre, ts = pre ++ rest ∧ PCond b pre c) ∧
  (∀ o first ts c rest, parseOpRest fuel o first ts = some (c, rest) →
    ∃ t pre second cs, ts = t :: pre ++ rest ∧ c = .op o (first :: second :: cs) ∧ PParens t second ∧
      ((pre = [] ∧ cs = []) ∨ PTail o pre cs)) ∧
  (∀ o ts cs rest, parseLoop fuel o ts = some (cs, rest) →
    ∃ pre, ts = pre ++ rest ∧ ((pre = [] ∧ cs = []) ∨ PTail o pre cs)) ∧
  (∀ inner c, parseParenBlock fuel inner = some c → PParens (.paren inner) c)

theorem psound (fuel : Nat) : PSound fuel := by
  induction fuel with
  | zero =>
    refine ⟨?_, ?_, ?_, ?_⟩ <;> intros <;> simp_all [parseCond, parseOpRest, parseLoop, parseParenBlock]
  | succ n ih =>
    obtain ⟨ih1, ih2, ih3, ih4⟩ := ih
    refine ⟨?_, ?_, ?_, ?_⟩
    · intro b ts c rest h
      unfold parseCond at h
      split at h
      · rename_i inner rest0
        split at h
        · contradiction
        rename_i first hfirst
        have hp := ih4 _ _ hfirst
        split at h
        · rename_i s rest1
          split at h
          · rename_i hs
            obtain ⟨t, pre, second, cs, rfl, rfl, hp2, htail⟩ := ih2 _ _ _ _ _ h
            refine ⟨.paren inner :: .ident s :: t :: pre, by simp, .and hp ?_⟩
            rcases htail with ⟨rfl, rfl⟩ | ht
            · exact .last (eq_of_beq hs) hp2
            · exact .more (eq_of_beq hs) hp2 ht
          · split at h
            · rename_i hs
              split at h
              · rename_i hb
                subst hb
                obtain ⟨t, pre, second, cs, rfl, rfl, hp2, htail⟩ := ih2 _ _ _ _ _ h
                refine ⟨.paren inner :: .ident s :: t :: pre, by simp, .or hp ?_⟩
                rcases htail with ⟨rfl, rfl⟩ | ht
                · exact .last (eq_of_beq hs) hp2
                · exact .more (eq_of_beq hs) hp2 ht
              · contradiction
            · cases h
              exact ⟨[.paren inner], rfl, .single hp⟩
        · cases h
          exact ⟨[.paren inner], rfl, .single hp⟩
      · rename_i s inner rest0
        split at h
        · rename_i hs
          split at h
          · contradiction
          rename_i c' hc
          cases h
          exact ⟨[.ident s, .paren inner], rfl, .not (eq_of_beq hs) (ih4 _ _ hc)⟩
        · contradiction
      · contradiction
    · intro o first ts c rest h
      unfold parseOpRest at h
      split at h
      · rename_i inner rest0
        split at h
        · contradiction
        rename_i second hsecond
        split at h
        · contradiction
        rename_i cs rest1 hloop
        cases h
        obtain ⟨pre, rfl, htail⟩ := ih3 _ _ _ _ hloop
        exact ⟨.paren inner, pre, second, cs, rfl, rfl, ih4 _ _ hsecond, htail⟩
      · contradiction
    · intro o ts cs rest h
      unfold parseLoop at h
      split at h
      · rename_i s rest0
        split at h
        · rename_i hs
          have hkw := (beq_word o s).1 hs
          split at h
          · rename_i inner rest1
            split at h
            · contradiction
            rename_i c hc
            split at h
            · contradiction
            rename_i cs' rest2 hloop
            cases h
            obtain ⟨pre, rfl, htail⟩ := ih3 _ _ _ _ hloop
            refine ⟨.ident s :: .paren inner :: pre, by simp, .inr ?_⟩
            rcases htail with ⟨rfl, rfl⟩ | ht
            · exact .last hkw (ih4 _ _ hc)
            · exact .more hkw (ih4 _ _ hc) ht
          · contradiction
        · cases h
          exact ⟨[], rfl, .inl ⟨rfl, rfl⟩⟩
      · cases h
        exact ⟨[], rfl, .inl ⟨rfl, rfl⟩⟩
    · intro inner c h
      unfold parseParenBlock at h
      split at h
      · contradiction
      split at h
      · rename_i c' rest hc
        split at h
        · rename_i hr
          cases h
          obtain ⟨pre, hpre, hp⟩ := ih1 _ _ _ _ hc
          have : rest = [] := by simpa using hr
          subst this
          rw [List.append_nil] at hpre
          subst hpre
          exact .cond hp
        · contradiction
      · split at h
        · rename_i f rest hf
          split at h
          · rename_i hr
            cases h
            have : rest = [] := by simpa using hr
            subst this
            exact .feature hf
          · contradiction
        · contradiction

/-! ### Completeness -/

theorem FForm.no_paren {ts : List Tok} {f : Feature} (h : FForm ts f []) :
    ts ≠ [] ∧ ∀ b fuel, parseCond fuel b ts = none := by
  generalize hr : ([] : List Tok) = rest at h
  have val : ∀ {tv v} (hv : ValText tv v) (r : List Tok), (∀ x, tv ≠ .ident x) →
      ∀ b fuel, parseCond fuel b (tv :: r) = none := by
    intro tv v hv r hx b fuel
    cases hv with
    | ident s => exact absurd rfl (hx s)
    | other => cases fuel <;> simp [parseCond]
  cases h with
  | boolean => subst hr; exact ⟨by simp, fun b fuel => by cases fuel <;> simp [parseCond]⟩
  | plain => subst hr; exact ⟨by simp, fun b fuel => by cases fuel <;> simp [parseCond]⟩
  | minmax => subst hr; exact ⟨by simp, fun b fuel => by cases fuel <;> simp [parseCond]⟩
  | range _ ho => subst hr; exact ⟨by simp, fun b fuel => by cases fuel <;> cases ho <;> simp [parseCond]⟩
  | flip _ _ hv hx => subst hr; exact ⟨by simp, val hv _ hx⟩
  | interval _ _ _ hv _ hx => subst hr; exact ⟨by simp, val hv _ hx⟩

theorem PParens.is_paren {t : Tok} {c : Cond} (h : PParens t c) : ∃ ts, t = .paren ts := by
  cases h <;> exact ⟨_, rfl⟩

theorem PTail.starts {o : Operator} {ts : List Tok} {cs : List Cond} (h : PTail o ts cs) :
    ∃ s inner rest, ts = .ident s :: .paren inner :: rest ∧ Kw s o.word := by
  cases h with
  | last hk hp => obtain ⟨inner, rfl⟩ := hp.is_paren; exact ⟨_, inner, _, rfl, hk⟩
  | more hk hp _ => obtain ⟨inner, rfl⟩ := hp.is_paren; exact ⟨_, inner, _, rfl, hk⟩

theorem PCond.ne_nil {b : Bool} {ts : List Tok} {c : Cond} (h : PCond b ts c) : ts ≠ [] := by
  cases h <;> simp

mutual
theorem PParens.complete {t : Tok} {c : Cond} (h : PParens t c) :
    ∃ inner, t = .paren inner ∧ ∃ n, ∀ fuel ≥ n, parseParenBlock fuel inner = some c := by
  match h with
  | .cond (ts := ts) hc =>
    refine ⟨ts, rfl, ?_⟩
    obtain ⟨n, hn⟩ := PCond.complete hc
    refine ⟨n + 1, fun fuel hf => ?_⟩
    obtain ⟨fuel, rfl⟩ : ∃ k, fuel = k + 1 := ⟨fuel - 1, by omega⟩
    unfold parseParenBlock
    simp only [hn fuel (by omega)]
    have := hc.ne_nil
    cases ts <;> simp_all
  | .feature (ts := ts) (f := f) hf =>
    refine ⟨ts, rfl, 1, fun fuel hfu => ?_⟩
    obtain ⟨fuel, rfl⟩ : ∃ k, fuel = k + 1 := ⟨fuel - 1, by omega⟩
    have hno := (Feature.parse_form hf).no_paren
    unfold parseParenBlock
    simp only [hno.2 true fuel, hf]
    have := hno.1
    cases ts <;> simp_all
theorem PCond.complete {b : Bool} {ts : List Tok} {c : Cond} (h : PCond b ts c) :
    ∃ n, ∀ fuel ≥ n, parseCond fuel b ts = some (c, []) := by
  match h with
  | .single hp =>
    obtain ⟨inner, rfl, n, hn⟩ := PParens.complete hp
    refine ⟨n + 1, fun fuel hf => ?_⟩
    obtain ⟨fuel, rfl⟩ : ∃ k, fuel = k + 1 := ⟨fuel - 1, by omega⟩
    simp [parseCond, hn fuel (by omega)]
  | .not hk hp =>
    obtain ⟨inner, rfl, n, hn⟩ := PParens.complete hp
    refine ⟨n + 1, fun fuel hf => ?_⟩
    obtain ⟨fuel, rfl⟩ : ∃ k, fuel = k + 1 := ⟨fuel - 1, by omega⟩
    unfold Kw at hk
    simp [parseCond, hn fuel (by omega), hk]
  | .and hp ht =>
    obtain ⟨inner, rfl, n, hn⟩ := PParens.complete hp
    obtain ⟨s, t, ts', second, cs', rfl, rfl, hk, hinner, m, hm⟩ := PTail.complete ht
    refine ⟨n + m + 3, fun fuel hf => ?_⟩
    obtain ⟨fuel, rfl⟩ : ∃ k, fuel = k + 2 := ⟨fuel - 2, by omega⟩
    obtain ⟨hm1, hm2⟩ := hm fuel (by omega)
    simp only [Kw, Operator.word] at hk
    simp [parseCond, hn (fuel + 1) (by omega), hk, parseOpRest, hm1, hm2]
  | .or hp ht =>
    obtain ⟨inner, rfl, n, hn⟩ := PParens.complete hp
    obtain ⟨s, t, ts', second, cs', rfl, rfl, hk, hinner, m, hm⟩ := PTail.complete ht
    refine ⟨n + m + 3, fun fuel hf => ?_⟩
    obtain ⟨fuel, rfl⟩ : ∃ k, fuel = k + 2 := ⟨fuel - 2, by omega⟩
    obtain ⟨hm1, hm2⟩ := hm fuel (by omega)
    simp only [Kw, Operator.word] at hk
    simp [parseCond, hn (fuel + 1) (by omega), hk, parseOpRest, hm1, hm2]
theorem PTail.complete {o : Operator} {ts : List Tok} {cs : List Cond} (h : PTail o ts cs) :
    ∃ s inner ts' c cs', ts = .ident s :: .paren inner :: ts' ∧ cs = c :: cs' ∧ Kw s o.word ∧
      PParens (.paren inner) c ∧
      ∃ n, ∀ fuel ≥ n, parseParenBlock fuel inner = some c ∧ parseLoop fuel o ts' = some (cs', []) := by
  match h with
  | .last (s := s) (c := c) hk hp =>
    obtain ⟨inner, rfl, n, hn⟩ := PParens.complete hp
    refine ⟨s, inner, [], c, [], rfl, rfl, hk, hp, n + 1, fun fuel hf => ⟨hn fuel (by omega), ?_⟩⟩
    obtain ⟨fuel, rfl⟩ : ∃ k, fuel = k + 1 := ⟨fuel - 1, by omega⟩
    simp [parseLoop]
  | .more (s := s) (c := c) (ts := ts) (cs := cs) hk hp ht =>
    obtain ⟨inner, rfl, n, hn⟩ := PParens.complete hp
    obtain ⟨s2, inner2, ts2, c2, cs2, rfl, rfl, hk2, hp2, m, hm⟩ := PTail.complete ht
    refine ⟨s, inner, _, c, _, rfl, rfl, hk, hp, n + m + 1, fun fuel hf => ⟨hn fuel (by omega), ?_⟩⟩
    obtain ⟨fuel, rfl⟩ : ∃ k, fuel = k + 1 := ⟨fuel - 1, by omega⟩
    obtain ⟨hm1, hm2⟩ := hm fuel (by omega)
    have hk2' := (beq_word o s2).2 hk2
    unfold parseLoop
    cases o <;> simp_all [Operator.word, Kw]
end

/-! ### Agreement with the specification -/

mutual
/-- Tokens free of the two texts the code reads differently from the specification: the odd names
(`min--webkit-device-pixel-ratio`) as a feature name, and a prefixed name without value (`(min-width)`). -/
def CleanTok : Tok → Prop
  | .paren ts => CleanToks ts ∧ NoOdd ts ∧ ∀ s, ts = [.ident s] → ∀ id o, ¬ NameText (lowerAscii s) id (some o)
  | _ => True
/-- All tokens of a list are clean. -/
def CleanToks : List Tok → Prop
  | [] => True
  | t :: ts => CleanTok t ∧ CleanToks ts
end

theorem CleanToks.append {a b : List Tok} : CleanToks (a ++ b) ↔ CleanToks a ∧ CleanToks b := by
  induction a with
  | nil => simp [CleanToks]
  | cons t ts ih => simp [CleanToks, ih, and_assoc]

theorem CondMeans.congr {ts : List Tok} {m m' : Device → K3} (h : CondMeans ts m) (e : ∀ d, m d = m' d) :
    CondMeans ts m' := by
  have : m = m' := funext e
  rwa [← this]

theorem CondNoOr.congr {ts : List Tok} {m m' : Device → K3} (h : CondNoOr ts m) (e : ∀ d, m d = m' d) :
    CondNoOr ts m' := by
  have : m = m' := funext e
  rwa [← this]

theorem AndTail.congr {ts : List Tok} {m m' : Device → K3} (h : AndTail ts m) (e : ∀ d, m d = m' d) :
    AndTail ts m' := by
  have : m = m' := funext e
  rwa [← this]

theorem OrTail.congr {ts : List Tok} {m m' : Device → K3} (h : OrTail ts m) (e : ∀ d, m d = m' d) :
    OrTail ts m' := by
  have : m = m' := funext e
  rwa [← this]

theorem K3.and_t (a : K3) : a.and .t = a := by cases a <;> rfl
theorem K3.or_f (a : K3) : a.or .f = a := by cases a <;> rfl

mutual
theorem PParens.means {t : Tok} {c : Cond} (h : PParens t c) (hc : CleanTok t) :
    InParens t (fun d => c.eval d) := by
  match h with
  | .cond hp =>
    simp only [CleanTok] at hc
    exact .cond (PCond.means hp hc.1).1
  | .feature hf =>
    simp only [CleanTok] at hc
    rcases (Feature.parse_form hf).means hc.2.1 with hm | ⟨s, hs, id, o, ht⟩
    · simp only [Cond.eval]
      exact .feature hm
    · exact absurd ht (hc.2.2 s hs id o)
theorem PCond.means {b : Bool} {ts : List Tok} {c : Cond} (h : PCond b ts c) (hc : CleanToks ts) :
    CondMeans ts (fun d => c.eval d) ∧ (b = false → CondNoOr ts (fun d => c.eval d)) := by
  match h with
  | .single hp =>
    simp only [CleanToks] at hc
    have := CondNoOr.single (PParens.means hp hc.1)
    exact ⟨.withoutOr this, fun _ => this⟩
  | .not hk hp =>
    simp only [CleanToks] at hc
    have := CondNoOr.not hk (PParens.means hp hc.2.1)
    simp only [Cond.eval]
    exact ⟨.withoutOr this, fun _ => this⟩
  | .and hp ht =>
    simp only [CleanToks] at hc
    have := CondNoOr.and (PParens.means hp hc.1) ((PTail.means ht hc.2).1 rfl)
    simp only [Cond.eval, Cond.evalAll]
    exact ⟨.withoutOr this, fun _ => this⟩
  | .or hp ht =>
    simp only [CleanToks] at hc
    have := CondMeans.or (PParens.means hp hc.1) ((PTail.means ht hc.2).2 rfl)
    simp only [Cond.eval, Cond.evalAny]
    exact ⟨this, fun h => absurd h (by simp)⟩
theorem PTail.means {o : Operator} {ts : List Tok} {cs : List Cond} (h : PTail o ts cs) (hc : CleanToks ts) :
    (o = .and → AndTail ts (fun d => Cond.evalAll d cs)) ∧ (o = .or → OrTail ts (fun d => Cond.evalAny d cs)) := by
  match h with
  | .last hk hp =>
    simp only [CleanToks] at hc
    have hm := PParens.means hp hc.2.1
    refine ⟨?_, ?_⟩
    · rintro rfl
      exact (AndTail.last hk hm).congr fun d => by simp [Cond.evalAll, K3.and_t]
    · rintro rfl
      exact (OrTail.last hk hm).congr fun d => by simp [Cond.evalAny, K3.or_f]
  | .more hk hp ht =>
    simp only [CleanToks] at hc
    have hm := PParens.means hp hc.2.1
    have ht' := PTail.means ht hc.2.2
    refine ⟨?_, ?_⟩
    · rintro rfl
      exact (AndTail.more hk hm (ht'.1 rfl)).congr fun d => by simp [Cond.evalAll]
    · rintro rfl
      exact (OrTail.more hk hm (ht'.2 rfl)).congr fun d => by simp [Cond.evalAny]
end

end Verif.Media
