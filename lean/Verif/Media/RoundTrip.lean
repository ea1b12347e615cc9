import Verif.Media.PrintLemmas
/-! Induction over conditions: every well-formed condition prints to text that parses back with the same meaning. -/
namespace Verif.Media

/-- One or more blocks joined by the operator's keyword. -/
inductive Seq (o : Operator) : List Tok → List Cond → Prop where
  | one {t c} : PParens t c → Seq o [t] [c]
  | more {t c ts cs} : PParens t c → PTail o ts cs → Seq o (t :: ts) (c :: cs)

/-- Conjunction or disjunction of a list. -/
def evalOp (d : Device) : Operator → List Cond → K3
  | .and, cs => Cond.evalAll d cs
  | .or, cs => Cond.evalAny d cs

/-- Kleene connective of an operator. -/
def Operator.conn : Operator → K3 → K3 → K3
  | .and => K3.and
  | .or => K3.or

theorem evalOp_cons (d : Device) (o : Operator) (c : Cond) (cs : List Cond) :
    evalOp d o (c :: cs) = o.conn (c.eval d) (evalOp d o cs) := by
  cases o <;> rfl

theorem evalOp_single (d : Device) (o : Operator) (c : Cond) : evalOp d o [c] = c.eval d := by
  cases o
  · simp [evalOp, Cond.evalAll, K3.and_t]
  · simp [evalOp, Cond.evalAny, K3.or_f]

theorem conn_assoc (o : Operator) (a b c : K3) : o.conn (o.conn a b) c = o.conn a (o.conn b c) := by
  cases o <;> cases a <;> cases b <;> cases c <;> rfl

theorem evalOp_append (d : Device) (o : Operator) (as bs : List Cond) (ha : as ≠ []) :
    evalOp d o (as ++ bs) = o.conn (evalOp d o as) (evalOp d o bs) := by
  induction as with
  | nil => exact absurd rfl ha
  | cons a as ih =>
    by_cases h : as = []
    · subst h; rw [evalOp_single]; simp [evalOp_cons]
    · simp only [List.cons_append, evalOp_cons, ih h, conn_assoc]

/-- Tokens that form a sequence with meaning `m`. -/
def SeqGood (o : Operator) (ts : List Tok) (m : Device → K3) : Prop :=
  CleanToks ts ∧ ∃ cs, Seq o ts cs ∧ ∀ d, evalOp d o cs = m d

/-- Tokens that parse to a condition with meaning `m`. -/
def CondGood (b : Bool) (ts : List Tok) (m : Device → K3) : Prop :=
  CleanToks ts ∧ ∃ c, PCond b ts c ∧ ∀ d, c.eval d = m d

theorem Good.seq {o : Operator} {t : Tok} {m : Device → K3} (h : Good t m) : SeqGood o [t] m := by
  obtain ⟨hc, c, hp, he⟩ := h
  exact ⟨by simp [CleanToks, hc], [c], .one hp, fun d => by rw [evalOp_single, he]⟩

theorem PTail.append {o : Operator} {a b : List Tok} {as bs : List Cond} (ha : PTail o a as) (hb : PTail o b bs) :
    PTail o (a ++ b) (as ++ bs) := by
  match ha with
  | .last hk hp => exact .more hk hp hb
  | .more hk hp ht => exact .more hk hp (PTail.append ht hb)

theorem Operator.kw_eq (o : Operator) : o.kw = .ident o.word := by cases o <;> rfl

theorem Seq.tail {o : Operator} {b : List Tok} {bs : List Cond} (h : Seq o b bs) : PTail o (o.kw :: b) bs := by
  rw [o.kw_eq]
  cases h with
  | one hp => exact .last (kw_word o) hp
  | more hp ht => exact .more (kw_word o) hp ht

theorem Seq.ne_nil {o : Operator} {b : List Tok} {bs : List Cond} (h : Seq o b bs) : bs ≠ [] := by
  cases h <;> simp

theorem Seq.append {o : Operator} {a b : List Tok} {as bs : List Cond} (ha : Seq o a as) (hb : Seq o b bs) :
    Seq o (a ++ o.kw :: b) (as ++ bs) := by
  cases ha with
  | one hp => exact .more hp hb.tail
  | more hp ht => exact .more hp (ht.append hb.tail)

theorem SeqGood.append {o : Operator} {a b : List Tok} {m m' : Device → K3} (ha : SeqGood o a m)
    (hb : SeqGood o b m') : SeqGood o (a ++ o.kw :: b) (fun d => o.conn (m d) (m' d)) := by
  obtain ⟨h1, as, h2, h3⟩ := ha
  obtain ⟨k1, bs, k2, k3⟩ := hb
  refine ⟨?_, as ++ bs, h2.append k2, fun d => ?_⟩
  · rw [CleanToks.append]
    refine ⟨h1, ?_⟩
    rw [o.kw_eq]
    simp [CleanToks, CleanTok, k1]
  · rw [evalOp_append d o as bs h2.ne_nil, h3, k3]

theorem PCond.weaken {b : Bool} {ts : List Tok} {c : Cond} (h : PCond b ts c) : PCond true ts c := by
  cases h with
  | single hp => exact .single hp
  | not hk hp => exact .not hk hp
  | and hp ht => exact .and hp ht
  | or hp ht => exact .or hp ht

theorem CondGood.weaken {b : Bool} {ts : List Tok} {m : Device → K3} (h : CondGood b ts m) : CondGood true ts m := by
  obtain ⟨h1, c, h2, h3⟩ := h
  exact ⟨h1, c, h2.weaken, h3⟩

theorem SeqGood.cond {o : Operator} {ts : List Tok} {m : Device → K3} (h : SeqGood o ts m) :
    CondGood (o == .or) ts m := by
  obtain ⟨h1, cs, h2, h3⟩ := h
  refine ⟨h1, ?_⟩
  cases h2 with
  | one hp => exact ⟨_, .single hp, fun d => by rw [← h3, evalOp_single]⟩
  | more hp ht =>
    cases o with
    | and => exact ⟨_, .and hp ht, fun d => h3 d⟩
    | or => exact ⟨_, .or hp ht, fun d => h3 d⟩

theorem PCond.clean_paren {b : Bool} {ts : List Tok} {c : Cond} (h : PCond b ts c) :
    NoOdd ts ∧ ∀ s, ts ≠ [.ident s] := by
  have tail : ∀ {o t c ts cs}, PParens t c → PTail o ts cs → NoOdd (t :: ts) ∧ ∀ s, (t :: ts) ≠ [Tok.ident s] := by
    intro o t c ts cs hp ht
    obtain ⟨inner, rfl⟩ := hp.is_paren
    obtain ⟨s, inner', rest, rfl, hk⟩ := ht.starts
    refine ⟨fun s' hs => ?_, fun s' => by simp⟩
    simp only [firstIdent, Option.some.injEq] at hs
    subst hs
    unfold Kw at hk
    rw [hk]
    cases o <;> decide
  cases h with
  | single hp =>
    obtain ⟨inner, rfl⟩ := hp.is_paren
    exact ⟨fun s h => by simp [firstIdent] at h, fun s => by simp⟩
  | not hk hp =>
    refine ⟨fun s h => ?_, fun s => by simp⟩
    simp only [firstIdent, Option.some.injEq] at h
    subst h
    unfold Kw at hk
    rw [hk]; decide
  | and hp ht => exact tail hp ht
  | or hp ht => exact tail hp ht

theorem CondGood.paren {b : Bool} {ts : List Tok} {m : Device → K3} (h : CondGood b ts m) : Good (.paren ts) m := by
  obtain ⟨h1, c, h2, h3⟩ := h
  refine ⟨?_, c, .cond h2.weaken, h3⟩
  simp only [CleanTok]
  exact ⟨h1, h2.clean_paren.1, fun s hs => absurd hs (h2.clean_paren.2 s)⟩

theorem Good.not {t : Tok} {m : Device → K3} (h : Good t m) : CondGood false [kwNot, t] (fun d => (m d).not) := by
  obtain ⟨h1, c, h2, h3⟩ := h
  refine ⟨by simp [CleanToks, CleanTok, kwNot, h1], _, .not kw_not h2, fun d => by simp only [Cond.eval, h3]⟩

theorem Good.cond {b : Bool} {t : Tok} {m : Device → K3} (h : Good t m) : CondGood b [t] m := by
  obtain ⟨h1, c, h2, h3⟩ := h
  exact ⟨by simp [CleanToks, h1], c, .single h2, h3⟩

theorem CondGood.congr {b : Bool} {ts : List Tok} {m m' : Device → K3} (h : CondGood b ts m) (e : ∀ d, m d = m' d) :
    CondGood b ts m' := by
  have : m = m' := funext e
  rwa [← this]

theorem SeqGood.congr {o : Operator} {ts : List Tok} {m m' : Device → K3} (h : SeqGood o ts m) (e : ∀ d, m d = m' d) :
    SeqGood o ts m' := by
  have : m = m' := funext e
  rwa [← this]

theorem FeatShape.cond {t : PTargets} {f : Feature} (h : FeatShape t f) :
    CondGood false (f.print t) (fun d => f.eval d) := by
  cases h with
  | block x hx _ hg => rw [hx]; exact hg.cond
  | neg x hx _ hg => rw [hx]; exact hg.not.congr fun d => K3.not_not _
  | both x y m m' hx _ hg hg' he =>
    rw [hx]
    exact ((hg.seq (o := .and)).append hg'.seq).cond.congr fun d => (he d).symm

/-- The condition is an `or` operation once double negations are removed: its text has `or` at the top level. -/
def hiddenOr : Cond → Bool
  | .op .or _ => true
  | .not (.not c) => hiddenOr c
  | _ => false

theorem negate_range {f f' : Feature} (h : f.negate = some f') (hw : FeatureWF f)
    (hne : ∀ n v, f ≠ .range n .eq v) : FeatureWF f' ∧ ∀ d, f'.eval d = (f.eval d).not := by
  cases f with
  | range n op v =>
    simp only [Feature.negate, Option.some.injEq] at h
    subst h
    simp only [FeatureWF] at hw ⊢
    refine ⟨hw, fun d => ?_⟩
    simp only [Feature.eval]
    rw [rel_not]
    rintro rfl
    exact hne n v rfl
  | _ => simp [Feature.negate] at h

/-- Operand of an operation: a sequence in the same operator. -/
theorem operand_good (t : PTargets) (o : Operator) (c : Cond) (hw : CondWF c)
    (h1 : CondGood (hiddenOr c) (c.print t) (fun d => c.eval d))
    (h2 : ∀ o' cs, c = .op o' cs → SeqGood o' (c.print t) (fun d => c.eval d)) :
    SeqGood o (parensIf (c.needsParens t (some o)) (c.print t)) (fun d => c.eval d) := by
  by_cases hp : c.needsParens t (some o) = true
  · simp only [hp, parensIf, if_true]
    exact h1.paren.seq
  · simp only [hp, parensIf, Bool.false_eq_true, if_false]
    cases c with
    | not c => simp [Cond.needsParens] at hp
    | unknown ts => simp [CondWF] at hw
    | op o' cs =>
      have : o' = o := by simpa [Cond.needsParens] using hp
      subst this
      exact h2 o' cs rfl
    | feature f =>
      simp only [Cond.needsParens] at hp
      simp only [Cond.print, Cond.eval]
      simp only [CondWF] at hw
      cases feature_shape t f hw with
      | block x hx _ hg => rw [hx]; exact hg.seq
      | neg x hx hn hg => exact absurd (hn (some o)) hp
      | both x y m m' hx hn hg hg' he =>
        rw [hn] at hp
        have : o = .and := by simpa using hp
        subst this
        rw [hx]
        exact (hg.seq.append hg'.seq).congr fun d => (he d).symm

mutual
theorem print_good (t : PTargets) : ∀ c, CondWF c →
    CondGood (hiddenOr c) (c.print t) (fun d => c.eval d) ∧
    ∀ o cs, c = .op o cs → SeqGood o (c.print t) (fun d => c.eval d)
  | .feature f, hw => by
    simp only [CondWF] at hw
    refine ⟨?_, fun o cs h => by simp at h⟩
    simp only [Cond.print, Cond.eval, hiddenOr]
    exact (feature_shape t f hw).cond
  | .unknown ts, hw => by simp [CondWF] at hw
  | .op o cs, hw => by
    simp only [CondWF] at hw
    have h := printOp_good t o cs hw.1 hw.2
    have h' : SeqGood o (Cond.print t (.op o cs)) (fun d => (Cond.op o cs).eval d) := by
      simp only [Cond.print]
      exact h.congr fun d => by cases o <;> simp [evalOp, Cond.eval]
    refine ⟨?_, fun o' cs' he => by cases he; exact h'⟩
    have := h'.cond
    cases o <;> exact this
  | .not (.not c), hw => by
    simp only [CondWF] at hw
    have h := (print_good t c hw.1.1).1
    refine ⟨?_, fun o cs h => by simp at h⟩
    simp only [Cond.print, hiddenOr]
    exact h.congr fun d => by simp [Cond.eval, K3.not_not]
  | .not (.feature f), hw => by
    simp only [CondWF] at hw
    refine ⟨?_, fun o cs h => by simp at h⟩
    simp only [Cond.print, hiddenOr]
    split
    · rename_i f' hf
      obtain ⟨hw', he⟩ := negate_range hf hw.1 (fun n v h => hw.2 n v (by rw [h]))
      exact (feature_shape t f' hw').cond.congr fun d => by simp [Cond.eval, he]
    · rename_i hf
      rw [show (Cond.feature f).needsParens t none = f.needsParens t none from rfl]
      cases hs : feature_shape t f hw.1 with
      | block x hx hn hg =>
        rw [hn, hx]
        exact hg.not
      | neg x hx hn hg =>
        rw [hn]
        exact ((feature_shape t f hw.1).cond).paren.not
      | both x y m m' hx hn hg hg' he =>
        rw [hn]
        exact ((feature_shape t f hw.1).cond).paren.not
  | .not (.op o cs), hw => by
    simp only [CondWF] at hw
    refine ⟨?_, fun o cs h => by simp at h⟩
    simp only [Cond.print, hiddenOr]
    have h := printOp_good t o cs hw.1.1 hw.1.2
    have := h.cond.paren.not
    simp only [parensIf]
    exact this.congr fun d => by cases o <;> simp [evalOp, Cond.eval]
  | .not (.unknown ts), hw => by simp [CondWF] at hw
theorem printOp_good (t : PTargets) (o : Operator) : ∀ cs, cs ≠ [] → CondsWF cs →
    SeqGood o (Cond.printOp t o cs) (fun d => evalOp d o cs)
  | [], h, _ => absurd rfl h
  | [c], _, hw => by
    simp only [CondsWF] at hw
    have h := print_good t c hw.1
    have := operand_good t o c hw.1 h.1 h.2
    simp only [Cond.printOp, Cond.printRest, List.append_nil]
    exact this.congr fun d => (evalOp_single d o c).symm
  | c :: c' :: cs, _, hw => by
    simp only [CondsWF] at hw
    have h := print_good t c hw.1
    have h1 := operand_good t o c hw.1 h.1 h.2
    have h2 := printOp_good t o (c' :: cs) (by simp) (by simp only [CondsWF]; exact hw.2)
    have := h1.append h2
    simp only [Cond.printOp, Cond.printRest] at this ⊢
    exact this.congr fun d => (evalOp_cons d o c (c' :: cs)).symm
end

end Verif.Media
