import Verif.Selectors.Nesting
import Mathlib.Tactic.Common
/-!
# Selectors: lemmas about the printed text (C53)
-/
namespace Verif.Selectors.Nesting

variable {E : Type} {d : Dom E} {out : Component → E → Prop}

/-- The tokens of a compound without type selector. -/
def PlainTok : Text → Prop
  | .comb _ => False
  | .atom c => isType c = false
  | .is l | .where l | .not l => wfList l

def PlainT (ts : List Text) : Prop := ∀ t ∈ ts, PlainTok t

theorem PlainT.append {a b : List Text} (ha : PlainT a) (hb : PlainT b) : PlainT (a ++ b) := by
  intro t ht
  rcases List.mem_append.1 ht with h | h
  · exact ha t h
  · exact hb t h

theorem denote_cons_comb (acc : E → Prop) (k : Combinator) (ts : List Text) :
    denote d out acc (.comb k :: ts) = denote d out (fun e => ∃ x, d.Rel k e x ∧ acc x) ts := by
  funext e; simp only [denote]

theorem denote_cons (acc : E → Prop) (t : Text) (ts : List Text) (ht : ∀ k, t ≠ .comb k) :
    denote d out acc (t :: ts) = denote d out (fun e => acc e ∧ t.Sem d out e) ts := by
  funext e
  cases t with
  | comb k => exact absurd rfl (ht k)
  | atom c => simp only [denote]
  | is l => simp only [denote]
  | «where» l => simp only [denote]
  | not l => simp only [denote]

theorem denote_nil (acc : E → Prop) : denote d out acc [] = acc := by funext e; simp only [denote]

theorem denote_append (acc : E → Prop) (a b : List Text) :
    denote d out acc (a ++ b) = denote d out (denote d out acc a) b := by
  induction a generalizing acc with
  | nil => rw [List.nil_append, denote_nil]
  | cons t ts ih =>
    by_cases h : ∃ k, t = .comb k
    · obtain ⟨k, rfl⟩ := h
      rw [List.cons_append, denote_cons_comb, ih, denote_cons_comb]
    · have ht : ∀ k, t ≠ .comb k := fun k hk => h ⟨k, hk⟩
      rw [List.cons_append, denote_cons _ _ _ ht, ih, denote_cons _ _ _ ht]

theorem denote_plain (acc : E → Prop) (ts : List Text) (h : PlainT ts) :
    denote d out acc ts = fun e => acc e ∧ ∀ t ∈ ts, t.Sem d out e := by
  induction ts generalizing acc with
  | nil => rw [denote_nil]; funext e; simp
  | cons t ts ih =>
    have ht : ∀ k, t ≠ .comb k := by
      rintro k rfl
      exact h (.comb k) (by simp)
    rw [denote_cons _ _ _ ht, ih _ (fun t' h' => h t' (by simp [h']))]
    funext e
    simp [and_assoc]

theorem wf_mono : ∀ (ts : List Text) (s : Bool), wf false ts → wf s ts
  | [], s, _ => by simp [wf]
  | .comb k :: ts, s, h => by simpa [wf] using h
  | .atom c :: ts, s, h => by
    simp only [wf, Bool.false_eq_true, imp_false, Bool.false_and] at h ⊢
    exact ⟨fun hc => absurd hc h.1, wf_mono ts _ h.2⟩
  | .is l :: ts, s, h => by simpa [wf] using h
  | .where l :: ts, s, h => by simpa [wf] using h
  | .not l :: ts, s, h => by simpa [wf] using h

theorem wf_plain_append (s : Bool) (a b : List Text) (ha : PlainT a) (hb : wf false b) :
    wf s (a ++ b) := by
  induction a generalizing s with
  | nil => exact wf_mono b s hb
  | cons t ts ih =>
    have iht := fun s => ih s (fun t' h' => ha t' (by simp [h']))
    have h := ha t (by simp)
    cases t with
    | comb k => exact h.elim
    | atom c =>
      simp only [PlainTok] at h
      simp only [List.cons_append, wf, h]
      exact ⟨by simp, iht _⟩
    | is l => simp only [List.cons_append, wf]; exact ⟨h, iht _⟩
    | «where» l => simp only [List.cons_append, wf]; exact ⟨h, iht _⟩
    | not l => simp only [List.cons_append, wf]; exact ⟨h, iht _⟩

theorem wf_plain (s : Bool) (a : List Text) (ha : PlainT a) : wf s a := by
  have := wf_plain_append s a [] ha (by simp [wf])
  simpa using this

theorem wf_append_plain (s : Bool) (a b : List Text) (ha : wf s a) (hb : PlainT b) : wf s (a ++ b) := by
  induction a generalizing s with
  | nil => exact wf_plain s b hb
  | cons t ts ih =>
    cases t with
    | comb k => simp only [List.cons_append, wf] at ha ⊢; exact ih _ ha
    | atom c => simp only [List.cons_append, wf] at ha ⊢; exact ⟨ha.1, ih _ ha.2⟩
    | is l => simp only [List.cons_append, wf] at ha ⊢; exact ⟨ha.1, ih _ ha.2⟩
    | «where» l => simp only [List.cons_append, wf] at ha ⊢; exact ⟨ha.1, ih _ ha.2⟩
    | not l => simp only [List.cons_append, wf] at ha ⊢; exact ⟨ha.1, ih _ ha.2⟩

theorem wf_append_comb (s : Bool) (a b : List Text) (k : Combinator) (ha : wf s a) (hb : wf true b) :
    wf s (a ++ .comb k :: b) := by
  induction a generalizing s with
  | nil => simpa [wf] using hb
  | cons t ts ih =>
    cases t with
    | comb k => simp only [List.cons_append, wf] at ha ⊢; exact ih _ ha
    | atom c => simp only [List.cons_append, wf] at ha ⊢; exact ⟨ha.1, ih _ ha.2⟩
    | is l => simp only [List.cons_append, wf] at ha ⊢; exact ⟨ha.1, ih _ ha.2⟩
    | «where» l => simp only [List.cons_append, wf] at ha ⊢; exact ⟨ha.1, ih _ ha.2⟩
    | not l => simp only [List.cons_append, wf] at ha ⊢; exact ⟨ha.1, ih _ ha.2⟩

/-! ### Environments -/

/-- What is known about `&`: its meaning `P` and its texts. -/
structure Env (d : Dom E) (atom out : Component → E → Prop) (compiling : Bool)
    (nest : Bool → List Text) (P : E → Prop) (pt pf : Prop) : Prop where
  univ : ∀ e, atom .universal e
  agree : ∀ c e, isNesting c = false → (out c e ↔ atom c e)
  plainT : compiling = true → pt → PlainT (nest true)
  plainF : pf → PlainT (nest false)
  semT : compiling = true → ∀ e, denote d out (fun _ => True) (nest true) e ↔ P e
  wfT : compiling = true → wf true (nest true)
  semF : pf → ∀ e, (∀ t ∈ nest false, t.Sem d out e) ↔ P e
  amp : compiling = false → nest = fun _ => [.atom .nesting]

/-- The text of a component is a compound without type selector, with the right meaning. -/
def Good (d : Dom E) (atom out : Component → E → Prop) (compiling : Bool)
    (nest : Bool → List Text) (P : E → Prop) (c : Component) : Prop :=
  PlainT (compText compiling nest c) ∧
    ∀ e, (∀ t ∈ compText compiling nest c, t.Sem d out e) ↔ c.Sem d (atomIn atom P) e

/-- The text of a component, paired with it. -/
def piece (compiling : Bool) (nest : Bool → List Text) (c : Component) : Piece :=
  (c, compText compiling nest c)

theorem pieces_eq (compiling : Bool) (nest : Bool → List Text) (cs : List Component) :
    pieces compiling nest cs = cs.map (piece compiling nest) := by
  induction cs with
  | nil => simp [pieces]
  | cons c cs ih => simp [pieces, piece, ih]

variable {atom : Component → E → Prop} {compiling : Bool} {nest : Bool → List Text} {P : E → Prop}
  {pt pf : Prop}

/-- A list of components of a compound, a type selector at most at the start. -/
def Row (d : Dom E) (atom out : Component → E → Prop) (compiling : Bool)
    (nest : Bool → List Text) (P : E → Prop) : Bool → List Component → Prop
  | _, [] => True
  | s, c :: cs =>
      (if isType c then s = true ∧ Row d atom out compiling nest P false cs
       else Good d atom out compiling nest P c ∧
        Row d atom out compiling nest P (s && !compiling && isNesting c) cs)

theorem row_mono (cs : List Component) (s : Bool) (h : Row d atom out compiling nest P false cs) :
    Row d atom out compiling nest P s cs := by
  induction cs generalizing s with
  | nil => trivial
  | cons c cs ih =>
    simp only [Row] at h ⊢
    split
    · rename_i hc; simp [hc] at h
    · rename_i hc
      simp only [hc] at h
      exact ⟨h.1, ih _ (by simpa using h.2)⟩

theorem isType_text {c : Component} (h : isType c = true) : compText compiling nest c = [.atom c] := by
  cases c <;> simp_all [isType, compText]

theorem isType_sem {c : Component} (h : isType c = true) (Q : Component → E → Prop) (e : E) :
    c.Sem d Q e = Q c e := by
  cases c <;> simp_all [isType, Component.Sem]

theorem isType_not_nesting {c : Component} (h : isType c = true) : isNesting c = false := by
  cases c <;> simp_all [isType, isNesting]

theorem atomIn_of_not_nesting {c : Component} (h : isNesting c = false) (e : E) :
    atomIn atom P c e = atom c e := by
  cases c <;> simp_all [atomIn, isNesting]

theorem row_text (henv : Env d atom out compiling nest P pt pf) (cs : List Component) (s : Bool)
    (h : Row d atom out compiling nest P s cs) :
    wf s (texts (cs.map (piece compiling nest))) ∧
    ∀ acc, denote d out acc (texts (cs.map (piece compiling nest))) =
      fun e => acc e ∧ ∀ c ∈ cs, c.Sem d (atomIn atom P) e := by
  induction cs generalizing s with
  | nil => simp [texts, wf, denote_nil]
  | cons c cs ih =>
    have ht : texts ((c :: cs).map (piece compiling nest))
        = compText compiling nest c ++ texts (cs.map (piece compiling nest)) := by
      simp [texts, piece]
    rw [ht]
    simp only [Row] at h
    split at h
    · rename_i hc
      obtain ⟨rfl, h⟩ := h
      obtain ⟨hw, hd⟩ := ih false h
      rw [isType_text hc]
      refine ⟨?_, ?_⟩
      · simp only [List.cons_append, List.nil_append, wf]
        exact ⟨fun _ => trivial, by simpa [isType_not_nesting hc] using hw⟩
      · intro acc
        rw [List.cons_append, List.nil_append, denote_cons _ _ _ (by simp), hd]
        funext e
        simp only [Text.Sem, List.mem_cons, forall_eq_or_imp, isType_sem hc,
          atomIn_of_not_nesting (isType_not_nesting hc),
          henv.agree c e (isType_not_nesting hc), and_assoc]
    · rename_i hc
      obtain ⟨hg, h⟩ := h
      obtain ⟨hw, hd⟩ := ih _ h
      refine ⟨?_, ?_⟩
      · by_cases hk : (s && !compiling && isNesting c) = true
        · simp only [Bool.and_eq_true, Bool.not_eq_true'] at hk
          obtain ⟨⟨rfl, hcomp⟩, hn⟩ := hk
          have hcn : c = .nesting := by cases c <;> simp_all [isNesting]
          subst hcn
          have : compText compiling nest .nesting = [.atom .nesting] := by
            rw [compText, henv.amp hcomp]
          rw [this]
          simp only [List.cons_append, List.nil_append, wf]
          refine ⟨by simp [isType], ?_⟩
          simpa [hcomp, isNesting] using hw
        · rw [Bool.not_eq_true] at hk
          rw [hk] at hw
          exact wf_plain_append s _ _ hg.1 hw
      · intro acc
        rw [denote_append, denote_plain _ _ hg.1, hd]
        funext e
        simp only [List.mem_cons, forall_eq_or_imp, hg.2 e, and_assoc]

theorem row_filter (henv : Env d atom out compiling nest P pt pf) (cs : List Component) (s : Bool)
    (b : Bool) (h : Row d atom out compiling nest P s cs) :
    Row d atom out compiling nest P s (cs.filter fun c => !(b && isUniversal c)) ∧
    ∀ e, ((∀ c ∈ cs.filter fun c => !(b && isUniversal c), c.Sem d (atomIn atom P) e) ↔
      ∀ c ∈ cs, c.Sem d (atomIn atom P) e) := by
  refine ⟨?_, ?_⟩
  · induction cs generalizing s with
    | nil => trivial
    | cons c cs ih =>
      simp only [Row] at h
      rw [List.filter_cons]
      split
      · simp only [Row]
        split at h
        · rename_i hc; rw [if_pos hc]; exact ⟨h.1, ih _ h.2⟩
        · rename_i hc; rw [if_neg hc]; exact ⟨h.1, ih _ h.2⟩
      · rename_i hu
        have hc : isType c = true := by
          cases c <;> simp_all [isType, isUniversal]
        rw [if_pos hc] at h
        exact row_mono _ _ (ih _ h.2)
  · intro e
    constructor
    · intro hall c hc
      by_cases hu : isUniversal c = true
      · have : c = .universal := by cases c <;> simp_all [isUniversal]
        subst this
        simpa [Component.Sem, atomIn] using henv.univ e
      · exact hall c (List.mem_filter.2 ⟨hc, by simp [hu]⟩)
    · intro hall c hc
      exact hall c (List.mem_filter.1 hc).1

theorem elided_map (b : Bool) (cs : List Component) :
    elided b (cs.map (piece compiling nest))
      = texts ((cs.filter fun c => !(b && isUniversal c)).map (piece compiling nest)) := by
  unfold elided
  rw [List.filter_map]
  rfl

theorem row_elided (henv : Env d atom out compiling nest P pt pf) (cs : List Component) (s : Bool)
    (b : Bool) (h : Row d atom out compiling nest P s cs) :
    wf s (elided b (cs.map (piece compiling nest))) ∧
    ∀ acc, denote d out acc (elided b (cs.map (piece compiling nest))) =
      fun e => acc e ∧ ∀ c ∈ cs, c.Sem d (atomIn atom P) e := by
  obtain ⟨h1, h2⟩ := row_filter henv cs s b h
  obtain ⟨h3, h4⟩ := row_text henv _ s h1
  rw [elided_map]
  refine ⟨h3, ?_⟩
  intro acc
  rw [h4]
  funext e
  rw [h2 e]

theorem plain_texts (cs : List Component)
    (h : ∀ c ∈ cs, Good d atom out compiling nest P c) :
    PlainT (texts (cs.map (piece compiling nest))) := by
  induction cs with
  | nil => intro t ht; simp [texts] at ht
  | cons c cs ih =>
    have : texts ((c :: cs).map (piece compiling nest))
        = compText compiling nest c ++ texts (cs.map (piece compiling nest)) := by
      simp [texts, piece]
    rw [this]
    exact (h c (by simp)).1.append (ih fun c' h' => h c' (by simp [h']))

theorem plain_elided (b : Bool) (cs : List Component)
    (h : ∀ c ∈ cs, Good d atom out compiling nest P c) :
    PlainT (elided b (cs.map (piece compiling nest))) := by
  rw [elided_map]
  exact plain_texts _ fun c hc => h c (List.mem_filter.1 hc).1

/-! ### Compounds -/

/-- `CompsOk` for one compound. -/
def CompoundOk (compiling : Bool) (pt pf : Prop) (isFirst : Bool) : Place → List Component → Prop
  | p, [] => p ≠ .start
  | .start, .nesting :: cs =>
      if compiling then
        (if !isFirst then pf ∧ CompoundOk compiling pt pf isFirst .inside cs
        else (cs.head?.any isType = true → pf) ∧ CompoundOk compiling pt pf isFirst .afterLead cs)
      else pf ∧ CompoundOk compiling pt pf isFirst .afterLead cs
  | p, c :: cs =>
      (if isType c then p ≠ .inside else CompOk compiling pt pf c) ∧
        CompoundOk compiling pt pf isFirst .inside cs

theorem compsOk_compound (c : List Component) (hc : NoComb c) (p : Place)
    (h : CompsOk compiling pt pf p c) : CompoundOk compiling pt pf true p c := by
  induction c generalizing p with
  | nil => simpa [CompsOk, CompoundOk] using h
  | cons x xs ih =>
    have hx := hc x (by simp)
    have hxs : NoComb xs := fun c h => hc c (by simp [h])
    have hany : xs.any Component.isCombinator = false := by
      rw [List.any_eq_false]
      intro y hy
      simp [hxs y hy]
    by_cases hn : p = .start ∧ x = .nesting
    · obtain ⟨rfl, rfl⟩ := hn
      simp only [CompsOk, hany] at h
      simp only [CompoundOk]
      cases compiling
      · exact ⟨h.1, ih hxs _ h.2⟩
      · simp only [if_true] at h
        exact ⟨h.1, ih hxs _ h.2⟩
    · have h1 : CompsOk compiling pt pf p (x :: xs) = ((if isType x then p ≠ .inside
          else CompOk compiling pt pf x) ∧ CompsOk compiling pt pf .inside xs) := by
        rw [CompsOk]
        · rintro k rfl; simp [Component.isCombinator] at hx
        · intro h2 h3; exact hn ⟨h2, h3⟩
      rw [h1] at h
      have h2 : CompoundOk compiling pt pf true p (x :: xs) = ((if isType x then p ≠ .inside
          else CompOk compiling pt pf x) ∧ CompoundOk compiling pt pf true .inside xs) := by
        rw [CompoundOk]
        intro h2 h3; exact hn ⟨h2, h3⟩
      rw [h2]
      exact ⟨h.1, ih hxs _ h.2⟩

theorem compsOk_append (c : List Component) (hc : NoComb c) (p : Place) (k : Combinator)
    (r : List Component) (h : CompsOk compiling pt pf p (c ++ .combinator k :: r)) :
    CompoundOk compiling pt pf false p c ∧ CompsOk compiling pt pf .start r := by
  induction c generalizing p with
  | nil => simpa [CompsOk, CompoundOk] using h
  | cons x xs ih =>
    have hx := hc x (by simp)
    have hxs : NoComb xs := fun c h => hc c (by simp [h])
    have hany : (xs ++ .combinator k :: r).any Component.isCombinator = true := by
      rw [List.any_eq_true]
      exact ⟨.combinator k, by simp, rfl⟩
    rw [List.cons_append] at h
    by_cases hn : p = .start ∧ x = .nesting
    · obtain ⟨rfl, rfl⟩ := hn
      simp only [CompsOk, hany, if_true] at h
      simp only [CompoundOk]
      cases compiling
      · have := ih hxs _ h.2
        exact ⟨⟨h.1, this.1⟩, this.2⟩
      · simp only [if_true] at h
        have := ih hxs _ h.2
        exact ⟨⟨h.1, this.1⟩, this.2⟩
    · have h1 : CompsOk compiling pt pf p (x :: (xs ++ .combinator k :: r)) =
          ((if isType x then p ≠ .inside else CompOk compiling pt pf x) ∧
            CompsOk compiling pt pf .inside (xs ++ .combinator k :: r)) := by
        rw [CompsOk]
        · rintro k rfl; simp [Component.isCombinator] at hx
        · intro h2 h3; exact hn ⟨h2, h3⟩
      rw [h1] at h
      have h2 : CompoundOk compiling pt pf false p (x :: xs) = ((if isType x then p ≠ .inside
          else CompOk compiling pt pf x) ∧ CompoundOk compiling pt pf false .inside xs) := by
        rw [CompoundOk]
        intro h2 h3; exact hn ⟨h2, h3⟩
      rw [h2]
      have := ih hxs _ h.2
      exact ⟨⟨h.1, this.1⟩, this.2⟩

/-- Members of a compound are good if they are fine. -/
def AllGood (d : Dom E) (atom out : Component → E → Prop) (compiling : Bool)
    (nest : Bool → List Text) (P : E → Prop) (pt pf : Prop) (cs : List Component) : Prop :=
  ∀ c ∈ cs, isType c = false → c.isCombinator = false → CompOk compiling pt pf c →
    Good d atom out compiling nest P c

theorem not_ns_of_ok {c : Component} (h : isType c = false → CompOk compiling pt pf c) :
    isNamespace c = false := by
  cases c <;> simp_all [isNamespace, isType, CompOk]

theorem row_inside (cs : List Component) (isFirst : Bool) (hc : NoComb cs)
    (hg : AllGood d atom out compiling nest P pt pf cs)
    (h : CompoundOk compiling pt pf isFirst .inside cs) :
    Row d atom out compiling nest P false cs ∧ ∀ c ∈ cs, Good d atom out compiling nest P c := by
  induction cs with
  | nil => exact ⟨trivial, by simp⟩
  | cons c cs ih =>
    simp only [CompoundOk] at h
    have ih' := ih (fun c h => hc c (by simp [h])) (fun c h => hg c (by simp [h])) h.2
    have ht : isType c = false := by
      by_contra hne
      rw [Bool.not_eq_false] at hne
      simp [hne] at h
    rw [if_neg (by simp [ht])] at h
    have hgc := hg c (by simp) ht (hc c (by simp)) h.1
    refine ⟨?_, ?_⟩
    · simp only [Row, ht, Bool.false_eq_true, if_false, Bool.false_and]
      exact ⟨hgc, ih'.1⟩
    · intro c' hc'
      rcases List.mem_cons.1 hc' with rfl | h'
      · exact hgc
      · exact ih'.2 c' h'

theorem row_afterLead (cs : List Component) (isFirst : Bool) (hc : NoComb cs)
    (hg : AllGood d atom out compiling nest P pt pf cs)
    (h : CompoundOk compiling pt pf isFirst .afterLead cs) :
    Row d atom out compiling nest P true cs := by
  cases cs with
  | nil => trivial
  | cons c cs =>
    simp only [CompoundOk] at h
    have hi := row_inside cs isFirst (fun c h => hc c (by simp [h])) (fun c h => hg c (by simp [h])) h.2
    simp only [Row]
    by_cases ht : isType c = true
    · rw [if_pos ht]; exact ⟨trivial, hi.1⟩
    · rw [if_neg ht] at h ⊢
      exact ⟨hg c (by simp) (by simpa using ht) (hc c (by simp)) h.1, row_mono _ _ hi.1⟩

/-- A compound that is printed from left to right. -/
theorem row_start (cs : List Component)
    (isFirst : Bool) (hc : NoComb cs) (hg : AllGood d atom out compiling nest P pt pf cs)
    (hlead : compiling = true → isFirst = true → cs.head?.any isNesting = false)
    (h : CompoundOk compiling pt pf isFirst .start cs) :
    Row d atom out compiling nest P true cs := by
  cases cs with
  | nil => trivial
  | cons c cs =>
    have hcs : NoComb cs := fun c h => hc c (by simp [h])
    have hgs : AllGood d atom out compiling nest P pt pf cs := fun c h => hg c (by simp [h])
    by_cases hn : c = .nesting
    · subst hn
      simp only [CompoundOk] at h
      simp only [Row, isType, Bool.false_eq_true, if_false]
      cases hcomp : compiling
      · simp only [hcomp, Bool.false_eq_true, if_false] at h
        rw [← hcomp]
        refine ⟨hg _ (by simp) rfl rfl (by simp only [CompOk]; exact h.1), ?_⟩
        simp only [hcomp, isNesting, Bool.not_false, Bool.and_self]
        rw [← hcomp]
        exact row_afterLead cs isFirst hcs hgs (by rw [hcomp]; exact h.2)
      · simp only [hcomp, if_true] at h
        cases hf : isFirst
        · simp only [hf, Bool.not_false, if_true] at h
          rw [← hcomp]
          refine ⟨hg _ (by simp) rfl rfl (by simp only [CompOk]; exact h.1), ?_⟩
          apply row_mono
          exact (row_inside cs false hcs hgs (by rw [hcomp]; exact h.2)).1
        · have := hlead hcomp hf
          simp [isNesting] at this
    · have h2 : CompoundOk compiling pt pf isFirst .start (c :: cs) = ((if isType c then
          Place.start ≠ .inside else CompOk compiling pt pf c) ∧
            CompoundOk compiling pt pf isFirst .inside cs) := by
        rw [CompoundOk]
        intro _ h3; exact hn h3
      rw [h2] at h
      have hi := row_inside cs isFirst hcs hgs h.2
      simp only [Row]
      by_cases ht : isType c = true
      · rw [if_pos ht]; exact ⟨trivial, hi.1⟩
      · rw [if_neg ht] at h ⊢
        exact ⟨hg c (by simp) (by simpa using ht) (hc c (by simp)) h.1, row_mono _ _ hi.1⟩

theorem compoundText_plain_order (first : Bool) (next : Option Combinator) (c : List Piece)
    (hl : (first && c.head?.any (isNesting ·.1) && compiling) = false) :
    compoundText compiling nest first next c = texts c ∨
      ∃ b, compoundText compiling nest first next c = elided b c := by
  unfold compoundText
  have h1 : ∀ x, (first && c.head?.any (isNesting ·.1) && compiling && x) = false := by
    intro x; rw [hl]; rfl
  simp only []
  rw [hl]
  simp only [Bool.false_and, Bool.false_eq_true, if_false]
  by_cases hc : ((if c[if (first && c.head?.any (isNesting ·.1)) = true then 1 else 0]?.any (isNamespace ·.1) = true
      then (if (first && c.head?.any (isNesting ·.1)) = true then 1 else 0) + 1
      else (if (first && c.head?.any (isNesting ·.1)) = true then 1 else 0)) = c.length - 1 ∧
      next ≠ some .pseudoElement ∧ next ≠ some .slotAssignment ∧
      c[if c[if (first && c.head?.any (isNesting ·.1)) = true then 1 else 0]?.any (isNamespace ·.1) = true
      then (if (first && c.head?.any (isNesting ·.1)) = true then 1 else 0) + 1
      else (if (first && c.head?.any (isNesting ·.1)) = true then 1 else 0)]?.any (isUniversal ·.1) = true)
  · rw [if_pos hc]; exact .inl rfl
  · rw [if_neg hc]; exact .inr ⟨_, rfl⟩

/-- A compound that does not start with an `&` to be replaced. -/
theorem compound_follow (henv : Env d atom out compiling nest P pt pf) (cs : List Component)
    (isFirst : Bool) (next : Option Combinator) (hc : NoComb cs)
    (hg : AllGood d atom out compiling nest P pt pf cs)
    (hlead : compiling = true → isFirst = true → cs.head?.any isNesting = false)
    (h : CompoundOk compiling pt pf isFirst .start cs) :
    wf true (compoundText compiling nest isFirst next (cs.map (piece compiling nest))) ∧
    ∀ acc, denote d out acc (compoundText compiling nest isFirst next (cs.map (piece compiling nest)))
      = fun e => acc e ∧ ∀ c ∈ cs, c.Sem d (atomIn atom P) e := by
  have hrow := row_start cs isFirst hc hg hlead h
  have hl : (isFirst && (cs.map (piece compiling nest)).head?.any (isNesting ·.1) && compiling) = false := by
    have e1 : (cs.map (piece compiling nest)).head?.any (isNesting ·.1) = cs.head?.any isNesting := by
      cases cs <;> rfl
    rw [e1]
    cases hf : isFirst
    · simp
    · cases hcomp : compiling
      · simp
      · simp [hlead hcomp hf]
  rcases compoundText_plain_order (nest := nest) isFirst next _ hl with he | ⟨b, he⟩
  · rw [he]; exact row_text henv cs true hrow
  · rw [he]; exact row_elided henv cs true b hrow

theorem compoundText_lead (next : Option Combinator) (c : Piece) (cs : List Piece)
    (hc : isNesting c.1 = true) (hns : ∀ p, cs.head? = some p → isNamespace p.1 = false) :
    (∃ u, cs = [u] ∧ isUniversal u.1 = true ∧
      compoundText true nest true next (c :: cs) = u.2 ++ nest false) ∨
    (∃ u us, cs = u :: us ∧ isType u.1 = true ∧ ∃ b,
      compoundText true nest true next (c :: cs) = u.2 ++ nest false ++ elided b us) ∨
    ((cs.head?.any (isType ·.1)) = false ∧ ∃ b,
      compoundText true nest true next (c :: cs) = nest true ++ elided b cs) := by
  unfold compoundText
  have hl : (true && (c :: cs).head?.any (isNesting ·.1)) = true := by simp [hc]
  simp only [hl, if_true, Bool.and_self]
  cases cs with
  | nil =>
    right; right
    refine ⟨rfl, ?_⟩
    simp
  | cons u us =>
    have hn := hns u rfl
    have h1 : (c :: u :: us)[1]?.any (isNamespace ·.1) = false := by simpa using hn
    simp only [h1, Bool.false_eq_true, if_false]
    have h2 : ∀ f : Piece → Bool, (c :: u :: us)[1]?.any f = f u := by intro f; simp
    simp only [h2]
    split
    · rename_i hcond
      left
      refine ⟨u, ?_, hcond.2.2.2, ?_⟩
      · have := hcond.1
        simp only [List.length_cons] at this
        have : us = [] := List.eq_nil_of_length_eq_zero (by omega)
        rw [this]
      · have := hcond.1
        simp only [List.length_cons] at this
        have : us = [] := List.eq_nil_of_length_eq_zero (by omega)
        subst this
        simp [texts]
    · split
      · rename_i ht
        right; left
        refine ⟨u, us, rfl, by simpa using ht, ?_⟩
        refine ⟨!isWrittenNamespace u.1, ?_⟩
        simp [texts]
      · rename_i ht
        right; right
        refine ⟨by simpa using ht, ?_⟩
        exact ⟨!isWrittenNamespace u.1, by simp⟩

/-- The first compound, starting with an `&` that is replaced. -/
theorem compound_lead (henv : Env d atom out true nest P pt pf) (cs : List Component)
    (next : Option Combinator) (hc : NoComb cs)
    (hg : AllGood d atom out true nest P pt pf cs)
    (hty : cs.head?.any isType = true → pf)
    (h : CompoundOk true pt pf true .afterLead cs) :
    wf true (compoundText true nest true next ((.nesting :: cs).map (piece true nest))) ∧
    denote d out (fun _ => True)
      (compoundText true nest true next ((.nesting :: cs).map (piece true nest)))
      = fun e => ∀ c ∈ .nesting :: cs, c.Sem d (atomIn atom P) e := by
  have hns : ∀ p, (cs.map (piece true nest)).head? = some p → isNamespace p.1 = false := by
    intro p hp
    cases cs with
    | nil => simp at hp
    | cons c cs =>
      simp only [List.map_cons, List.head?_cons, Option.some.injEq] at hp
      subst hp
      simp only [CompoundOk] at h
      apply not_ns_of_ok (compiling := true) (pt := pt) (pf := pf)
      intro ht
      have ht' : isType c = false := ht
      have h1 := h.1
      rw [if_neg (by simp [ht'])] at h1
      exact h1
  have hnest : ∀ e, Component.Sem d (atomIn atom P) .nesting e ↔ P e := by
    intro e; simp only [Component.Sem, atomIn]
  rw [List.map_cons]
  rcases compoundText_lead (nest := nest) next (piece true nest .nesting) (cs.map (piece true nest)) rfl hns with
    ⟨u, hu, hun, he⟩ | ⟨u, us, hu, hut, b, he⟩ | ⟨hnt, b, he⟩
  · rw [he]
    cases cs with
    | nil => simp at hu
    | cons c cs =>
      simp only [List.map_cons, List.cons.injEq, List.map_eq_nil_iff] at hu
      obtain ⟨rfl, rfl⟩ := hu
      have hcu : c = .universal := by
        simp only [piece] at hun
        cases c <;> simp_all [isUniversal]
      subst hcu
      have hpf : pf := hty rfl
      have htx : (piece true nest Component.universal).2 = [.atom .universal] := by
        simp [piece, compText]
      rw [htx]
      refine ⟨?_, ?_⟩
      · simp only [List.cons_append, List.nil_append, wf]
        exact ⟨fun _ => trivial, wf_plain _ _ (henv.plainF hpf)⟩
      · rw [List.cons_append, List.nil_append, denote_cons _ _ _ (by simp),
          denote_plain _ _ (henv.plainF hpf)]
        funext e
        have hu : Component.Sem d (atomIn atom P) .universal e := by
          simpa [Component.Sem, atomIn] using henv.univ e
        have ho : out .universal e := (henv.agree .universal e rfl).2 (henv.univ e)
        simp [Text.Sem, ho, henv.semF hpf e, hnest e, hu]
  · rw [he]
    cases cs with
    | nil => simp at hu
    | cons c cs =>
      simp only [List.map_cons, List.cons.injEq] at hu
      obtain ⟨rfl, rfl⟩ := hu
      have hct : isType c = true := hut
      have hpf : pf := hty (by simpa using hct)
      have htx : (piece true nest c).2 = [.atom c] := isType_text hct
      rw [htx]
      simp only [CompoundOk] at h
      have hi := row_inside cs true (fun c h => hc c (by simp [h])) (fun c h => hg c (by simp [h])) h.2
      obtain ⟨hw, hd⟩ := row_elided henv cs false b hi.1
      refine ⟨?_, ?_⟩
      · simp only [List.cons_append, List.nil_append, wf]
        exact ⟨fun _ => trivial, wf_plain_append _ _ _ (henv.plainF hpf) hw⟩
      · rw [List.append_assoc, List.cons_append, List.nil_append, denote_cons _ _ _ (by simp),
          denote_append, denote_plain _ _ (henv.plainF hpf), hd]
        funext e
        simp only [true_and, Text.Sem, henv.semF hpf e, List.mem_cons, forall_eq_or_imp, hnest e,
          isType_sem hct, atomIn_of_not_nesting (isType_not_nesting hct),
          henv.agree c e (isType_not_nesting hct), eq_iff_iff]
        tauto
  · rw [he]
    have hi : Row d atom out true nest P false cs ∧ ∀ c ∈ cs, Good d atom out true nest P c := by
      cases cs with
      | nil => exact ⟨trivial, by simp⟩
      | cons c cs =>
        have hct : isType c = false := by simpa [piece] using hnt
        apply row_inside _ true hc hg
        simp only [CompoundOk, hct] at h ⊢
        exact h
    obtain ⟨hw, hd⟩ := row_elided henv cs false b hi.1
    refine ⟨wf_append_plain _ _ _ (henv.wfT rfl) (plain_elided b cs hi.2), ?_⟩
    rw [denote_append, hd]
    funext e
    simp only [henv.semT rfl e, List.mem_cons, forall_eq_or_imp, hnest e]

end Verif.Selectors.Nesting
