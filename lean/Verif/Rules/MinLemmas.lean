import Verif.Rules.Lemmas
import Mathlib.Data.List.Induction
namespace Verif.Rules
variable {S I V G O E R : Type} [DecidableEq S] [DecidableEq I]

/-- The candidate of the declarations of a style rule. -/
abbrev own (e : Env S I V G O R) (p : List (List S)) (sels : List S) (b : Block I V) : Option (Cand R) :=
  candOf (specOf e p sels) (blockVal e b)

/-- The candidates of the additional rules. -/
abbrev extra (c : Cfg S I V G O E) (e : Env S I V G O R) (p : List (List S)) (sels : List S) (ex : List E) : Option (Cand R) :=
  pick (meanList e p (c.logical sels ex)) (meanList e p (c.supports sels ex))

/-- The candidates of the rules for incompatible selectors. -/
def incMean (c : Cfg S I V G O E) (e : Env S I V G O R) (p : List (List S)) (b : Block I V) (ex : List E) : List S → Option (Cand R)
  | [] => none
  | x :: xs => pick (pick (own e p [x] b) (extra c e p [x] ex)) (incMean c e p b ex xs)

omit [DecidableEq S] [DecidableEq I] in
theorem extendMin_extend (e : Env S I V G O R) (p : List (List S))
    (rec : List (Rule S I V G O) → List E → List (Rule S I V G O) × List E × Bool) (hr : RecOk e rec) (st : St S I V G O E)
    (a b : List (Rule S I V G O)) (hx : st.ex = []) (hg : ((st.extendMin rec a).extend b).good = true) :
    st.good = true ∧ ((st.extendMin rec a).extend b).ex = [] ∧
      meanList e p ((st.extendMin rec a).extend b).rules = pick (meanList e p st.rules) (pick (meanList e p a) (meanList e p b)) := by
  obtain ⟨h1, h2, h3⟩ := extendMin_spec e p rec hr st a hx hg
  refine ⟨h1, h2, ?_⟩
  simp only [St.extend, meanList_append, h3, pick_assoc]

omit [DecidableEq S] [DecidableEq I] in
theorem pushIncompatible_spec (c : Cfg S I V G O E) (e : Env S I V G O R) (p : List (List S))
    (rec : List (Rule S I V G O) → List E → List (Rule S I V G O) × List E × Bool) (hr : RecOk e rec) (s : Style S I V G O)
    (hs : s.rules = []) (ex : List E) (st : St S I V G O E) (x : S) (hx : st.ex = [])
    (hg : (pushIncompatible rec c s ex st x).good = true) :
    st.good = true ∧ (pushIncompatible rec c s ex st x).ex = [] ∧
      meanList e p (pushIncompatible rec c s ex st x).rules =
        pick (meanList e p st.rules) (pick (own e p [x] s.b) (extra c e p [x] ex)) := by
  unfold pushIncompatible at hg ⊢
  simp only [] at hg ⊢
  have hm : mean e p ({ s with sels := [x] } : Style S I V G O).rule = own e p [x] s.b := mean_leaf e p _ hs
  split at hg
  · next he =>
    rw [if_pos he]
    obtain ⟨h1, h2, h3⟩ := extendMin_extend e p rec hr _ _ _ hx hg
    refine ⟨h1, h2, ?_⟩
    rw [h3, ← hm, isEmpty_mean e p _ he (by simp)]
    rfl
  · next he =>
    rw [if_neg he]
    obtain ⟨h1, h2, h3⟩ := extendMin_extend e p rec hr (st.extend _) _ _ hx hg
    refine ⟨h1, h2, ?_⟩
    rw [h3, ← hm]
    simp only [St.extend, meanList_append, meanList_single, pick_assoc]

omit [DecidableEq S] [DecidableEq I] in
theorem extendMin_mono (rec : List (Rule S I V G O) → List E → List (Rule S I V G O) × List E × Bool) (st : St S I V G O E)
    (rs : List (Rule S I V G O)) (h : (st.extendMin rec rs).good = true) : st.good = true := by
  unfold St.extendMin at h
  split at h
  · exact h
  · simp only [Bool.and_eq_true] at h; exact h.1

omit [DecidableEq S] [DecidableEq I] in
theorem foldInc_mono (c : Cfg S I V G O E) (rec : List (Rule S I V G O) → List E → List (Rule S I V G O) × List E × Bool)
    (s : Style S I V G O) (ex : List E) (ys : List S) (st : St S I V G O E)
    (h : (ys.foldl (pushIncompatible rec c s ex) st).good = true) : st.good = true := by
  induction ys generalizing st with
  | nil => exact h
  | cons y ys ih =>
    rw [List.foldl_cons] at h
    have h := ih _ h
    unfold pushIncompatible at h
    have := extendMin_mono rec _ _ h
    split at this <;> exact this

omit [DecidableEq S] [DecidableEq I] in
theorem foldInc_spec (c : Cfg S I V G O E) (e : Env S I V G O R) (p : List (List S))
    (rec : List (Rule S I V G O) → List E → List (Rule S I V G O) × List E × Bool) (hr : RecOk e rec) (s : Style S I V G O)
    (ex : List E) (inc : List S) (hs : inc ≠ [] → s.rules = []) : ∀ (st : St S I V G O E), st.ex = [] →
    (inc.foldl (pushIncompatible rec c s ex) st).good = true →
    st.good = true ∧ (inc.foldl (pushIncompatible rec c s ex) st).ex = [] ∧
      meanList e p (inc.foldl (pushIncompatible rec c s ex) st).rules = pick (meanList e p st.rules) (incMean c e p s.b ex inc) := by
  induction inc with
  | nil => intro st hx hg; exact ⟨hg, hx, by simp [incMean]⟩
  | cons x xs ih =>
    intro st hx hg
    have hs := hs (by simp)
    rw [List.foldl_cons] at hg ⊢
    have key := (pushIncompatible_spec c e p rec hr s hs ex st x hx (foldInc_mono c rec s ex _ _ hg)).2.1
    obtain ⟨a, b, d⟩ := ih (fun _ => hs) _ key hg
    obtain ⟨a', b', d'⟩ := pushIncompatible_spec c e p rec hr s hs ex st x hx a
    exact ⟨a', b, by rw [d, d', incMean, pick_assoc]⟩

theorem pushStyle_mono (c : Cfg S I V G O E) (s : Style S I V G O) (st : St S I V G O E) (h : (pushStyle c s st).good = true) :
    st.good = true := by
  unfold pushStyle at h
  simp only [] at h
  repeat' split at h
  all_goals first | exact h | (simp only [Bool.and_eq_true] at h; exact h.1)

theorem finishStyle_mono (c : Cfg S I V G O E) (rec : List (Rule S I V G O) → List E → List (Rule S I V G O) × List E × Bool)
    (s : Style S I V G O) (inc : List S) (ex : List E) (merged : Bool) (st : St S I V G O E)
    (h : (finishStyle rec c s inc ex merged st).good = true) : st.good = true := by
  unfold finishStyle at h
  simp only [] at h
  have last : ∀ (b : Bool) (x : St S I V G O E) rs, (if b = true then x.extend rs else x).good = true → x.good = true := by
    intro b x rs h
    cases b <;> exact h
  have h := foldInc_mono c rec s ex _ _ (last _ _ _ h)
  have h := extendMin_mono rec _ _ h
  have first : ∀ (b : Bool) (x : Style S I V G O) (y : St S I V G O E), (if b = true then pushStyle c x y else y).good = true → y.good = true := by
    intro b x y h
    cases b
    · exact h
    · exact pushStyle_mono c _ _ h
  have h := first _ _ _ h
  exact h

theorem good_mono [DecidableEq V] [DecidableEq G] (c : Cfg S I V G O E)
    (rec : List (Rule S I V G O) → List E → List (Rule S I V G O) × List E × Bool)
    (r : Rule S I V G O) (st : St S I V G O E) (h : (doRule rec c r st).good = true) : st.good = true := by
  cases r with
  | style sels b rules src =>
    simp only [doRule, doStyle] at h
    split at h <;> have h := finishStyle_mono c rec _ _ _ _ _ h <;> simp only [Bool.and_eq_true] at h <;> simp [h]
  | group g rules =>
    simp only [doRule] at h
    repeat' split at h
    all_goals (try simp only [St.extend] at h); (try simp only [Bool.and_eq_true] at h); exact h.1
  | other o => simp only [doRule, Bool.and_eq_true] at h; exact h.1
  | decls b => simp only [doRule, Bool.and_eq_true] at h; exact h.1
  | ignored => exact h

theorem finishStyle_spec {c : Cfg S I V G O E} {e : Env S I V G O R} (hc : Laws c e) (p : List (List S))
    (rec : List (Rule S I V G O) → List E → List (Rule S I V G O) × List E × Bool) (hr : RecOk e rec) (s : Style S I V G O)
    (inc : List S) (ex : List E) (merged : Bool) (hm : merged = true → s.rules = []) (hi : inc ≠ [] → s.rules = [])
    (st : St S I V G O E) (hg : (finishStyle rec c s inc ex merged st).good = true) :
    st.good = true ∧ (finishStyle rec c s inc ex merged st).ex = [] ∧
      meanList e p (finishStyle rec c s inc ex merged st).rules =
        pick (meanList e p st.rules) (pick (if merged then none else own e p s.sels s.b) (pick (extra c e p s.sels ex)
          (pick (incMean c e p s.b ex inc) (meanList e (s.sels :: p) s.rules)))) := by
  unfold finishStyle at hg ⊢
  simp only [] at hg ⊢
  generalize hsplit : (!s.rules.isEmpty && !s.sels.isEmpty &&
    (!(c.logical s.sels ex).isEmpty || !(c.supports s.sels ex).isEmpty || !inc.isEmpty)) = split at hg ⊢
  generalize hs' : (if split = true then { s with rules := [] } else s) = s' at hg ⊢
  generalize hst : (if (!merged && !s'.isEmpty) = true then pushStyle c s' { st with ex := [] } else { st with ex := [] }) = st1 at hg ⊢
  generalize hst2 : (st1.extendMin rec (c.logical s.sels ex)).extend (c.supports s.sels ex) = st2 at hg ⊢
  generalize hst3 : inc.foldl (pushIncompatible rec c s ex) st2 = st3 at hg ⊢
  have hst1 : st1.ex = [] := by
    rw [← hst]; split
    · exact (pushStyle_spec c e p s' _).1
    · rfl
  have hg3 : st3.good = true := by
    split at hg <;> exact hg
  have hg2 : st2.good = true := by
    exact foldInc_mono c rec s ex inc _ (by rw [hst3]; exact hg3)
  obtain ⟨a1, a2, a3⟩ := extendMin_extend e p rec hr st1 _ _ hst1 (by rw [hst2]; exact hg2)
  rw [hst2] at a2 a3
  obtain ⟨b1, b2, b3⟩ := foldInc_spec c e p rec hr s ex inc hi st2 a2 (by rw [hst3]; exact hg3)
  rw [hst3] at b2 b3
  -- the main rule
  have main : st.good = true ∧ meanList e p st1.rules = pick (meanList e p st.rules)
      (if merged then none else pick (own e p s.sels s.b) (if split then none else meanList e (s.sels :: p) s.rules)) := by
    have hmean : mean e p s'.rule = pick (own e p s.sels s.b) (if split then none else meanList e (s.sels :: p) s.rules) := by
      rw [← hs', mean_style]
      cases split <;> simp
    rw [← hmean, ← hst]
    rw [← hst] at a1
    cases merged with
    | true => simp at a1 ⊢; exact a1
    | false =>
      simp only [Bool.not_false, Bool.true_and, Bool.false_eq_true, if_false] at a1 ⊢
      cases he : s'.isEmpty with
      | true =>
        simp only [he, Bool.not_true, Bool.false_eq_true, if_false] at a1 ⊢
        refine ⟨a1, ?_⟩
        have : mean e p s'.rule = none := by
          rw [mean_style]
          simp only [Style.isEmpty, Bool.or_eq_true, Bool.and_eq_true, List.isEmpty_iff] at he
          rcases he with h | h
          · rw [h, hc.noSel]; simp [specOf]
          · simp [h.2, blockVal_empty e s'.b h.1]
        rw [this]; simp
      | false =>
        simp only [he, Bool.not_false, if_true] at a1 ⊢
        exact (pushStyle_spec c e p s' { st with ex := [] }).2 a1
  refine ⟨main.1, ?_, ?_⟩
  · split <;> exact b2
  · have hres : meanList e p (if split = true then st3.extend [({ s with b := ⟨[], []⟩ } : Style S I V G O).rule] else st3).rules =
        pick (meanList e p st3.rules) (if split then meanList e (s.sels :: p) s.rules else none) := by
      cases split with
      | false => simp
      | true => simp [St.extend, meanList_append, mean_style, blockVal, lastVal]
    rw [hres, b3, a3, main.2]
    cases hsp : split with
    | true =>
      subst hsp
      cases hmg : merged with
      | true =>
        have := hm hmg
        simp [this] at hsplit
      | false => simp [pick_assoc]
    | false =>
      subst hsp
      cases hmg : merged with
      | true => simp [hm hmg, pick_assoc]
      | false =>
        simp only [Bool.false_eq_true, if_false, pick_none_right]
        -- either nothing is nested, or there are no other rules
        by_cases hn : s.rules = []
        · simp [hn, pick_assoc]
        · by_cases hss : s.sels = []
          · rw [hss, hc.noSel]; simp [pick_assoc]
          · have he : inc = [] := by
              by_contra h; exact hn (hi h)
            simp only [Bool.and_eq_false_iff, Bool.or_eq_false_iff, Bool.not_eq_false', List.isEmpty_iff, hn, hss, false_or] at hsplit
            simp [he, incMean, extra, hsplit.1.1, hsplit.1.2]

omit [DecidableEq S] [DecidableEq I] in
theorem specOf_filter (e : Env S I V G O R) (p : List (List S)) (q : S → Bool) (l : List S) :
    specOf e p l = maxSpec (specOf e p (l.filter q)) (specOf e p (l.filter (!q ·))) := by
  induction l with
  | nil => rfl
  | cons x l ih =>
    rw [specOf, ih]
    cases h : q x
    · simp only [List.filter_cons, h, Bool.not_false, if_true, Bool.false_eq_true, if_false, specOf]
      rw [← maxSpec_assoc, ← maxSpec_assoc, maxSpec_comm (e.one p x)]
    · simp only [List.filter_cons, h, Bool.not_true, if_true, Bool.false_eq_true, if_false, specOf, maxSpec_assoc]

omit [DecidableEq S] [DecidableEq I] in
theorem incMean_spec {c : Cfg S I V G O E} {e : Env S I V G O R} (hc : Laws c e) (p : List (List S)) (b : Block I V) (inc : List S) :
    incMean c e p (c.minB b).1 (c.minB b).2 inc = own e p inc b := by
  induction inc with
  | nil => simp [incMean, own, specOf]
  | cons x xs ih =>
    rw [incMean, ih, hc.minB p [x] b, own, own, candOf_maxSpec, specOf, specOf, specOf, maxSpec_none_right]

variable [DecidableEq V]

theorem doStyle_spec {c : Cfg S I V G O E} {e : Env S I V G O R} (hc : Laws c e) (p : List (List S))
    (rec : List (Rule S I V G O) → List E → List (Rule S I V G O) × List E × Bool) (hr : RecOk e rec) (s : Style S I V G O)
    (st : St S I V G O E) (hx : st.ex = []) (hg : (doStyle rec c s st).good = true) :
    st.good = true ∧ (doStyle rec c s st).ex = [] ∧
      meanList e p (doStyle rec c s st).rules = pick (meanList e p st.rules) (mean e p s.rule) := by
  unfold doStyle at hg ⊢
  simp only [hx, List.nil_append] at hg ⊢
  generalize hn : (if s.rules.isEmpty = true then ([], [], true) else rec s.rules []) = n at hg ⊢
  generalize hsp : splitSels c { s with b := (c.minB s.b).1, rules := n.1 } = sp at hg ⊢
  -- what the first half gives
  suffices H : n.2.2 = true → (sp.2.isEmpty || n.1.isEmpty) = true →
      (sp.2 ≠ [] → sp.1.rules = []) ∧ sp.1.b = (c.minB s.b).1 ∧
      mean e p s.rule = pick (own e p sp.1.sels s.b) (pick (own e p sp.2 s.b) (meanList e (sp.1.sels :: p) sp.1.rules)) by
    generalize hm : tryMerge c sp.1 st.rules = mg at hg ⊢
    cases mg with
    | none =>
      simp only [] at hg ⊢
      have hg0 : (st.good && n.2.2 && (sp.2.isEmpty || n.1.isEmpty)) = true := by
        exact finishStyle_mono c rec _ _ _ _ _ hg
      simp only [Bool.and_eq_true] at hg0
      obtain ⟨h1, h2, h3⟩ := H hg0.1.2 hg0.2
      obtain ⟨a, b, d⟩ := finishStyle_spec hc p rec hr sp.1 sp.2 _ false (by simp) h1 _ hg
      simp only [Bool.and_eq_true] at a
      refine ⟨a.1.1, b, ?_⟩
      rw [d, h3, h2, incMean_spec hc, own, own, own, ← hc.minB p sp.1.sels s.b]
      simp [pick_assoc]
    | some mg =>
      obtain ⟨rules, s3⟩ := mg
      simp only [] at hg ⊢
      obtain ⟨m1, m2, m3⟩ := tryMerge_spec hc p _ _ _ _ hm
      have hs3 : s3.rules = [] := by rcases m3 with rfl | rfl <;> exact m2
      obtain ⟨a, b, d⟩ := finishStyle_spec hc p rec hr s3 sp.2 _ true (fun _ => hs3) (fun _ => hs3) _ hg
      simp only [Bool.and_eq_true, Bool.or_eq_true, decide_eq_true_eq, List.isEmpty_iff] at a
      obtain ⟨⟨⟨⟨a1, a2⟩, a3⟩, a4⟩, a5⟩ := a
      obtain ⟨h1, h2, h3⟩ := H a2 (by simpa using a3)
      refine ⟨a1, b, ?_⟩
      rw [d, h3, m1, mean_leaf e p _ m2, h2]
      have hex : extra c e p s3.sels (c.minB s.b).2 = extra c e p sp.1.sels (c.minB s.b).2 := by
        rcases a5 with a5 | a5
        · rw [a5]; simp [extra, hc.logicalNil, hc.supportsNil]
        · rw [a5]
      have hin : incMean c e p s3.b (c.minB s.b).2 sp.2 = own e p sp.2 s.b := by
        rcases a4 with a4 | a4
        · rw [a4]; simp [incMean, own, specOf]
        · rw [a4, h2, incMean_spec hc]
      simp only [if_true, pick_none_left, hex, hin, m2, hs3, meanList_nil, pick_none_right]
      simp only [own, extra]
      rw [← hc.minB p sp.1.sels s.b]
      simp only [pick_assoc]
  intro hn2 hn3
  have hnm : ∀ q, meanList e q n.1 = meanList e q s.rules := by
    intro q
    rw [← hn]
    split
    · next h => rw [List.isEmpty_iff] at h; rw [h]
    · next h =>
      rw [← hn, if_neg h] at hn2
      exact (hr s.rules hn2).2 q
  unfold splitSels at hsp
  rw [mean_style]
  split at hsp
  · split at hsp
    · next hw =>
      subst hsp
      refine ⟨by simp, rfl, ?_⟩
      simp only [hc.isSelNested _ _ _ hw, own, specOf, hc.isSel _ _ hw, maxSpec_none_right, candOf_none_left, pick_none_left, hnm]
    · subst hsp
      simp only [Bool.or_eq_true, List.isEmpty_iff] at hn3
      refine ⟨fun h => hn3.resolve_left h, rfl, ?_⟩
      rw [← hnm]
      rcases hn3 with h | h
      · have hall : List.filter c.compat s.sels = s.sels := by
          rw [List.filter_eq_self]
          intro x hx
          rw [List.filter_eq_nil_iff] at h
          simpa using h x hx
        simp only [h, hall]
        simp [own, specOf]
      · simp only [h, meanList_nil, pick_none_right, own, candOf_maxSpec]
        rw [specOf_filter e p c.compat s.sels]
  · subst hsp
    refine ⟨by simp, rfl, ?_⟩
    simp [own, specOf, hnm]

variable [DecidableEq G]

theorem doRule_spec {c : Cfg S I V G O E} {e : Env S I V G O R} (hc : Laws c e) (p : List (List S))
    (rec : List (Rule S I V G O) → List E → List (Rule S I V G O) × List E × Bool) (hr : RecOk e rec) (r : Rule S I V G O)
    (st : St S I V G O E) (hx : st.ex = []) (hg : (doRule rec c r st).good = true) :
    st.good = true ∧ (doRule rec c r st).ex = [] ∧
      meanList e p (doRule rec c r st).rules = pick (meanList e p st.rules) (mean e p r) := by
  cases r with
  | style sels b rules src => exact doStyle_spec hc p rec hr ⟨sels, b, rules, src⟩ st hx hg
  | other o =>
    simp only [doRule, hx, Bool.and_eq_true, List.isEmpty_iff, List.nil_append] at hg ⊢
    exact ⟨hg.1, hg.2, by rw [meanList_append, meanList_single]⟩
  | ignored =>
    simp only [doRule, hx] at hg ⊢
    exact ⟨hg, trivial, by rw [meanList_append, meanList_single]⟩
  | decls b =>
    simp only [doRule, hx, Bool.and_eq_true, List.isEmpty_iff, List.nil_append] at hg ⊢
    refine ⟨hg.1, hg.2, ?_⟩
    rw [meanList_append, meanList_single, mean, mean]
    congr 1
    have := fun path sels => hc.minB path sels b
    simp only [hg.2, hc.logicalNil, hc.supportsNil, meanList_nil, pick_none_right] at this
    cases p with
    | nil => rfl
    | cons ss p => exact this p ss
  | group g rules =>
    have one : ∀ (hg : (if ((rec rules []).1.isEmpty || c.never (c.trans g)) = true then { st with ex := (rec rules []).2.1, good := st.good && (rec rules []).2.2 }
        else ({ st with ex := (rec rules []).2.1, good := st.good && (rec rules []).2.2 } : St S I V G O E).extend [.group (c.trans g) (rec rules []).1]).good = true),
        st.good = true ∧ (if ((rec rules []).1.isEmpty || c.never (c.trans g)) = true then { st with ex := (rec rules []).2.1, good := st.good && (rec rules []).2.2 }
        else ({ st with ex := (rec rules []).2.1, good := st.good && (rec rules []).2.2 } : St S I V G O E).extend [.group (c.trans g) (rec rules []).1]).ex = [] ∧
        meanList e p (if ((rec rules []).1.isEmpty || c.never (c.trans g)) = true then { st with ex := (rec rules []).2.1, good := st.good && (rec rules []).2.2 }
        else ({ st with ex := (rec rules []).2.1, good := st.good && (rec rules []).2.2 } : St S I V G O E).extend [.group (c.trans g) (rec rules []).1]).rules =
          pick (meanList e p st.rules) (mean e p (.group g rules)) := by
      intro hg
      have hg' : (st.good && (rec rules []).2.2) = true := by split at hg <;> exact hg
      rw [Bool.and_eq_true] at hg'
      obtain ⟨a, b⟩ := hr rules hg'.2
      refine ⟨hg'.1, by split <;> exact a, ?_⟩
      rw [mean]
      split
      · next h =>
        simp only [Bool.or_eq_true, List.isEmpty_iff] at h
        rcases h with h | h
        · rw [← b, h]; simp
        · rw [← hc.trans, hc.never _ h]; simp
      · simp only [St.extend, meanList_append, meanList_single, mean, hc.trans, b]
    simp only [doRule, hx] at hg ⊢
    split at hg
    · next g' rules' rest hrev =>
      have hst : st.rules = rest.reverse ++ [.group g' rules'] := by
        rw [← List.reverse_reverse st.rules, hrev, List.reverse_cons]
      split at hg
      · next hgg =>
        subst hgg
        rw [if_pos rfl]
        simp only [Bool.and_eq_true] at hg ⊢
        obtain ⟨a, b⟩ := hr _ hg.2
        refine ⟨hg.1, a, ?_⟩
        rw [hst, meanList_append, meanList_append, meanList_single, meanList_single, mean, mean, mean, b, hc.trans, meanList_append, pick_assoc]
        cases e.holds g' <;> simp
      · next hgg => rw [if_neg hgg]; exact one hg
    · exact one hg

theorem minify_spec {c : Cfg S I V G O E} {e : Env S I V G O R} (hc : Laws c e) (fuel : Nat) : RecOk e (minify c fuel) := by
  induction fuel with
  | zero => intro rs _; exact ⟨rfl, fun _ => rfl⟩
  | succ fuel ih =>
    have mono : ∀ (rs : List (Rule S I V G O)) (st : St S I V G O E), st.ex = [] →
        (rs.foldl (fun st r => doRule (minify c fuel) c r st) st).good = true →
        st.good = true ∧ (rs.foldl (fun st r => doRule (minify c fuel) c r st) st).ex = [] ∧ ∀ p,
        meanList e p (rs.foldl (fun st r => doRule (minify c fuel) c r st) st).rules = pick (meanList e p st.rules) (meanList e p rs) := by
      intro rs
      induction rs using List.reverseRecOn with
      | nil => intro st hx hg; exact ⟨hg, hx, fun p => by simp⟩
      | append_singleton rs r ih' =>
        intro st hx hg
        rw [List.foldl_append, List.foldl_cons, List.foldl_nil] at hg ⊢
        -- the flag before the last rule
        by_cases hgood : (rs.foldl (fun st r => doRule (minify c fuel) c r st) st).good = true
        · obtain ⟨a, b, d⟩ := ih' st hx hgood
          obtain ⟨a', b', -⟩ := doRule_spec hc [] _ ih r _ b hg
          refine ⟨a, b', fun p => ?_⟩
          rw [(doRule_spec hc p _ ih r _ b hg).2.2, d, meanList_append, meanList_single, pick_assoc]
        · exact absurd (good_mono c _ r _ hg) hgood
    intro rs hg
    obtain ⟨-, b, d⟩ := mono rs ⟨[], [], [], true⟩ rfl hg
    exact ⟨b, fun p => (d p).trans (by simp)⟩
end Verif.Rules
