import Verif.Rules.MinLemmas
import Mathlib.Data.List.Perm.Basic
/-! Property theorems about the rule list minifier. -/
namespace Verif.Rules
variable {S I V G O E R : Type} [DecidableEq S] [DecidableEq I] [DecidableEq V] [DecidableEq G]

/-! ## C22, C23, C26: the cascade -/

/-- **C22, C23, C26** Minifying a list of rules (removing duplicates, merging adjacent rules, splitting selector lists, merging and
dropping group rules, recursively) does not change the winning declaration of any longhand for any element, wherever the list is
nested and however deep. Missing: runs in which one of the harmful events happens that the ghost flag records; each of them is a
bug of the code, shown below: `C22_counterexample_*`, `C23_counterexample_*`, `C26_counterexample_*`. -/
theorem C22_cascade_partial (c : Cfg S I V G O E) (e : Env S I V G O R) (hc : Laws c e) (fuel : Nat) (rules : List (Rule S I V G O))
    (hg : (minify c fuel rules []).2.2 = true) (path : List (List S)) :
    meanList e path (minify c fuel rules []).1 = meanList e path rules :=
  (minify_spec hc fuel rules hg).2 path

/-! ## C22 without the flag -/

/-- A flat list of rules without `!important` in which no style rule follows another. -/
def Separated : List (Rule S I V G O) → Prop
  | [] => True
  | .other _ :: rs => Separated rs
  | [.style _ b rules _] => b.imps = [] ∧ rules = []
  | .style _ b rules _ :: .other _ :: rs => b.imps = [] ∧ rules = [] ∧ Separated rs
  | _ => False

/-- What is known of a rule the key of a duplicate points to. -/
def PlainAt (rules : List (Rule S I V G O)) (i : Nat) : Prop :=
  i < rules.length ∧ ∀ o, rules[i]?.bind Rule.style? = some o → o.rules = [] ∧ o.b.imps = []

/-- What is known of an entry of the map. -/
def KeyOk (rules : List (Rule S I V G O)) (k : Nat × Nat × Nat) : Prop :=
  PlainAt rules k.2.1 ∧ PlainAt rules k.2.2 ∧
    ∀ a b, rules[k.2.1]?.bind Rule.style? = some a → rules[k.2.2]?.bind Rule.style? = some b → b.isDuplicate a = true

omit [DecidableEq V] [DecidableEq G] in
theorem duplicate_trans (a b d : Style S I V G O) (h : a.isDuplicate b = true) (h' : b.isDuplicate d = true) : a.isDuplicate d = true := by
  simp only [Style.isDuplicate, Bool.and_eq_true, beq_iff_eq, decide_eq_true_eq] at h h' ⊢
  exact ⟨⟨h.1.1.trans h'.1.1, h.1.2.trans h'.1.2⟩, h.2.trans h'.2⟩
omit [DecidableEq V] [DecidableEq G] in
theorem duplicate_symm (a b : Style S I V G O) (h : a.isDuplicate b = true) : b.isDuplicate a = true := by
  simp only [Style.isDuplicate, Bool.and_eq_true, beq_iff_eq, decide_eq_true_eq] at h ⊢
  exact ⟨⟨h.1.1.symm, h.1.2.symm⟩, h.2.symm⟩
omit [DecidableEq V] [DecidableEq G] in
theorem duplicate_refl (a : Style S I V G O) : a.isDuplicate a = true := by
  simp [Style.isDuplicate]

omit [DecidableEq S] [DecidableEq I] [DecidableEq V] [DecidableEq G] in
theorem plainAt_append (rules rs : List (Rule S I V G O)) (i : Nat) (h : PlainAt rules i) : PlainAt (rules ++ rs) i := by
  refine ⟨by have := h.1; simp; omega, fun o ho => h.2 o ?_⟩
  rwa [List.getElem?_append_left h.1] at ho

omit [DecidableEq V] [DecidableEq G] in
theorem keyOk_append (rules rs : List (Rule S I V G O)) (k : Nat × Nat × Nat) (h : KeyOk rules k) : KeyOk (rules ++ rs) k := by
  refine ⟨plainAt_append _ _ _ h.1, plainAt_append _ _ _ h.2.1, ?_⟩
  rw [List.getElem?_append_left h.1.1, List.getElem?_append_left h.2.1.1]
  exact h.2.2

omit [DecidableEq S] [DecidableEq I] [DecidableEq V] [DecidableEq G] in
theorem getElem_set_ignored (rules : List (Rule S I V G O)) (i j : Nat) (o : Style S I V G O)
    (h : (rules.set i .ignored)[j]?.bind Rule.style? = some o) : rules[j]?.bind Rule.style? = some o := by
  rw [List.getElem?_set] at h
  split at h
  · split at h <;> simp [Rule.style?] at h
  · exact h

omit [DecidableEq V] [DecidableEq G] in
theorem keyOk_set (rules : List (Rule S I V G O)) (i : Nat) (k : Nat × Nat × Nat) (h : KeyOk rules k) :
    KeyOk (rules.set i .ignored) k := by
  refine ⟨⟨by simpa using h.1.1, fun o ho => h.1.2 o (getElem_set_ignored _ _ _ _ ho)⟩,
    ⟨by simpa using h.2.1.1, fun o ho => h.2.1.2 o (getElem_set_ignored _ _ _ _ ho)⟩, fun a b ha hb => ?_⟩
  exact h.2.2 a b (getElem_set_ignored _ _ _ _ ha) (getElem_set_ignored _ _ _ _ hb)

omit [DecidableEq V] [DecidableEq G] in
theorem insertKey_ok (c : Cfg S I V G O E) (hch : ∀ ks k, c.choose ks = some k → k ∈ ks) (rules : List (Rule S I V G O))
    (keys : List (Nat × Nat × Nat)) (h idx : Nat) (hk : ∀ k ∈ keys, KeyOk rules k) (hi : PlainAt rules idx)
    (_hlive : ∃ s, rules[idx]?.bind Rule.style? = some s) :
    ∀ k ∈ insertKey c rules keys h idx, KeyOk rules k := by
  intro k hm
  unfold insertKey at hm
  split at hm
  · next k0 hk0 =>
    have hk0 := hch _ _ hk0
    simp only [matching, List.mem_filter, Bool.and_eq_true, beq_iff_eq] at hk0
    rw [List.mem_map] at hm
    obtain ⟨k1, hk1, rfl⟩ := hm
    split
    · refine ⟨(hk k0 hk0.1).1, hi, fun a b ha hb => ?_⟩
      have := hk0.2.2
      unfold keyEq at this
      simp only [] at ha hb
      rw [ha, hb] at this
      exact duplicate_symm _ _ this
    · exact hk _ hk1
  · simp only [List.mem_cons] at hm
    rcases hm with rfl | hm
    · refine ⟨hi, hi, fun a b ha hb => ?_⟩
      simp only [] at ha hb
      rw [ha, Option.some.injEq] at hb
      subst hb
      exact duplicate_refl a
    · exact hk _ hm

omit [DecidableEq V] [DecidableEq G] in
theorem pushStyle_good (c : Cfg S I V G O E) (hch : ∀ ks k, c.choose ks = some k → k ∈ ks) (s : Style S I V G O) (hs : s.rules = [])
    (hi : s.b.imps = []) (st : St S I V G O E) (hk : ∀ k ∈ st.keys, KeyOk st.rules k) :
    (pushStyle c s st).good = st.good ∧ ∀ k ∈ (pushStyle c s st).keys, KeyOk (pushStyle c s st).rules k := by
  have hk' : ∀ k ∈ st.keys, KeyOk (st.rules ++ [s.rule]) k := fun k hm => keyOk_append _ _ _ (hk k hm)
  have hlast : (st.rules ++ [s.rule])[st.rules.length]?.bind Rule.style? = some s := by simp [Style.rule, Rule.style?]
  have hplain : PlainAt (st.rules ++ [s.rule]) st.rules.length :=
    ⟨by simp, fun o ho => by rw [hlast, Option.some.injEq] at ho; subst ho; exact ⟨hs, hi⟩⟩
  unfold pushStyle
  simp only [hs, List.isEmpty_nil, if_true]
  split
  · split
    · next k hck =>
      have hck := hch _ _ hck
      simp only [matching, List.mem_filter, Bool.and_eq_true, beq_iff_eq] at hck
      obtain ⟨hkm, -, heq⟩ := hck
      have hf : ∀ k' ∈ st.keys.filter (· ≠ k), KeyOk (st.rules ++ [s.rule]) k' := fun k' hm => hk' k' (List.mem_of_mem_filter hm)
      split
      · next o ho =>
        split
        · have hlt := (hk k hkm).2.1.1
          have hgood : goodRemoval (st.rules ++ [s.rule]) k.2.2 st.rules.length s = true := by
            unfold goodRemoval
            rw [ho]
            obtain ⟨o1, o2⟩ := (hk' k hkm).2.1.2 o ho
            unfold keyEq at heq
            rw [hlast] at heq
            split at heq
            · next a b ha hb =>
              simp only [Option.some.injEq] at hb
              subst hb
              have := duplicate_trans _ _ _ ((hk' k hkm).2.2 a o ha ho) heq
              simp [hlt, this, o1, o2, hi]
            · exact absurd heq (by simp)
          refine ⟨by simp [hgood], ?_⟩
          have hset : ((st.rules ++ [s.rule]).set k.2.2 .ignored)[st.rules.length]?.bind Rule.style? = some s := by
            rw [List.getElem?_set_ne (by omega), hlast]
          refine insertKey_ok c hch _ _ _ _ (fun k' hm => keyOk_set _ _ _ (hf k' hm)) ⟨by simp, fun o ho => ?_⟩ ⟨s, hset⟩
          rw [hset, Option.some.injEq] at ho
          subst ho
          exact ⟨hs, hi⟩
        · exact ⟨rfl, insertKey_ok c hch _ _ _ _ hf hplain ⟨s, hlast⟩⟩
      · exact ⟨rfl, insertKey_ok c hch _ _ _ _ hf hplain ⟨s, hlast⟩⟩
    · exact ⟨rfl, insertKey_ok c hch _ _ _ _ hk' hplain ⟨s, hlast⟩⟩
  · exact ⟨rfl, insertKey_ok c hch _ _ _ _ hk' hplain ⟨s, hlast⟩⟩

omit [DecidableEq G] in
theorem doStyle_plain (rec : List (Rule S I V G O) → List E → List (Rule S I V G O) × List E × Bool) (c : Cfg S I V G O E)
    (e : Env S I V G O R) (hc : Laws c e)
    (hB : ∀ b, (c.minB b).2 = [] ∧ (b.imps = [] → (c.minB b).1.imps = [])) (hsel : c.compileSels = false)
    (s : Style S I V G O) (hs : s.rules = []) (hi : s.b.imps = []) (st : St S I V G O E) (hx : st.ex = [])
    (hk : ∀ k ∈ st.keys, KeyOk st.rules k) (hl : tryMerge c { s with b := (c.minB s.b).1 } st.rules = none) :
    (doStyle rec c s st).good = st.good ∧ (doStyle rec c s st).ex = [] ∧
      ∀ k ∈ (doStyle rec c s st).keys, KeyOk (doStyle rec c s st).rules k := by
  have hrule : ({ sels := s.sels, b := (c.minB s.b).1, rules := [], src := s.src } : Style S I V G O) =
      { s with b := (c.minB s.b).1 } := by rw [← hs]
  unfold doStyle splitSels
  simp only [hx, (hB s.b).1, List.append_nil, hsel, hs, List.isEmpty_nil, if_true, Bool.false_eq_true, false_and, and_false, if_false,
    Bool.and_true, Bool.or_self, hrule, hl]
  unfold finishStyle
  simp only [hc.logicalNil, hc.supportsNil, St.extendMin, St.extend, List.isEmpty_nil, if_true, List.append_nil, List.foldl_nil,
    Bool.not_true, Bool.or_self, Bool.and_false, Bool.false_eq_true, if_false, Bool.not_false, Bool.true_and]
  split
  · obtain ⟨a, b⟩ := pushStyle_good c hc.choose { s with b := (c.minB s.b).1 } hs ((hB s.b).2 hi) { st with ex := [] } hk
    refine ⟨?_, ?_, ?_⟩
    · rw [a]
    · rw [(pushStyle_spec c e [] _ _).1]
    · exact b
  · exact ⟨rfl, rfl, hk⟩

omit [DecidableEq G] in
theorem tryMerge_none (c : Cfg S I V G O E) (s : Style S I V G O) (rules : List (Rule S I V G O))
    (h : rules = [] ∨ ∃ rs o, rules = rs ++ [.other o]) : tryMerge c s rules = none := by
  rcases h with rfl | ⟨rs, o, rfl⟩
  · rfl
  · simp [tryMerge, Rule.style?]

/-- **C22** Without the flag: in a flat list of style rules that are separated by other rules, without `!important`, for targets
that need no additional rules, removing duplicates never changes the winning declaration. -/
theorem C22_separated_partial (c : Cfg S I V G O E) (e : Env S I V G O R) (hc : Laws c e)
    (hB : ∀ b, (c.minB b).2 = [] ∧ (b.imps = [] → (c.minB b).1.imps = [])) (hleak : ∀ o, c.leak o = []) (hsel : c.compileSels = false)
    (fuel : Nat) (rules : List (Rule S I V G O)) (hr : Separated rules) (path : List (List S)) :
    meanList e path (minify c fuel rules []).1 = meanList e path rules := by
  apply C22_cascade_partial c e hc
  cases fuel with
  | zero => rfl
  | succ fuel =>
    have key : ∀ (n : Nat) (rules : List (Rule S I V G O)) (_ : rules.length ≤ n) (_ : Separated rules) (st : St S I V G O E), st.good = true → st.ex = [] →
        (∀ k ∈ st.keys, KeyOk st.rules k) → (st.rules = [] ∨ ∃ rs o, st.rules = rs ++ [.other o]) →
        (rules.foldl (fun st r => doRule (minify c fuel) c r st) st).good = true := by
      intro n
      induction n with
      | zero =>
        intro rules hn _ st hg _ _ _
        have : rules = [] := List.length_eq_zero_iff.1 (by omega)
        subst this; exact hg
      | succ n ih =>
        intro rules hn hr st hg hx hk hl
        have hother : ∀ (o : O) (st : St S I V G O E), st.good = true → st.ex = [] → (∀ k ∈ st.keys, KeyOk st.rules k) →
            (doRule (minify c fuel) c (.other o) st).good = true ∧ (doRule (minify c fuel) c (.other o) st).ex = [] ∧
            (∀ k ∈ (doRule (minify c fuel) c (.other o) st).keys, KeyOk (doRule (minify c fuel) c (.other o) st).rules k) ∧
            ∃ rs o', (doRule (minify c fuel) c (.other o) st).rules = rs ++ [.other o'] := by
          intro o st hg hx hk
          simp only [doRule, hleak, hg, hx, List.isEmpty_nil, Bool.and_self, List.append_nil, true_and]
          exact ⟨fun k hm => keyOk_append _ _ _ (hk k hm), _, _, rfl⟩
        match rules, hr with
        | [], _ => exact hg
        | .other o :: rs, hr =>
          obtain ⟨a, b, d, f⟩ := hother o st hg hx hk
          exact ih rs (by simp at hn; omega) hr _ a b d (.inr f)
        | [.style sels b nested src], hr =>
          exact (doStyle_plain _ c e hc hB hsel ⟨sels, b, nested, src⟩ hr.2 hr.1 st hx hk (tryMerge_none c _ _ hl)).1.trans hg
        | .style sels b nested src :: .other o :: rs, hr =>
          obtain ⟨a1, a2, a3⟩ := doStyle_plain (minify c fuel) c e hc hB hsel ⟨sels, b, nested, src⟩ hr.2.1 hr.1 st hx hk (tryMerge_none c _ _ hl)
          obtain ⟨b1, b2, b3, b4⟩ := hother o _ (a1.trans hg) a2 a3
          exact ih rs (by simp at hn; omega) hr.2.2 _ b1 b2 b3 (.inr b4)
    exact key rules.length rules (Nat.le_refl _) hr _ rfl rfl (by simp) (.inl rfl)

/-! ## C23: merging in browsers that do not know all selectors -/

/-- The specificity of a selector list in a browser that drops a list with a selector it does not know. -/
def strictSpec (e : Env S I V G O R) (supp : S → Bool) (path : List (List S)) (sels : List S) : Option Nat :=
  if sels.all supp then specOf e path sels else none

/-- The candidate of a rule without nested rules in such a browser. -/
def strictMean (e : Env S I V G O R) (supp : S → Bool) (path : List (List S)) (s : Style S I V G O) : Option (Cand R) :=
  candOf (strictSpec e supp path s.sels) (blockVal e s.b)

omit [DecidableEq G] in
/-- **C23** Merging two adjacent rules is right also in a browser that drops rules with selectors it does not know, as long as it knows
those that are compatible with the targets; and nested rules are never lost. -/
theorem C23_merge (c : Cfg S I V G O E) (e : Env S I V G O R) (hM : ∀ b, blockVal e (c.minM b) = blockVal e b) (supp : S → Bool)
    (hsupp : ∀ x, c.compat x = true → supp x = true) (s l s' l' : Style S I V G O) (h : mergeStyle c s l = some (s', l')) (path : List (List S)) :
    strictMean e supp path l' = pick (strictMean e supp path l) (strictMean e supp path s) ∧
      s.rules = [] ∧ l.rules = [] ∧ l'.rules = [] := by
  have hall : ∀ sels : List S, sels.all c.compat = true → sels.all supp = true := by
    intro sels h
    rw [List.all_eq_true] at h ⊢
    exact fun x hx => hsupp x (h x hx)
  unfold mergeStyle at h
  split at h
  · next hs =>
    obtain ⟨h1, -, -, h2, h3, -⟩ := hs
    rw [List.isEmpty_iff] at h2 h3
    simp only [Option.some.injEq, Prod.mk.injEq] at h
    obtain ⟨rfl, rfl⟩ := h
    refine ⟨?_, h2, h3, h3⟩
    simp only [strictMean, hM, h1, candOf_append]
  · split at h
    · next hs =>
      obtain ⟨h1, h2, h3⟩ := hs
      rw [List.isEmpty_iff] at h2 h3
      split at h
      · next hcc =>
        simp only [Option.some.injEq, Prod.mk.injEq] at h
        obtain ⟨rfl, rfl⟩ := h
        refine ⟨?_, h2, h3, h3⟩
        simp only [strictMean, strictSpec, List.all_append, hall _ hcc.1, hall _ hcc.2, Bool.and_self, if_true, h1, specOf_append, candOf_maxSpec]
      · exact absurd h (by simp)
    · exact absurd h (by simp)

/-! ## C26: splitting selector lists -/

omit [DecidableEq S] [DecidableEq I] [DecidableEq V] [DecidableEq G] in
/-- **C26** Splitting keeps every selector exactly once and in order, the declarations and the nested rules; the rule that is kept has
only compatible selectors. -/
theorem C26_split (c : Cfg S I V G O E) (s : Style S I V G O) (hw : c.wrapOk s.sels = false) :
    ((splitSels c s).1.sels ++ (splitSels c s).2).Perm s.sels ∧ (splitSels c s).1.sels.Sublist s.sels ∧
      (splitSels c s).2.Sublist s.sels ∧ (splitSels c s).1.b = s.b ∧ (splitSels c s).1.rules = s.rules ∧
      ((splitSels c s).2 ≠ [] → ∀ x ∈ (splitSels c s).1.sels, c.compat x = true) ∧
      (∀ x ∈ (splitSels c s).2, c.compat x = false) := by
  unfold splitSels
  split
  · rw [if_neg (by simp [hw])]
    refine ⟨List.filter_append_perm _ _, List.filter_sublist, List.filter_sublist, rfl, rfl, ?_, ?_⟩
    · intro _ x hx; exact (List.mem_filter.1 hx).2
    · intro x hx; simpa using (List.mem_filter.1 hx).2
  · simp

omit [DecidableEq S] [DecidableEq I] [DecidableEq V] [DecidableEq G] in
/-- **C26** After splitting, an element matched by a compatible selector gets the declarations also in a browser that does not know
the other selectors. -/
theorem C26_forgiving (c : Cfg S I V G O E) (e : Env S I V G O R) (supp : S → Bool) (hsupp : ∀ x, c.compat x = true → supp x = true)
    (s : Style S I V G O) (hw : c.wrapOk s.sels = false) (hinc : (splitSels c s).2 ≠ []) (path : List (List S)) :
    strictSpec e supp path (splitSels c s).1.sels = specOf e path (s.sels.filter c.compat) := by
  have h := (C26_split c s hw).2.2.2.2.2.1 hinc
  rw [strictSpec, if_pos (List.all_eq_true.2 fun x hx => hsupp x (h x hx))]
  unfold splitSels at hinc ⊢
  split
  · simp [hw]
  · next hs => rw [if_neg hs] at hinc; exact absurd rfl hinc

/-! ## Concrete instances

Selectors are numbers that are their own specificity; 100 and above are not compatible with the targets. Property ids from 50 on are
logical properties that have to be compiled. -/

/-- A browser: which selectors match, and the longhand looked at. -/
def env (matched : Nat → Bool) (prop : Nat) : Env Nat Nat Nat Nat (List (Nat × Nat)) Nat where
  one path s := if matched s && path.all (fun l => l.any matched) then some (s + (path.map (fun l => l.foldl max 0)).sum) else none
  covers i := decide (i = prop)
  val _ v := v
  holds g := decide (g ≤ 10)
  other _ _ := none

/-- The hash of the examples. -/
def hash0 (sels ids : List Nat) : Nat := (sels ++ 1000 :: ids).foldl (fun a x => a * 3 + x + 1) 0

/-- Targets that need selectors and logical properties compiled. -/
def cfg : Cfg Nat Nat Nat Nat (List (Nat × Nat)) (Nat × Nat) where
  compat s := decide (s < 100)
  compileSels := true
  wrapOk _ := false
  isSel _ := 0
  minB b := (⟨b.decls.filter fun d => decide (d.1 < 50), b.imps⟩, b.decls.filter fun d => !decide (d.1 < 50))
  minM b := b
  logical sels ex := if ex.isEmpty then [] else [.style sels ⟨ex, []⟩ [] 0]
  supports _ _ := []
  leak o := o
  trans g := g
  never g := decide (g > 10)
  cssModules := false
  hash := hash0
  choose := List.head?

/-- Targets that need nothing compiled. -/
def cfg' : Cfg Nat Nat Nat Nat (List (Nat × Nat)) (Nat × Nat) :=
  { cfg with compileSels := false, minB := fun b => (b, []), leak := fun _ => [] }

theorem env_one_none (m : Nat → Bool) (t : Nat) (path : List (List Nat)) (h : [] ∈ path) (s : Nat) :
    (env m t).one path s = none := by
  have : path.all (fun l => l.any m) = false := by
    rw [List.all_eq_false]; exact ⟨[], h, by simp⟩
  simp only [env, this, Bool.and_false, Bool.false_eq_true, if_false]

theorem env_specOf_none (m : Nat → Bool) (t : Nat) (path : List (List Nat)) (h : [] ∈ path) (ss : List Nat) :
    specOf (env m t) path ss = none := by
  induction ss with
  | nil => rfl
  | cons s ss ih => rw [specOf, ih, env_one_none m t path h]; rfl

mutual
theorem env_noSel (m : Nat → Bool) (t : Nat) (path : List (List Nat)) (h : [] ∈ path) :
    ∀ r : Rule Nat Nat Nat Nat (List (Nat × Nat)), mean (env m t) path r = none
  | .style sels b rules _ => by
    rw [mean, env_noSelList m t (sels :: path) (List.mem_cons_of_mem _ h) rules]
    simp [env_specOf_none m t path h]
  | .group g rules => by rw [mean, env_noSelList m t path h rules]; simp
  | .decls b => by
    have : pathSpec (env m t) path = none := by
      cases path with
      | nil => rfl
      | cons ss path =>
        rw [pathSpec]
        rcases List.mem_cons.1 h with h | h
        · subst h; rfl
        · exact env_specOf_none m t path h ss
    rw [mean, this]; rfl
  | .other _ => rfl
  | .ignored => rfl
theorem env_noSelList (m : Nat → Bool) (t : Nat) (path : List (List Nat)) (h : [] ∈ path) :
    ∀ rs : List (Rule Nat Nat Nat Nat (List (Nat × Nat))), meanList (env m t) path rs = none
  | [] => rfl
  | r :: rs => by rw [meanList, env_noSel m t path h r, env_noSelList m t path h rs]; rfl
end

theorem lastVal_filter (m : Nat → Bool) (t : Nat) (q : Nat → Bool) (ds : List (Nat × Nat)) :
    lastVal (env m t) (ds.filter fun d => q d.1) = if q t then lastVal (env m t) ds else none := by
  induction ds with
  | nil => simp [lastVal]
  | cons d ds ih =>
    have hsplit : ∀ l : List (Nat × Nat), lastVal (env m t) (d :: l) = (lastVal (env m t) l).or (lastVal (env m t) [d]) := by
      intro l; rw [← List.singleton_append, lastVal_append]
    have hone : lastVal (env m t) [d] = if d.1 = t then some d.2 else none := by
      unfold lastVal
      by_cases hd : d.1 = t <;> simp [env, hd]
    rw [List.filter_cons]
    by_cases hq : q d.1 = true
    · rw [if_pos hq, hsplit (List.filter _ ds), hsplit ds, ih, hone]
      by_cases hd : d.1 = t
      · rw [← hd, hq]; simp
      · simp only [hd, if_false, Option.or_none]
    · rw [if_neg hq, ih, hsplit, hone]
      by_cases hd : d.1 = t
      · subst hd; simp [hq]
      · simp [hd]

/-- The instance meets the assumptions. -/
theorem laws (m : Nat → Bool) (t : Nat) : Laws cfg (env m t) where
  minB path sels b := by
    have h1 := lastVal_filter m t (fun i => decide (i < 50)) b.decls
    have h2 := lastVal_filter m t (fun i => !decide (i < 50)) b.decls
    simp only [cfg, meanList_nil, pick_none_right]
    have hl : meanList (env m t) path (if (b.decls.filter fun d => !decide (d.1 < 50)).isEmpty then []
        else [.style sels ⟨b.decls.filter fun d => !decide (d.1 < 50), []⟩ [] 0]) =
        candOf (specOf (env m t) path sels) (blockVal (env m t) ⟨b.decls.filter fun d => !decide (d.1 < 50), []⟩) := by
      split
      · next h => rw [blockVal_empty]; simp; simp [Block.isEmpty, h]
      · simp [mean]
    rw [hl]
    cases hs : specOf (env m t) path sels with
    | none => rfl
    | some n =>
      simp only [blockVal, h1, h2]
      by_cases ht : t < 50 <;> simp only [ht, decide_true, decide_false, Bool.not_true, Bool.not_false, if_true, if_false, Bool.false_eq_true] <;>
        cases lastVal (env m t) b.imps <;> cases lastVal (env m t) b.decls <;> simp [candOf, pick_some, Cand.le, lastVal]
  minM b := rfl
  noSel path rules := env_noSelList m t _ (by simp) rules
  logicalNil _ := rfl
  supportsNil _ := rfl
  isSel _ _ h := by simp [cfg] at h
  isSelNested _ _ _ h := by simp [cfg] at h
  trans _ := rfl
  never g h := by simp [cfg, env] at h ⊢; exact h
  choose ks k h := List.mem_of_mem_head? h

theorem laws' (m : Nat → Bool) (t : Nat) : Laws cfg' (env m t) where
  minB path sels b := by simp [cfg', cfg]
  minM b := rfl
  noSel path rules := env_noSelList m t _ (by simp) rules
  logicalNil _ := rfl
  supportsNil _ := rfl
  isSel _ _ h := by simp [cfg', cfg] at h
  isSelNested _ _ _ h := by simp [cfg', cfg] at h
  trans _ := rfl
  never g h := by simp [cfg', cfg, env] at h ⊢; exact h
  choose ks k h := List.mem_of_mem_head? h

/-- A style rule of the examples. -/
def st (sels : List Nat) (ds : List (Nat × Nat)) (imps : List (Nat × Nat) := [])
    (rules : List (Rule Nat Nat Nat Nat (List (Nat × Nat))) := []) : Rule Nat Nat Nat Nat (List (Nat × Nat)) := .style sels ⟨ds, imps⟩ rules 0

/-- Rules that use everything: a duplicate, merging twice, splitting, logical properties, groups, nesting. -/
def sample : List (Rule Nat Nat Nat Nat (List (Nat × Nat))) :=
  [st [1] [(7, 1)], st [2] [(8, 2)], st [1] [(7, 3)], st [3] [(7, 4), (60, 5)], st [4, 100] [(9, 5)],
   .group 3 [st [5] [(7, 6)]], .group 3 [st [5] [(7, 7)]], .group 11 [st [5] [(7, 8)]],
   st [6] [(7, 9)] [(8, 10)] [st [7] [(7, 11)], st [8] [(7, 11)]]]

example : (minify cfg 3 sample []).1.length = 9 ∧ (minify cfg 3 sample []).2.2 = true := by decide +kernel
example : meanList (env (fun s => s == 1 || s == 5) 7) [] (minify cfg 3 sample []).1 = some ⟨false, 5, 7⟩ :=
  (C22_cascade_partial cfg _ (laws _ _) 3 sample (by decide +kernel) []).trans (by decide +kernel)

example : Separated [st [1] [(7, 1)], .other [], st [1] [(7, 2)], .other []] := by simp [Separated, st]
example : meanList (env (fun s => s == 1) 7) [] (minify cfg' 3 [st [1] [(7, 1)], .other [], st [1] [(7, 2)], .other []] []).1 = some ⟨false, 1, 2⟩ :=
  (C22_separated_partial cfg' _ (laws' _ _) (fun _ => ⟨rfl, id⟩) (fun _ => rfl) rfl 3 _ (by simp [Separated, st]) []).trans (by decide +kernel)

example : (mergeStyle cfg ⟨[2], ⟨[(7, 1)], []⟩, [], 0⟩ ⟨[1], ⟨[(7, 1)], []⟩, [], 0⟩).isSome = true := rfl
example : strictMean (env (fun s => s == 2) 7) (fun s => decide (s < 100)) [] ⟨[1, 2], ⟨[(7, 1)], []⟩, [], 0⟩ = some ⟨false, 2, 1⟩ :=
  (C23_merge cfg (env (fun s => s == 2) 7) (fun _ => rfl) (fun s => decide (s < 100)) (fun _ h => h)
    ⟨[2], ⟨[(7, 1)], []⟩, [], 0⟩ ⟨[1], ⟨[(7, 1)], []⟩, [], 0⟩ _ _ rfl []).1.trans (by decide +kernel)
example : (splitSels cfg ⟨[1, 100, 2, 101], ⟨[(7, 1)], []⟩, [], 0⟩) = (⟨[1, 2], ⟨[(7, 1)], []⟩, [], 0⟩, [100, 101]) := rfl

/-! ### The harmful events are reachable -/

/-- `.a { p: 1 !important } .b { q: 2 } .a { p: 3 }`: the important declaration is removed, because duplicates are compared without
looking at importance. -/
theorem C22_counterexample_important :
    let rules := [st [1] [] [(7, 1)], st [2] [(8, 2)], st [1] [(7, 3)]]
    meanList (env (· == 1) 7) [] rules = some ⟨true, 1, 1⟩ ∧
    meanList (env (· == 1) 7) [] (minify cfg' 3 rules []).1 = some ⟨false, 1, 3⟩ := by decide +kernel

/-- `.a { p: 1; q: 2 } .b { p: 1 } .b { q: 2 } .b { p: 3 }`: the second and third rule are merged, and then merged with the first,
which leaves the key of the second rule in the map. It points to the place where the last rule is put, which is then taken for a
duplicate of itself and removed. -/
theorem C22_counterexample_stale_key :
    let rules := [st [1] [(7, 1), (8, 2)], st [2] [(7, 1)], st [2] [(8, 2)], st [2] [(7, 3)]]
    meanList (env (· == 2) 7) [] rules = some ⟨false, 2, 3⟩ ∧
    meanList (env (· == 2) 7) [] (minify cfg' 3 rules []).1 = some ⟨false, 2, 1⟩ := by decide +kernel

/-- The same with a nested rule in the rule that takes the place: the nested rule is lost. -/
theorem C22_counterexample_stale_key_nested :
    let rules := [st [1] [(7, 1), (8, 2)], st [2] [(7, 1)], st [2] [(8, 2)], st [2] [(7, 3)] [] [st [5] [(9, 4)]], st [2] [(7, 5)]]
    meanList (env (fun s => s == 2 || s == 5) 9) [] rules = some ⟨false, 7, 4⟩ ∧
    meanList (env (fun s => s == 2 || s == 5) 9) [] (minify cfg' 3 rules []).1 = none := by decide +kernel

/-- `.a { p: 1 } .a, ::x { q: 2 }` where `::x` is not compatible: the declarations of the second rule are moved to the first before the
rule for `::x` is made, which is empty. -/
theorem C26_counterexample_merged :
    let rules := [st [1] [(7, 1)], st [1, 100] [(8, 2)]]
    meanList (env (· == 100) 8) [] rules = some ⟨false, 100, 2⟩ ∧
    meanList (env (· == 100) 8) [] (minify cfg 3 rules []).1 = none := by decide +kernel

/-- `.a, ::x { .b { p: 1 } }`: splitting lowers the specificity of the rules nested in it. -/
theorem C26_counterexample_nested :
    let rules := [st [1, 100] [] [] [st [5] [(7, 1)]]]
    meanList (env (fun s => s == 1 || s == 5) 7) [] rules = some ⟨false, 105, 1⟩ ∧
    meanList (env (fun s => s == 1 || s == 5) 7) [] (minify cfg 3 rules []).1 = some ⟨false, 6, 1⟩ := by decide +kernel

/-- `.a { p: 1 } .b { p: 1; margin-inline-start: 2 }`: after compiling the logical property the declarations are equal, so the
selector is moved to the first rule before the rules for the logical property are made, which have no selector. -/
theorem C23_counterexample_logical :
    let rules := [st [1] [(7, 1)], st [2] [(7, 1), (60, 2)]]
    meanList (env (· == 2) 60) [] rules = some ⟨false, 2, 2⟩ ∧
    meanList (env (· == 2) 60) [] (minify cfg 3 rules []).1 = none := by decide +kernel

/-- `.a { .b {} margin-inline-start: 1; .c { p: 2 } }`: the logical property goes to `.c`. -/
theorem C23_counterexample_nested_declarations :
    let rules := [st [1] [] [] [.decls ⟨[(60, 1)], []⟩, st [5] [(7, 2)]]]
    meanList (env (fun s => s == 1 || s == 5) 60) [] rules = some ⟨false, 1, 1⟩ ∧
    meanList (env (fun s => s == 1 || s == 5) 60) [] (minify cfg 3 rules []).1 = some ⟨false, 6, 1⟩ := by decide +kernel

/-- `@keyframes x { from { margin-inline-start: 1 } } .a { p: 2 }`: the logical property of the keyframe goes to `.a`. -/
theorem C23_counterexample_keyframes :
    let rules := [.other [(60, 1)], st [1] [(7, 2)]]
    meanList (env (· == 1) 60) [] rules = none ∧
    meanList (env (· == 1) 60) [] (minify cfg 3 rules []).1 = some ⟨false, 1, 1⟩ := by decide +kernel
end Verif.Rules
