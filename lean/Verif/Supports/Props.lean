import Verif.Supports.ParseLemmas
import Verif.Targets.Props
/-! Property theorems for `@supports` conditions (src/rules/supports.rs). -/
namespace Verif.Supports
open Verif.Targets

/-- A browser that supports a few declarations. -/
def testBrowser : Browser where
  decl n _ := n == cs!"color" || n == cs!"-webkit-user-select"
  sel _ := true
  unk _ := false

/-- A small table: `user-select` with prefixes, `color`, and `all` with the unchecked prefixes. -/
def testTable : PropTable where
  lookup n :=
    if n = cs!"user-select" then some (⟨true, true, true, true, true⟩, true)
    else if n = cs!"color" then some (Prefix.none.set, false)
    else if n = cs!"all" then some (⟨true, true, true, true, true⟩, false)
    else none

theorem testTable_wf : testTable.WF := by
  intro n h
  simp only [testTable] at h
  split at h
  · next hn => subst hn; decide
  · split at h
    · next hn => subst hn; decide
    · split at h
      · next hn => subst hn; decide
      · simp at h

/-! ## C08 -/

/-- **C08** `and` is conjunction in every browser. -/
theorem C08_and (b : Browser) (x y : Cond) : (x.conj y).eval b = (x.eval b && y.eval b) := by
  cases x with
  | and a =>
    simp only [Cond.conj]
    split
    · rw [Cond.eval, evalAll_append, Cond.eval]
      simp [Cond.evalAll]
    · next h =>
      rw [Bool.not_eq_true', Bool.not_eq_false, containsCond_iff] at h
      rw [Cond.eval]
      exact (evalOp_mem b .and a y h).symm
  | _ =>
    simp only [Cond.conj]
    split
    · simp [Cond.eval, Cond.evalAll]
    · next h =>
      rw [Bool.not_eq_true', Bool.not_eq_false, Cond.beq_iff] at h
      rw [← h]
      simp

/-- **C08** `or` is disjunction in every browser. -/
theorem C08_or (b : Browser) (x y : Cond) : (x.disj y).eval b = (x.eval b || y.eval b) := by
  cases x with
  | or a =>
    simp only [Cond.disj]
    split
    · rw [Cond.eval, evalAny_append, Cond.eval]
      simp [Cond.evalAny]
    · next h =>
      rw [Bool.not_eq_true', Bool.not_eq_false, containsCond_iff] at h
      rw [Cond.eval]
      exact (evalOp_mem b .or a y h).symm
  | _ =>
    simp only [Cond.disj]
    split
    · simp [Cond.eval, Cond.evalAny]
    · next h =>
      rw [Bool.not_eq_true', Bool.not_eq_false, Cond.beq_iff] at h
      rw [← h]
      simp

example : (Cond.conj (.and [.selector [.colon]]) (.not (.selector []))).eval testBrowser = false := by
  rw [C08_and]; simp [Cond.eval, Cond.evalAll, testBrowser]

/-! ## C09 -/

/-- **C09** (printing) The printed text of a condition, read by the CSS grammar, has the condition's truth value in every
browser, whatever the prefix sets of its declarations. -/
theorem C09_print_means (b : Browser) (c : Cond) (h : c.WF) : textCond b c.print = some (c.eval b) := print_text b c h

/-- A nested condition with two prefixes. -/
def sampleCond : Cond :=
  .and [.or [.decl ⟨cs!"user-select", some ⟨true, false, true, false, false⟩⟩ [.ident cs!"none"], .selector [.colon]],
    .not (.and [.decl ⟨cs!"--x", none⟩ [], .unknown (.func cs!"font-tech" [.ident cs!"color-COLRv1"])])]

theorem sampleCond_wf : sampleCond.WF := by
  simp [sampleCond, Cond.WF, Cond.WFAll, textInParens, lower, lowerChar]

example : textCond testBrowser sampleCond.print = some (sampleCond.eval testBrowser) :=
  C09_print_means testBrowser sampleCond sampleCond_wf

/-- **C09** (parsing), for text in which no declaration has a vendor prefix: text is accepted exactly when the CSS grammar
accepts it, and the result has the truth value of the text in every browser. Missing: declarations with vendor
prefixes inside `and`/`or`, where the code is wrong (see the counterexamples below). -/
theorem C09_parse_partial (tbl : PropTable) (ht : tbl.WF) (ts : List Tok) (h : plainToks ts) :
    (∀ c, parseFull tbl ts = some c → ∀ b, textCond b ts = some (c.eval b)) ∧
    (parseFull tbl ts = none → ∀ b, textCond b ts = none) := by
  rcases cond_ok tbl ts (toks_ok tbl ht ts h) with ⟨hp, htx⟩ | ⟨c, hp, _, htx⟩
  · exact ⟨fun c hc => by rw [hp] at hc; simp at hc, fun _ => htx⟩
  · refine ⟨fun c' hc => ?_, fun hn => by rw [hp] at hn; simp at hn⟩
    rw [hp] at hc
    injection hc with hc
    subst hc
    exact htx

/-- **C09** (round trip) A condition whose printed text has no prefixed declaration is read back as a condition with the
same truth value in every browser. Missing: prefixed declarations. -/
theorem C09_roundtrip_partial (tbl : PropTable) (ht : tbl.WF) (c : Cond) (h : c.WF) (hp : plainToks c.print) :
    ∃ c', parseFull tbl c.print = some c' ∧ ∀ b, c'.eval b = c.eval b := by
  obtain ⟨h1, h2⟩ := C09_parse_partial tbl ht c.print hp
  cases hc : parseFull tbl c.print with
  | none =>
    have := h2 hc testBrowser
    rw [C09_print_means testBrowser c h] at this
    simp at this
  | some c' =>
    refine ⟨c', rfl, fun b => ?_⟩
    have := h1 c' hc b
    rw [C09_print_means b c h] at this
    injection this with this
    exact this.symm

/-- A condition with repeated declarations, which the parser merges. -/
def samplePlain : Cond :=
  .or [.not (.and [.decl ⟨cs!"color", none⟩ [.ident cs!"red"], .decl ⟨cs!"user-select", some Prefix.none.set⟩ [.other 1]]),
    .decl ⟨cs!"color", none⟩ [.ident cs!"red"], .decl ⟨cs!"color", none⟩ [.ident cs!"red"]]

example : samplePlain.WF ∧ plainToks samplePlain.print := by
  refine ⟨by simp [samplePlain, Cond.WF, Cond.WFAll], ?_⟩
  simp [samplePlain, Cond.print, Cond.printItems, Cond.printRest, parensIf, Cond.needsParens, printDecl, declToks, declList,
    orNone, PropId.pre, Prefix.set, prefixStr, plainToks, plainTok, vendorFree]
  simp [PrefixSet.empty, plainToks, plainTok, declToks, prefixStr, vendorFree, lower, lowerChar]

/-- The code is wrong for prefixed declarations that are not the first of a list: the prefix is dropped, so
`(color: red) and (-webkit-user-select: none)` becomes `(color: red) and (user-select: none)`. -/
theorem C09_counterexample_dropped :
    ∃ ts c, parseFull testTable ts = some c ∧ textCond testBrowser ts = some true ∧ c.eval testBrowser = false := by
  refine ⟨[.paren [.ident cs!"color", .colon, .ident cs!"red"], .ident cs!"and",
    .paren [.ident cs!"-webkit-user-select", .colon, .ident cs!"none"]],
    .and [.decl ⟨cs!"color", none⟩ [.ident cs!"red"], .decl ⟨cs!"user-select", some Prefix.none.set⟩ [.ident cs!"none"]], ?_, ?_, ?_⟩
  · simp [parseFull, parseCond, parseInParens, parseDecl, parseLoop, pushCond, addToSeen, finish, PropId.parse, splitPrefix,
      stripIC, testTable, PropId.withPrefix, lower, lowerChar, opOf, PrefixSet.has, Prefix.set]
  · simp [textCond, textInParens, textAnds, lower, lowerChar, canonical, testBrowser]
  · simp [Cond.eval, Cond.evalAll, Browser.anyPrefix, testBrowser, canonical, lower, lowerChar, Prefix.set, PrefixSet.empty]

/-- Declarations that differ only in their prefix are merged into one set, whatever the operator, so
`(-webkit-user-select: none) and (user-select: none)` becomes an alternative. -/
theorem C09_counterexample_merged :
    ∃ ts c, parseFull testTable ts = some c ∧ textCond testBrowser ts = some false ∧ c.eval testBrowser = true := by
  refine ⟨[.paren [.ident cs!"-webkit-user-select", .colon, .ident cs!"none"], .ident cs!"and",
    .paren [.ident cs!"user-select", .colon, .ident cs!"none"]],
    .decl ⟨cs!"user-select", some ⟨true, true, false, false, false⟩⟩ [.ident cs!"none"], ?_, ?_, ?_⟩
  · simp [parseFull, parseCond, parseInParens, parseDecl, parseLoop, pushCond, addToSeen, finish, PropId.parse, splitPrefix,
      stripIC, testTable, PropId.withPrefix, PropId.addPrefix, PropId.pre, lower, lowerChar, opOf, PrefixSet.has, Prefix.set,
      Tok.beqList, Tok.beq, PrefixSet.union]
  · simp [textCond, textInParens, textAnds, lower, lowerChar, canonical, testBrowser]
  · simp [Cond.eval, Browser.anyPrefix, testBrowser, canonical, lower, lowerChar, PrefixSet.empty]

/-- As a result a declaration with two vendor prefixes does not survive printing and parsing: of `-webkit-` and `-moz-` the
second becomes the unprefixed property. -/
theorem C09_counterexample_roundtrip :
    ∃ (c c' : Cond) (b : Browser), c.WF ∧ parseFull testTable c.print = some c' ∧ c'.eval b ≠ c.eval b := by
  refine ⟨.decl ⟨cs!"user-select", some ⟨false, true, true, false, false⟩⟩ [],
    .decl ⟨cs!"user-select", some ⟨true, true, false, false, false⟩⟩ [],
    ⟨fun n _ => n == cs!"-moz-user-select", fun _ => false, fun _ => false⟩, trivial, ?_, ?_⟩
  · simp [Cond.print, printDecl, orNone, PropId.pre, flagsOf, declList, declToks, prefixStr, Prefix.set, PrefixSet.has, PrefixSet.empty,
      parseFull, parseCond, parseInParens, parseDecl, parseLoop, pushCond, addToSeen, finish, PropId.parse, splitPrefix,
      stripIC, testTable, PropId.withPrefix, PropId.addPrefix, lower, lowerChar, opOf,
      Tok.beqList, PrefixSet.union]
  · simp [Cond.eval, Browser.anyPrefix, canonical, lower, lowerChar, PrefixSet.empty]

/-! ## C46: features assumed inside `@supports` -/

mutual
/-- `d` is one of the declarations joined by `and` in the condition: not under `not` or `or`. -/
inductive Conjunct (p : PropId) (v : List Tok) : Cond → Prop where
  | self : Conjunct p v (.decl p v)
  | item {c : Cond} {cs : List Cond} : c ∈ cs → Conjunct p v c → Conjunct p v (.and cs)
end

theorem conjunct_holds (b : Browser) (p : PropId) (v : List Tok) (c : Cond) (h : Conjunct p v c) (he : c.eval b = true) :
    b.anyPrefix p v = true := by
  induction h with
  | self => exact he
  | item hm _ ih => exact ih ((evalAll_iff b _).1 he _ hm)

mutual
theorem features_conjunct (feat : List Tok → Flags) (i : Nat) (c : Cond) (f : Flags) (h : c.features? feat = some f)
    (hi : f.getLsbD i = true) : ∃ p v, Conjunct p v c ∧ (feat v).getLsbD i = true := by
  match c with
  | .not _ => simp [Cond.features?] at h
  | .or _ => simp [Cond.features?] at h
  | .selector _ => simp [Cond.features?] at h; subst h; simp at hi
  | .unknown _ => simp [Cond.features?] at h; subst h; simp at hi
  | .decl p v =>
    simp [Cond.features?] at h
    exact ⟨p, v, .self, by rw [h]; exact hi⟩
  | .and cs =>
    simp only [Cond.features?] at h
    rcases featuresAll_conjunct feat i cs 0#32 f h hi with h0 | ⟨c, hc, p, v, h1, h2⟩
    · simp at h0
    · exact ⟨p, v, .item hc h1, h2⟩
termination_by sizeOf c
theorem featuresAll_conjunct (feat : List Tok → Flags) (i : Nat) (cs : List Cond) (acc f : Flags)
    (h : Cond.featuresAll feat acc cs = some f) (hi : f.getLsbD i = true) :
    acc.getLsbD i = true ∨ ∃ c ∈ cs, ∃ p v, Conjunct p v c ∧ (feat v).getLsbD i = true := by
  match cs with
  | [] => simp [Cond.featuresAll] at h; subst h; exact .inl hi
  | c :: cs =>
    simp only [Cond.featuresAll] at h
    cases hc : c.features? feat with
    | none => rw [hc] at h; simp at h
    | some g =>
      rw [hc] at h
      rcases featuresAll_conjunct feat i cs (acc ||| g) f h hi with h1 | ⟨d, hd, r⟩
      · rw [BitVec.getLsbD_or, Bool.or_eq_true] at h1
        rcases h1 with h1 | h1
        · exact .inl h1
        · exact .inr ⟨c, by simp, features_conjunct feat i c g hc h1⟩
      · exact .inr ⟨d, List.mem_cons_of_mem _ hd, r⟩
termination_by sizeOf cs
end

/-- **C46** Every feature assumed to be supported inside an `@supports` block comes from a declaration that a browser
entering the block supports. -/
theorem C46_features_sound (feat : List Tok → Flags) (b : Browser) (c : Cond) (he : c.eval b = true) (i : Nat)
    (hi : (c.supportedFeatures feat).getLsbD i = true) :
    ∃ p v, Conjunct p v c ∧ b.anyPrefix p v = true ∧ (feat v).getLsbD i = true := by
  unfold Cond.supportedFeatures at hi
  cases h : c.features? feat with
  | none => rw [h] at hi; simp at hi
  | some f =>
    rw [h] at hi
    obtain ⟨p, v, h1, h2⟩ := features_conjunct feat i c f h hi
    exact ⟨p, v, h1, conjunct_holds b p v c h1 he, h2⟩

/-- **C46** Nothing is missed either: without `not` and `or`, all features of all the declarations are assumed. -/
theorem C46_features_complete (feat : List Tok → Flags) (p : PropId) (v : List Tok) (c : Cond) (h : Conjunct p v c)
    (hn : c.features? feat ≠ none) (i : Nat) (hi : (feat v).getLsbD i = true) : (c.supportedFeatures feat).getLsbD i = true := by
  have mono : ∀ (cs : List Cond) (acc f : Flags), Cond.featuresAll feat acc cs = some f → acc.getLsbD i = true → f.getLsbD i = true := by
    intro cs
    induction cs with
    | nil => intro acc f h hi; simp [Cond.featuresAll] at h; exact h ▸ hi
    | cons c cs ih =>
      intro acc f h hi
      simp only [Cond.featuresAll] at h
      cases hc : c.features? feat with
      | none => rw [hc] at h; simp at h
      | some g => rw [hc] at h; exact ih _ f h (by simp [hi])
  have memb : ∀ (cs : List Cond) (acc f : Flags) (c : Cond), Cond.featuresAll feat acc cs = some f → c ∈ cs →
      ∃ g, c.features? feat = some g ∧ (g.getLsbD i = true → f.getLsbD i = true) := by
    intro cs
    induction cs with
    | nil => intro acc f c _ hc; simp at hc
    | cons d cs ih =>
      intro acc f c h hm
      simp only [Cond.featuresAll] at h
      cases hd : d.features? feat with
      | none => rw [hd] at h; simp at h
      | some g =>
        rw [hd] at h
        rw [List.mem_cons] at hm
        rcases hm with rfl | hm
        · exact ⟨g, hd, fun hg => mono cs _ f h (by simp [hg])⟩
        · exact ih _ f c h hm
  induction h with
  | self => simpa [Cond.supportedFeatures, Cond.features?] using hi
  | @item c cs hm _ ih =>
    simp only [Cond.features?] at hn
    cases hf : Cond.featuresAll feat 0#32 cs with
    | none => exact absurd hf hn
    | some f =>
      obtain ⟨g, hg, himp⟩ := memb cs 0#32 f c hf hm
      have := ih (by rw [hg]; simp)
      simp only [Cond.supportedFeatures, hg, Cond.features?, hf, Option.getD_some] at this ⊢
      exact himp this

example : ∃ p v, Conjunct p v (.and [.selector [], .and [.decl ⟨cs!"color", none⟩ [.other 3]]]) ∧
    testBrowser.anyPrefix p v = true ∧ ((fun _ => 2#32) v : Flags).getLsbD 1 = true :=
  C46_features_sound (fun _ => 2#32) testBrowser _ (by
      simp [Cond.eval, Cond.evalAll, Browser.anyPrefix, testBrowser, canonical, lower, lowerChar]) 1 (by
      simp [Cond.supportedFeatures, Cond.features?, Cond.featuresAll])

/-! ## C47: prefixes added for the targets -/

mutual
/-- No `not`, and no declaration that lists the unprefixed property together with prefixed ones. -/
def Cond.positive : Cond → Prop
  | .not _ => False
  | .and cs => Cond.positiveAll cs
  | .or cs => Cond.positiveAll cs
  | .decl p _ => ∀ q, p.vp = some q → q.has .none = true → q = Prefix.none.set
  | _ => True
/-- All of a list. -/
def Cond.positiveAll : List Cond → Prop
  | [] => True
  | c :: cs => c.positive ∧ Cond.positiveAll cs
end

theorem setPrefixes_decl (pf : Str → Option PrefixFeature) (t : Targets) (b : Browser) (p : PropId) (v : List Tok)
    (hp : (Cond.decl p v).positive) (h : (Cond.decl p v).eval b = true) :
    ((Cond.decl p v).setPrefixes pf t).eval b = true := by
  simp only [Cond.setPrefixes]
  split
  · split
    · next f hf =>
      simp only [Cond.eval, Cond.positive] at h hp ⊢
      obtain ⟨n, vp⟩ := p
      cases vp with
      | none => exact h
      | some q =>
        by_cases hq : q.has .none = true
        · have h1 : (t.prefixes q f).has .none = true := (C13_targets t q f).2.2.1 hq
          have := hp q rfl hq
          subst this
          simp only [Browser.anyPrefix, Option.map_some] at h ⊢
          rw [if_neg (by decide)] at h
          simp [Prefix.set] at h
          generalize t.prefixes Prefix.none.set f = r at h1
          have hr : r ≠ .empty := by intro he; subst he; exact absurd h1 (by decide)
          have h2 : r.none = true := h1
          rw [if_neg hr, h2, h]
          simp
        · have hq' : q.has .none = false := by simpa using hq
          rw [Option.map_some, (C13_targets t q f).1 hq']
          exact h
    · exact h
  · exact h

mutual
theorem setPrefixes_mono (pf : Str → Option PrefixFeature) (t : Targets) (b : Browser) (c : Cond) (hp : c.positive)
    (h : c.eval b = true) : (c.setPrefixes pf t).eval b = true := by
  match c with
  | .not _ => exact absurd hp (by simp [Cond.positive])
  | .and cs =>
    simp only [Cond.setPrefixes, Cond.eval, Cond.positive] at hp h ⊢
    exact (setPrefixesAll_mono pf t b cs hp).1 h
  | .or cs =>
    simp only [Cond.setPrefixes, Cond.eval, Cond.positive] at hp h ⊢
    exact (setPrefixesAll_mono pf t b cs hp).2 h
  | .decl p v => exact setPrefixes_decl pf t b p v hp h
  | .selector _ => simpa [Cond.setPrefixes] using h
  | .unknown _ => simpa [Cond.setPrefixes] using h
theorem setPrefixesAll_mono (pf : Str → Option PrefixFeature) (t : Targets) (b : Browser) (cs : List Cond)
    (hp : Cond.positiveAll cs) :
    (Cond.evalAll b cs = true → Cond.evalAll b (Cond.setPrefixesAll pf t cs) = true) ∧
    (Cond.evalAny b cs = true → Cond.evalAny b (Cond.setPrefixesAll pf t cs) = true) := by
  match cs with
  | [] => simp [Cond.setPrefixesAll]
  | c :: cs =>
    simp only [Cond.positiveAll] at hp
    have h1 := setPrefixes_mono pf t b c hp.1
    have h2 := setPrefixesAll_mono pf t b cs hp.2
    simp only [Cond.setPrefixesAll, Cond.evalAll, Cond.evalAny, Bool.and_eq_true, Bool.or_eq_true]
    exact ⟨fun ⟨a, c⟩ => ⟨h1 a, h2.1 c⟩, fun h => h.imp h1 h2.2⟩
end

/-- **C47** Adding the prefixes the targets need never makes a condition fail that the browser met, when the condition has
no `not`. Missing: conditions with `not` (counterexample below), and declarations that already list several prefixes,
whose prefixes are replaced by those of the targets. -/
theorem C47_prefixes_partial (pf : Str → Option PrefixFeature) (t : Targets) (b : Browser) (c : Cond) (hp : c.positive)
    (h : c.eval b = true) : (c.setPrefixes pf t).eval b = true :=
  setPrefixes_mono pf t b c hp h

/-- Old Safari. -/
def oldSafari : Targets := ⟨some (fun b => if b = .safari then some (9 * 65536) else none), 0#32, 0#32⟩

/-- The prefix feature of `user-select`. -/
def userSelectPf : Str → Option PrefixFeature := fun n => if n = cs!"user-select" then some .userSelect else none

example : (Cond.and [.decl ⟨cs!"user-select", some Prefix.none.set⟩ [], .selector []]).positive := by
  simp [Cond.positive, Cond.positiveAll]

/-- Under `not` the added prefixes make a true condition false: `not (user-select: none)` becomes
`not ((-webkit-user-select: none) or (user-select: none))`. -/
theorem C47_counterexample_not :
    ∃ c : Cond, c.eval testBrowser = true ∧ (c.setPrefixes userSelectPf oldSafari).eval testBrowser = false := by
  refine ⟨.not (.decl ⟨cs!"user-select", some Prefix.none.set⟩ []), ?_, ?_⟩
  · simp [Cond.eval, Browser.anyPrefix, testBrowser, canonical, lower, lowerChar, Prefix.set, PrefixSet.empty]
  · have hf : oldSafari.prefixes Prefix.none.set .userSelect = ⟨true, true, false, false, false⟩ := by decide
    simp only [Cond.setPrefixes, userSelectPf, Cond.eval]
    rw [if_pos (by decide)]
    simp [hf, Cond.eval, Browser.anyPrefix, testBrowser, canonical, lower, lowerChar, PrefixSet.empty]

end Verif.Supports
