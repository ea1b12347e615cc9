import Verif.Downlevel.Merge
/-! # Downlevelled selectors and prefixed copies of rules: properties C172–C176 -/
namespace Verif.Downlevel
open Verif.Targets Spec

variable {E : Type}

theorem mem_output (t : Targets) (l c : List Sel) (h : c ∈ output t l) :
    ∃ vp, c = printList vp l ∨ c = printList vp (downList t l).1 := by
  unfold output copies updatePrefix at h
  split at h <;> rename_i h1
  · split at h
    · simp only [List.mem_singleton] at h; exact ⟨_, Or.inr h⟩
    · simp only [List.mem_map] at h
      obtain ⟨p, _, rfl⟩ := h; exact ⟨_, Or.inr rfl⟩
  · split at h
    · simp only [List.mem_singleton] at h; exact ⟨_, Or.inl h⟩
    · simp only [List.mem_map] at h
      obtain ⟨p, _, rfl⟩ := h; exact ⟨_, Or.inl rfl⟩

/-! ## C172 -/

/-- C172: every printed copy of a rule matches, in every document, exactly the elements the rule's selectors match
(`:dir()` is compiled under the assumption that the direction follows from the language). -/
theorem C172_same_elements (t : Targets) (l c : List Sel) (h : c ∈ output t l) (d : Doc E)
    (hd : compDir t = true → UsesDirList l → DirByLang d) (a e : E) : AnyOf d a c e ↔ AnyOf d a l e := by
  obtain ⟨vp, rfl | rfl⟩ := mem_output t l c h
  · exact printList_any vp d l a e
  · rw [printList_any, downList_any t d l hd]

/-- C172: … and each selector of the copy has the specificity of the selector it comes from. -/
theorem C172_same_specificity (t : Targets) (l c : List Sel) (h : c ∈ output t l) (w : Weights) :
    c.map (weightSel w) = l.map (weightSel w) := by
  obtain ⟨vp, rfl | rfl⟩ := mem_output t l c h
  · exact printList_map vp w l
  · rw [printList_map, downList_map]

/-- The model of `:dir()` is the recursive call of the code. -/
theorem down_dir (t : Targets) (rtl : Bool) (h : compDir t = true) :
    downComp t (.dir rtl) = downComp t (downDir t rtl) := by
  have hs : ∀ ls : List Str, downList t (langSels ls) = (langSels ls, .empty) := by
    intro ls
    induction ls with
    | nil => simp [langSels, downList]
    | cons x xs ih =>
      rw [show langSels (x :: xs) = [Comp.lang [x]] :: langSels xs from rfl, downList, ih]
      simp [downSel, downComp, PrefixSet.union, PrefixSet.empty]
  have hl : ∀ p, downNeg t [[Comp.lang rtlLangs]] p = (.neg [[Comp.lang rtlLangs]], p) := by
    intro p; simp [downNeg]
  unfold downDir
  by_cases h' : compLang t = true <;> cases rtl <;>
    simp [downComp, h, h', hs, downList, downSel, hl, PrefixSet.union, PrefixSet.empty]

/-- Safari 8. -/
def safari8 : Targets := ⟨some fun b => if b = .safari then some (8 <<< 16) else none, 0#32, 0#32⟩

/-- `.a:not(.b, .c):lang(ar, he)` in Safari 8: three copies. -/
example : output safari8 [[.other cs!".a", .neg [[.other cs!".b"], [.other cs!".c"]], .lang [cs!"ar", cs!"he"]]] =
    [[[.other cs!".a", .neg [[.any Prefix.webkit.set [[.other cs!".b"], [.other cs!".c"]]]],
        .any Prefix.webkit.set [[.lang [cs!"ar"]], [.lang [cs!"he"]]]]],
     [[.other cs!".a", .neg [[.is [[.other cs!".b"], [.other cs!".c"]]]],
        .is [[.lang [cs!"ar"]], [.lang [cs!"he"]]]]]] := by rfl

/-- `:dir(rtl)` is really compiled. -/
example : compDir safari8 = true ∧ UsesDirList [[.dir true]] := by
  exact ⟨by decide +kernel, by simp [UsesDirList, UsesDirSel, UsesDir]⟩

/-! ## C173 -/

/-- C173: when selectors are compiled, a rule written without vendor prefixes is printed in a copy with the prefix `p` for
each prefix `p` the targets need for one of its pseudos (outside of the arguments of `::slotted()`, `:host()`,
`:nth-child(of)` and `::cue()`). -/
theorem C173_needed_prefix_partial (t : Targets) (ht : t.shouldCompileSelectors = true) (l : List Sel)
    (hl : AllPreList Std l) (k : Pseudo) (hk : OccursList k l) (p : Prefix)
    (hp : (t.prefixes Prefix.none.set k.feature).has p = true) :
    ∃ c ∈ output t l, WritesList k p c := by
  have hg := (getPrefix_std l hl).2 k hk
  have hn := downList_need t k p hp l hl hk
  have hu : updatePrefix t l = ⟨(downList t l).1, (downList t l).2⟩ := by
    rw [updatePrefix, if_pos]; rw [hg, ht]; rfl
  rw [output, hu, copies, if_neg (by show ¬ isEmpty (downList t l).2 = true; rw [has_not_empty hn.1]; decide)]
  refine ⟨_, List.mem_map.2 ⟨p, ?_, rfl⟩, printList_writes k p _ hn.2⟩
  show p ∈ flags (downList t l).2
  rw [flags, List.mem_filter]
  exact ⟨by cases p <;> simp, hn.1⟩

/-- C173: … and the last copy is the rule without vendor prefixes. -/
theorem C173_standard_last (t : Targets) (l : List Sel) (hl : AllPreList Std l) :
    ∃ c, (output t l).getLast? = some c ∧ AllPreList Std c := by
  have last : ∀ r : Rule, r.vp.has .none = true → ∃ c, (copies r).getLast? = some c ∧ AllPreList Std c := by
    intro r hr
    refine ⟨printList Prefix.none.set r.sels, ?_, printList_std _⟩
    rw [copies, if_neg (by rw [has_not_empty hr]; decide)]
    have hfl : flags r.vp = [Prefix.webkit, .moz, .ms, .o].filter r.vp.has ++ [.none] := by
      rw [flags, show [Prefix.webkit, .moz, .ms, .o, .none] = [Prefix.webkit, .moz, .ms, .o] ++ [.none] from rfl,
        List.filter_append]
      simp [hr]
    rw [hfl]; simp
  unfold output updatePrefix
  split
  · have he := downList_eon t l hl
    rcases he.1 with h0 | h1
    · refine ⟨printList .empty (downList t l).1, ?_, printList_keep _ (he.2 h0)⟩
      rw [copies, if_pos (by show isEmpty (downList t l).2 = true; rw [h0]; rfl)]; rfl
    · exact last _ h1
  · rcases (getPrefix_std l hl).1 with h0 | h1
    · refine ⟨printList .empty l, ?_, printList_keep _ hl⟩
      rw [copies, if_pos (by show isEmpty (getPrefix l) = true; rw [h0]; rfl)]; rfl
    · exact last _ (by show (getPrefix l).has _ = true; rw [h1]; rfl)

/-- C173: without browsers (and without forced features) a rule written without prefixes is printed once. -/
theorem C173_no_targets (t : Targets) (ht : t.shouldCompileSelectors = false) (l : List Sel) (hl : AllPreList Std l) :
    ∃ c, output t l = [c] ∧ AllPreList Std c := by
  have hu : updatePrefix t l = ⟨l, getPrefix l⟩ := by rw [updatePrefix, ht, if_neg (by simp)]
  rw [output, hu]
  rcases (getPrefix_std l hl).1 with h0 | h1
  · exact ⟨_, by rw [copies, if_pos (by show isEmpty (getPrefix l) = true; rw [h0]; rfl)], printList_keep _ hl⟩
  · refine ⟨printList Prefix.none.set l, ?_, printList_std _⟩
    rw [copies, if_neg (by show ¬ isEmpty (getPrefix l) = true; rw [h1]; decide)]
    show (flags (getPrefix l)).map _ = _
    rw [h1]; rfl

/-- Firefox 45, Chrome 45, IE 11. -/
def old : Targets := ⟨some fun b => if b = .chrome ∨ b = .firefox then some (45 <<< 16)
  else if b = .ie then some (11 <<< 16) else none, 0#32, 0#32⟩

/-- `.foo:fullscreen` in these browsers: four copies. -/
example : output old [[.other cs!".foo", .pre .fullscreen Prefix.none.set]] =
    [[[.other cs!".foo", .pre .fullscreen Prefix.webkit.set]], [[.other cs!".foo", .pre .fullscreen Prefix.moz.set]],
     [[.other cs!".foo", .pre .fullscreen Prefix.ms.set]], [[.other cs!".foo", .pre .fullscreen Prefix.none.set]]] := by
  rfl

/-- The hypotheses of `C173_needed_prefix_partial` hold for it. -/
example : old.shouldCompileSelectors = true ∧ AllPreList Std [[.other cs!".foo", .pre .fullscreen Prefix.none.set]] ∧
    OccursList .fullscreen [[.other cs!".foo", .pre .fullscreen Prefix.none.set]] ∧
    (old.prefixes Prefix.none.set Pseudo.fullscreen.feature).has .moz = true := by
  refine ⟨by decide +kernel, ?_, ?_, by decide +kernel⟩
  · simp [AllPreList, AllPreSel, AllPre, Std]
  · simp [OccursList, OccursSel, Occurs]

/-- C173, what is missing: the prefix is not added in the arguments of `::slotted()`: `::slotted(:fullscreen)` has one
copy, without any prefix. -/
theorem C173_slotted_wrong :
    output old [[.comb false cs!"slot", .fn cs!"::slotted" [[.pre .fullscreen Prefix.none.set]]]] =
      [[[.comb false cs!"slot", .fn cs!"::slotted" [[.pre .fullscreen Prefix.none.set]]]]] ∧
    (old.prefixes Prefix.none.set Pseudo.fullscreen.feature).has .moz = true := ⟨rfl, by decide +kernel⟩

/-! ## C174 -/

/-- C174: a rule without functional pseudo-classes in which every prefixable pseudo is written with a vendor prefix is
printed once, exactly as written, for all targets. -/
theorem C174_prefixed_unchanged_partial (t : Targets) (l : List Sel)
    (h : ∀ s ∈ l, ∀ c ∈ s, Plain (· ≠ .none) c) : output t l = [l] := output_prefixed t l h

/-- `.a::-moz-selection, .b:-webkit-any-link > p` (two prefixes) meets the hypothesis. -/
example : ∀ s ∈ [[Comp.pre .selection Prefix.moz.set, .comb false cs!"pe", .other cs!".a"],
    [.typ cs!"p", .comb true cs!">", .other cs!".b", .pre .anyLink Prefix.webkit.set]], ∀ c ∈ s, Plain (· ≠ .none) c := by
  simp [Plain]
  exact ⟨⟨.moz, by decide, rfl⟩, ⟨.webkit, by decide, rfl⟩⟩

/-- No targets. -/
def noTargets : Targets := ⟨none, 0#32, 0#32⟩

/-- C174, what is missing: inside `:not()` the prefix is lost, even without targets: `:not(:-webkit-any-link)` becomes
`:not(:any-link)`. -/
theorem C174_not_wrong :
    output noTargets [[.neg [[.pre .anyLink Prefix.webkit.set]]]] = [[[.neg [[.pre .anyLink Prefix.none.set]]]]] := rfl

/-- C174, what is missing: with `:is()` (or `:not()`, `:where()`, `:has()`, `:lang()`) before the prefixed pseudo, a copy
without prefix is added, even without targets: `:is(.b, .c):-webkit-any-link` also becomes `:is(.b, .c):any-link`, and
`:is()` becomes `:-webkit-any()` in the prefixed copy. -/
theorem C174_is_wrong :
    output noTargets [[.is [[.other cs!".b"], [.other cs!".c"]], .pre .anyLink Prefix.webkit.set]] =
      [[[.any Prefix.webkit.set [[.other cs!".b"], [.other cs!".c"]], .pre .anyLink Prefix.webkit.set]],
       [[.is [[.other cs!".b"], [.other cs!".c"]], .pre .anyLink Prefix.none.set]]] := rfl

/-! ## C175 -/

/-- C175: two rules are merged as prefixed variants only if their selector lists match the same elements with the same
specificities. -/
theorem C175_merged_equivalent (t : Targets) (style last r : Rule) (h : mergeEqv t style last = some r) (d : Doc E)
    (w : Weights) : (∀ a e, AnyOf d a r.sels e ↔ AnyOf d a style.sels e) ∧
      (∀ a e, AnyOf d a r.sels e ↔ AnyOf d a last.sels e) ∧
      r.sels.map (weightSel w) = style.sels.map (weightSel w) := by
  unfold mergeEqv at h
  split at h
  · rename_i hc
    cases h
    simp only [Bool.and_eq_true] at hc
    have := eqvList_sem d w _ _ hc.2
    exact ⟨fun a e => (this.1 a e).symm, fun _ _ => Iff.rfl, this.2.2.symm⟩
  · cases h

/-- C175: when selectors are not compiled, a prefixed rule followed by the same rule without prefix is printed as both. -/
theorem C175_prefixed_then_standard_partial (t : Targets) (ht : t.shouldCompileSelectors = false) (q : Prefix)
    (hq : q ≠ .none) (l : List Sel) (h : ∀ s ∈ l, ∀ c ∈ s, Plain (· = .none) c) (k : Pseudo)
    (hk : ∃ s ∈ l, Comp.pre k Prefix.none.set ∈ s) :
    ∃ r, mergeEqv t (updatePrefix t l) (updatePrefix t (l.map (·.map (named q)))) = some r ∧
      copies r = [l.map (·.map (named q)), l] := merge_prefixed t ht q hq l h k hk

/-- `.a::selection` after `.a::-moz-selection`. -/
example : (noTargets.shouldCompileSelectors = false) ∧
    (∀ s ∈ [[Comp.pre .selection Prefix.none.set, .comb false cs!"pe", .other cs!".a"]], ∀ c ∈ s, Plain (· = .none) c) ∧
    ∃ s ∈ [[Comp.pre .selection Prefix.none.set, .comb false cs!"pe", .other cs!".a"]],
      Comp.pre .selection Prefix.none.set ∈ s := by
  refine ⟨by decide +kernel, ?_, ?_⟩
  · simp [Plain]
  · simp

/-- `.a::selection`. -/
def sel (p : Prefix) : List Sel := [[.pre .selection p.set, .comb false cs!"pe", .other cs!".a"]]

/-- C175, what is missing: in the other order the prefixed rule is lost: `.a::selection {D} .a::-moz-selection {D}` is
printed as `.a::selection {D}` twice, also without targets. -/
theorem C175_standard_first_wrong :
    (mergeEqv noTargets (updatePrefix noTargets (sel .moz)) (updatePrefix noTargets (sel .none))).map copies =
      some [sel .none, sel .none] := rfl

/-- C175, what is missing: of two different prefixes the second is lost: `.a:-webkit-full-screen {D}
.a:-moz-full-screen {D}` is printed as `.a:-webkit-full-screen {D} .a:fullscreen {D}`. -/
theorem C175_two_prefixes_wrong :
    (mergeEqv noTargets (updatePrefix noTargets [[.other cs!".a", .pre .fullscreen Prefix.moz.set]])
        (updatePrefix noTargets [[.other cs!".a", .pre .fullscreen Prefix.webkit.set]])).map copies =
      some [[[.other cs!".a", .pre .fullscreen Prefix.webkit.set]], [[.other cs!".a", .pre .fullscreen Prefix.none.set]]] :=
  rfl

/-- C175, what is missing: with targets that need several prefixes, a hand-written `-webkit-` variant before the standard
rule makes the other prefixes disappear. -/
theorem C175_targets_wrong :
    (mergeEqv old (updatePrefix old [[.other cs!".a", .pre .fullscreen Prefix.none.set]])
        (updatePrefix old [[.other cs!".a", .pre .fullscreen Prefix.webkit.set]])).map copies =
      some [[[.other cs!".a", .pre .fullscreen Prefix.webkit.set]], [[.other cs!".a", .pre .fullscreen Prefix.none.set]],
        [[.other cs!".a", .pre .fullscreen Prefix.none.set]], [[.other cs!".a", .pre .fullscreen Prefix.none.set]]] := rfl

/-! ## C176 -/

/-- C176: if the arguments of all `:is()`, `:not()` and `:any()` of a rule are compound selectors, so are the arguments of
every `:-webkit-any()` and `:-moz-any()` that is printed. -/
theorem C176_any_valid_partial (t : Targets) (l c : List Sel) (h : c ∈ output t l) (hl : ArgsCompoundList l) :
    AnyValidList c := by
  obtain ⟨vp, rfl | rfl⟩ := mem_output t l c h
  · exact any_printList vp l hl
  · exact any_printList vp _ (args_downList t l hl)

/-- `.a:not(.b, .c)`. -/
example : ArgsCompoundList [[.other cs!".a", .neg [[.other cs!".b"], [.other cs!".c"]]]] := by
  simp [ArgsCompoundList, ArgsCompoundSel, ArgsCompound, Compound]

/-- C176, what is missing: `:not(.a .b, .c)` is printed with `:-webkit-any(.a .b, .c)` in Safari 8. -/
theorem C176_not_wrong :
    output safari8 [[.neg [[.other cs!".b", .comb true cs!" ", .other cs!".a"], [.other cs!".c"]]]] =
      [[[.neg [[.any Prefix.webkit.set [[.other cs!".b", .comb true cs!" ", .other cs!".a"], [.other cs!".c"]]]]]],
       [[.neg [[.is [[.other cs!".b", .comb true cs!" ", .other cs!".a"], [.other cs!".c"]]]]]]] := rfl

/-- Chrome 103 knows `:is()` but not `:autofill`. -/
def chrome103 : Targets := ⟨some fun b => if b = .chrome then some (103 <<< 16) else none, 0#32, 0#32⟩

/-- C176, what is missing: `:is(.a .b, .c):autofill` for Chrome 103, which knows `:is()`, becomes
`:-webkit-any(.a .b, .c):-webkit-autofill`, which it rejects, and `:is(…):autofill`, which it does not know. -/
theorem C176_is_wrong :
    output chrome103 [[.is [[.other cs!".b", .comb true cs!" ", .other cs!".a"], [.other cs!".c"]],
        .pre .autofill Prefix.none.set]] =
      [[[.any Prefix.webkit.set [[.other cs!".b", .comb true cs!" ", .other cs!".a"], [.other cs!".c"]],
        .pre .autofill Prefix.webkit.set]],
       [[.is [[.other cs!".b", .comb true cs!" ", .other cs!".a"], [.other cs!".c"]],
        .pre .autofill Prefix.none.set]]] ∧
    compIs chrome103 = false := ⟨rfl, by decide +kernel⟩

end Verif.Downlevel
