import Verif.Selectors.BuildLemmas
/-!
# Selectors: properties C37 (specificity) and C54 (order of the components)
-/
namespace Verif.Selectors

/-! ## C54: order -/

/-- C54. Whatever compounds and combinators are parsed, the built selector holds the compounds from
right to left, each compound from left to right, with the combinators between them: nothing is lost,
duplicated or attached to another compound. -/
theorem build_match_order (first : List Component) (rest : List (Combinator × List Component))
    (h : Compounds first rest) :
    (Selector.ofParseOrder (written first rest)).comps = matchOrder first rest.reverse := by
  have hr : Compounds first rest.reverse := ⟨h.1, fun p hp => h.2 p (List.mem_reverse.1 hp)⟩
  have := collect_written first rest.reverse hr
  rw [List.reverse_reverse] at this
  exact this

/-- C54. Printing undoes the reordering: the components are printed in the order they were written. -/
theorem print_order_roundtrip (first : List Component) (rest : List (Combinator × List Component))
    (h : Compounds first rest) :
    printOrder (Selector.ofParseOrder (written first rest)) = written first rest := by
  have hb := build_match_order first rest h
  cases hs : Selector.ofParseOrder (written first rest) with
  | mk n cs =>
    rw [hs] at hb
    simp only [Selector.comps] at hb
    subst hb
    exact printOrder_matchOrder first rest h n

/-- C54. The implicit nesting prefix puts `&` and a descendant combinator in front of the whole
selector. -/
theorem nesting_prefix_order (first : List Component) (rest : List (Combinator × List Component))
    (h : Compounds first rest) :
    printOrder (Builder.new.pushAll (written first rest)).addNestingPrefix.build
      = .nesting :: .combinator .descendant :: written first rest := by
  have e : (Builder.new.pushAll (written first rest)).addNestingPrefix
      = Builder.new.pushAll (written [.nesting] ((.descendant, first) :: rest)) := by
    rw [addNestingPrefix_pushAll]
    have : written [.nesting] ((.descendant, first) :: rest)
        = [.nesting, .combinator .descendant] ++ written first rest := by simp [written]
    rw [this, pushAll_append]
    rfl
  rw [e]
  have := print_order_roundtrip [.nesting] ((.descendant, first) :: rest)
    ⟨by intro c hc; simp at hc; subst hc; rfl, by
      intro p hp
      rcases List.mem_cons.1 hp with rfl | hp
      · exact h.1
      · exact h.2 p hp⟩
  rw [Selector.ofParseOrder] at this
  rw [this]
  simp [written]

/-- The hypothesis of the order theorems is satisfiable: `a.b > c:hover + #d`. -/
example : Compounds [.localName cs!"a" cs!"a", .cls cs!"b"]
    [(.child, [.localName cs!"c" cs!"c", .pseudoClass cs!"hover"]), (.nextSibling, [.id cs!"d"])] ∧
    (Selector.ofParseOrder (written [.localName cs!"a" cs!"a", .cls cs!"b"]
      [(.child, [.localName cs!"c" cs!"c", .pseudoClass cs!"hover"]),
       (.nextSibling, [.id cs!"d"])])).comps =
    [.id cs!"d", .combinator .nextSibling, .localName cs!"c" cs!"c", .pseudoClass cs!"hover",
     .combinator .child, .localName cs!"a" cs!"a", .cls cs!"b"] := by
  refine ⟨⟨?_, ?_⟩, rfl⟩ <;> simp [NoComb, Component.isCombinator]

/-! ## C37: specificity -/

/-- C37. The specificity stored in a built selector is the standard one, packed into one number, for
every selector (of any length and nesting) with at most 1023 simple selectors that does not use
`:has()`, `:local()`, `:global()` or a view transition pseudo-element with argument `*`.

Missing from the full property: those four, for which the code computes something else (see the
counterexamples below), and `&`, which the code counts as nothing. -/
theorem specificity_correct_partial (first : List Component)
    (rest : List (Combinator × List Component)) (h : Compounds first rest)
    (hb1 : BuiltComps first) (hb2 : ∀ p ∈ rest, BuiltComps p.2)
    (hp : (Selector.ofParseOrder (written first rest)).Plain)
    (hc : (Selector.ofParseOrder (written first rest)).count ≤ 1023) :
    (Selector.ofParseOrder (written first rest)).specificity =
      pack (Selector.ofParseOrder (written first rest)).weight :=
  Selector.specificity_eq _ (built_ofParseOrder first rest h hb1 hb2) hp hc

/-- C37. Comparing stored specificities is comparing the standard specificities lexicographically. -/
theorem specificity_compare_partial (s t : Selector) (hs : s.Built) (ht : t.Built)
    (hps : s.Plain) (hpt : t.Plain) (hcs : s.count ≤ 1023) (hct : t.count ≤ 1023) :
    s.specificity ≤ t.specificity ↔ s.weight.lexLe t.weight := by
  rw [Selector.specificity_eq s hs hps hcs, Selector.specificity_eq t ht hpt hct]
  exact pack_le_iff (s.weight_le.mono hcs) (t.weight_le.mono hct)

/-- C37. Equal stored specificities mean equal standard specificities (this is what allows rules/mod.rs
to wrap the selectors of a list in `:is()`). -/
theorem specificity_injective_partial (s t : Selector) (hs : s.Built) (ht : t.Built)
    (hps : s.Plain) (hpt : t.Plain) (hcs : s.count ≤ 1023) (hct : t.count ≤ 1023)
    (h : s.specificity = t.specificity) : s.weight = t.weight := by
  rw [Selector.specificity_eq s hs hps hcs, Selector.specificity_eq t ht hpt hct] at h
  have := congrArg unpack h
  rwa [unpack_pack_of_le (s.weight_le.mono hcs), unpack_pack_of_le (t.weight_le.mono hct)] at this

/-- C37. Beyond 1023 the counts saturate: for a selector without arguments, of any length, each of the
three stored counts is the number of such simple selectors capped at 1023. -/
theorem specificity_saturates (first : List Component) (hb : ∀ c ∈ first, c matches .id _ | .cls _ | .localName _ _) :
    unpack (specificityOf first) =
      ⟨min (first.countP (fun c => c matches .id _)) 1023,
       min (first.countP (fun c => c matches .cls _)) 1023,
       min (first.countP (fun c => c matches .localName _ _)) 1023⟩ := by
  rw [specificityOf_eq, unpack_pack]
  have : sumDelta first = ⟨first.countP (fun c => c matches .id _),
      first.countP (fun c => c matches .cls _),
      first.countP (fun c => c matches .localName _ _)⟩ := by
    induction first with
    | nil => rfl
    | cons c cs ih =>
      rw [sumDelta, ih (fun c hc => hb c (List.mem_cons_of_mem _ hc))]
      have := hb c (by simp)
      cases c <;> simp_all [delta, addSimple] <;> ext <;> simp [Nat.add_comm]
  rw [this]

/-- `a:is(#b, .c .d) > :nth-child(2 of .e)` has specificity (1, 2, 1): the hypotheses of the theorems
above are met by a selector with arguments and combinators. -/
example :
    let isArgs := [Selector.ofParseOrder [.id cs!"b"],
      Selector.ofParseOrder [.cls cs!"c", .combinator .descendant, .cls cs!"d"]]
    let s := Selector.ofParseOrder [.localName cs!"a" cs!"a", .is isArgs, .combinator .child,
      .nthOf ⟨.child, true, 0, 2⟩ [Selector.ofParseOrder [.cls cs!"e"]]]
    s.weight = ⟨1, 2, 1⟩ ∧ s.specificity = pack ⟨1, 2, 1⟩ ∧ s.count = 7 ∧ s.Plain ∧ s.Built := by
  refine ⟨rfl, rfl, rfl, ?_, ?_⟩
  · simp [Selector.ofParseOrder, Builder.pushAll, Component.asCombinator, Builder.pushSimple,
      Builder.pushCombinator, Builder.new, Builder.build, Builder.collect, splitFromEnd, collectRest,
      Selector.Plain, PlainComps, Component.Plain, PlainList]
  · have e1 : (Selector.ofParseOrder [.id cs!"b"]).Built :=
      built_ofParseOrder [.id cs!"b"] [] ⟨by simp [NoComb, Component.isCombinator], by simp⟩
        (by simp [BuiltComps, Component.Built]) (by simp)
    have e2 : (Selector.ofParseOrder [.cls cs!"c", .combinator .descendant, .cls cs!"d"]).Built :=
      built_ofParseOrder [.cls cs!"c"] [(.descendant, [.cls cs!"d"])]
        ⟨by simp [NoComb, Component.isCombinator], by simp [NoComb, Component.isCombinator]⟩
        (by simp [BuiltComps, Component.Built]) (by simp [BuiltComps, Component.Built])
    have e3 : (Selector.ofParseOrder [.cls cs!"e"]).Built :=
      built_ofParseOrder [.cls cs!"e"] [] ⟨by simp [NoComb, Component.isCombinator], by simp⟩
        (by simp [BuiltComps, Component.Built]) (by simp)
    exact built_ofParseOrder [.localName cs!"a" cs!"a", .is _] [(.child, [.nthOf _ _])]
      ⟨by simp [NoComb, Component.isCombinator], by simp [NoComb, Component.isCombinator]⟩
      (by simp [BuiltComps, Component.Built, BuiltList, e1, e2])
      (by simp [BuiltComps, Component.Built, BuiltList, e3])

/-- Counterexample: `:has(#a)` is stored with specificity zero, like `:where(#a)`; by the standard it
is (1, 0, 0). (selectors/builder.rs:356-357) -/
theorem specificity_has_wrong :
    (Selector.ofParseOrder [.has [Selector.ofParseOrder [.id cs!"a"]]]).specificity = 0 ∧
    (Selector.ofParseOrder [.has [Selector.ofParseOrder [.id cs!"a"]]]).weight = ⟨1, 0, 0⟩ :=
  ⟨rfl, rfl⟩

/-- Counterexample: `:global(#a)`, printed as `#a`, is stored with the specificity of one class. -/
theorem specificity_global_wrong :
    (Selector.ofParseOrder [.global (Selector.ofParseOrder [.id cs!"a"])]).specificity = pack ⟨0, 1, 0⟩ ∧
    (Selector.ofParseOrder [.global (Selector.ofParseOrder [.id cs!"a"])]).weight = ⟨1, 0, 0⟩ :=
  ⟨rfl, rfl⟩

/-- Counterexample: `::view-transition-group(*)` is stored with the specificity of one element. -/
theorem specificity_view_transition_wrong :
    (Selector.ofParseOrder [.viewTransitionAny cs!"view-transition-group"]).specificity = pack ⟨0, 0, 1⟩ ∧
    (Selector.ofParseOrder [.viewTransitionAny cs!"view-transition-group"]).weight = ⟨0, 0, 0⟩ :=
  ⟨rfl, rfl⟩

/-- Counterexample: appending `:dir()` (done for logical properties) leaves the stored specificity
as it was, while the selector has become more specific. -/
theorem specificity_append_stale :
    ((Selector.ofParseOrder [.cls cs!"a"]).append (.pseudoClass cs!"dir(ltr)")).specificity =
      pack ⟨0, 1, 0⟩ ∧
    ((Selector.ofParseOrder [.cls cs!"a"]).append (.pseudoClass cs!"dir(ltr)")).weight = ⟨0, 2, 0⟩ :=
  ⟨rfl, rfl⟩

end Verif.Selectors
