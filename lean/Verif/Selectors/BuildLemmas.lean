import Verif.Selectors.SpecificityLemmas
/-!
# Selectors: lemmas on the builder
-/
namespace Verif.Selectors

/-- A compound selector contains no combinator. -/
def NoComb (cs : List Component) : Prop := ∀ c ∈ cs, c.isCombinator = false

theorem asCombinator_none {c : Component} (h : c.isCombinator = false) : c.asCombinator = none := by
  cases c <;> simp_all [Component.isCombinator, Component.asCombinator]

theorem pushAll_append (b : Builder) (xs ys : List Component) :
    b.pushAll (xs ++ ys) = (b.pushAll xs).pushAll ys := by
  simp [Builder.pushAll]

theorem pushAll_cons (b : Builder) (x : Component) (ys : List Component) :
    b.pushAll (x :: ys) = (b.pushAll [x]).pushAll ys := by
  simp [Builder.pushAll]

theorem pushAll_compound (b : Builder) (c : List Component) (h : NoComb c) :
    b.pushAll c = ⟨b.simple ++ c, b.combinators, b.currentLen + c.length⟩ := by
  induction c generalizing b with
  | nil => simp [Builder.pushAll]
  | cons x xs ih =>
    rw [pushAll_cons, ih _ (fun c hc => h c (List.mem_cons_of_mem _ hc))]
    simp [Builder.pushAll, asCombinator_none (h x (by simp)), Builder.pushSimple]
    omega

theorem pushAll_combinator (b : Builder) (k : Combinator) :
    b.pushAll [.combinator k] = b.pushCombinator k := rfl

theorem splitFromEnd_append {α} (xs ys : List α) :
    splitFromEnd (xs ++ ys) ys.length = (xs, ys) := by
  simp [splitFromEnd]

theorem collect_snoc (x c : List Component) (cs : List (Combinator × Nat)) (k : Combinator) (n : Nat) :
    Builder.collect ⟨x ++ c, cs ++ [(k, n)], c.length⟩ =
      c ++ .combinator k :: Builder.collect ⟨x, cs, n⟩ := by
  simp only [Builder.collect, splitFromEnd_append, List.reverse_append, List.reverse_cons,
    List.reverse_nil, List.nil_append, List.cons_append, collectRest]

theorem written_snoc (first : List Component) (rest : List (Combinator × List Component))
    (k : Combinator) (c : List Component) :
    written first (rest ++ [(k, c)]) = written first rest ++ .combinator k :: c := by
  simp [written]

/-- The compounds contain no combinators. -/
def Compounds (first : List Component) (rest : List (Combinator × List Component)) : Prop :=
  NoComb first ∧ ∀ p ∈ rest, NoComb p.2

theorem pushAll_snoc (first : List Component) (rest : List (Combinator × List Component))
    (k : Combinator) (c : List Component) (h : NoComb c) :
    Builder.new.pushAll (written first (rest ++ [(k, c)])) =
      ⟨(Builder.new.pushAll (written first rest)).simple ++ c,
       (Builder.new.pushAll (written first rest)).combinators ++
         [(k, (Builder.new.pushAll (written first rest)).currentLen)], c.length⟩ := by
  rw [written_snoc, pushAll_append, pushAll_cons, pushAll_combinator, pushAll_compound _ _ h]
  simp [Builder.pushCombinator]

theorem collect_written (first : List Component) (rev : List (Combinator × List Component))
    (h : Compounds first rev) :
    (Builder.new.pushAll (written first rev.reverse)).collect = matchOrder first rev := by
  induction rev with
  | nil =>
    simp only [List.reverse_nil, matchOrder]
    have hw : written first [] = first := by simp [written]
    rw [hw, pushAll_compound _ _ h.1]
    simp only [Builder.new, List.nil_append, Nat.zero_add, Builder.collect]
    have := splitFromEnd_append ([] : List Component) first
    simp only [List.nil_append] at this
    rw [this]
    simp [collectRest]
  | cons p prev ih =>
    obtain ⟨k, c⟩ := p
    simp only [List.reverse_cons, matchOrder]
    rw [pushAll_snoc _ _ _ _ (h.2 (k, c) (by simp)), collect_snoc]
    congr 2
    exact ih ⟨h.1, fun p hp => h.2 p (List.mem_cons_of_mem _ hp)⟩

/-! ### The specificity does not depend on the order -/

/-- The contribution of one component. -/
def delta (c : Component) : Triple := addSimple ⟨0, 0, 0⟩ c

theorem addSimple_delta (acc : Triple) (c : Component) : addSimple acc c = acc + delta c := by
  cases c <;> simp only [delta, addSimple] <;> ext <;> simp <;> omega

/-- The sum of the contributions. -/
def sumDelta : List Component → Triple
  | [] => ⟨0, 0, 0⟩
  | c :: cs => delta c + sumDelta cs

theorem foldl_delta (cs : List Component) (acc : Triple) :
    cs.foldl addSimple acc = acc + sumDelta cs := by
  induction cs generalizing acc with
  | nil => ext <;> simp [sumDelta]
  | cons c cs ih => rw [List.foldl_cons, ih, addSimple_delta, sumDelta, add_assoc']

theorem specificityOf_eq (cs : List Component) : specificityOf cs = pack (sumDelta cs) := by
  rw [specificityOf, foldl_delta]
  congr 1
  ext <;> simp

theorem sumDelta_append (xs ys : List Component) : sumDelta (xs ++ ys) = sumDelta xs + sumDelta ys := by
  induction xs with
  | nil => ext <;> simp [sumDelta]
  | cons c cs ih => rw [List.cons_append, sumDelta, sumDelta, ih, add_assoc']

theorem sumDelta_matchOrder (first : List Component) (rev : List (Combinator × List Component))
    (h : Compounds first rev) :
    sumDelta (matchOrder first rev) =
      sumDelta (Builder.new.pushAll (written first rev.reverse)).simple := by
  induction rev with
  | nil =>
    simp only [List.reverse_nil, matchOrder]
    have hw : written first [] = first := by simp [written]
    rw [hw, pushAll_compound _ _ h.1]
    simp [Builder.new]
  | cons p prev ih =>
    obtain ⟨k, c⟩ := p
    simp only [List.reverse_cons, matchOrder]
    rw [pushAll_snoc _ _ _ _ (h.2 (k, c) (by simp)), sumDelta_append, sumDelta_append, sumDelta,
      ih ⟨h.1, fun p hp => h.2 p (List.mem_cons_of_mem _ hp)⟩]
    ext <;> simp [delta, addSimple] <;> omega

theorem builtComps_append (xs ys : List Component) :
    BuiltComps (xs ++ ys) ↔ BuiltComps xs ∧ BuiltComps ys := by
  induction xs with
  | nil => simp [BuiltComps]
  | cons c cs ih => simp only [List.cons_append, BuiltComps, ih, and_assoc]

theorem builtComps_matchOrder (first : List Component) (rev : List (Combinator × List Component))
    (h1 : BuiltComps first) (h2 : ∀ p ∈ rev, BuiltComps p.2) : BuiltComps (matchOrder first rev) := by
  induction rev with
  | nil => exact h1
  | cons p prev ih =>
    obtain ⟨k, c⟩ := p
    simp only [matchOrder, builtComps_append, BuiltComps, Component.Built, true_and]
    exact ⟨h2 (k, c) (by simp), ih fun p hp => h2 p (List.mem_cons_of_mem _ hp)⟩

/-- A selector built from built parts is built. -/
theorem built_ofParseOrder (first : List Component) (rest : List (Combinator × List Component))
    (h : Compounds first rest) (h1 : BuiltComps first) (h2 : ∀ p ∈ rest, BuiltComps p.2) :
    (Selector.ofParseOrder (written first rest)).Built := by
  have hr : Compounds first rest.reverse := ⟨h.1, fun p hp => h.2 p (List.mem_reverse.1 hp)⟩
  have hc := collect_written first rest.reverse hr
  have hd := sumDelta_matchOrder first rest.reverse hr
  rw [List.reverse_reverse] at hc hd
  simp only [Selector.ofParseOrder, Builder.build, Selector.Built]
  rw [hc, specificityOf_eq, specificityOf_eq, hd]
  exact ⟨rfl, builtComps_matchOrder _ _ h1 (fun p hp => h2 p (List.mem_reverse.1 hp))⟩

/-! ### The nesting prefix -/

theorem addNestingPrefix_pushAll (b : Builder) (cs : List Component) :
    (b.pushAll cs).addNestingPrefix = b.addNestingPrefix.pushAll cs := by
  induction cs generalizing b with
  | nil => rfl
  | cons c cs ih =>
    rw [pushAll_cons, ih, pushAll_cons b.addNestingPrefix]
    congr 1
    cases h : c.asCombinator <;>
      simp [Builder.pushAll, h, Builder.addNestingPrefix, Builder.pushCombinator, Builder.pushSimple]

/-! ### Reading the components back in parse order -/

/-- `selector.iter_raw_match_order().as_slice().split(|x| x.is_combinator())`
(src/selector.rs:1421): the compounds in match order. -/
def splitCompounds : List Component → List (List Component)
  | [] => [[]]
  | c :: cs =>
      if c.isCombinator then [] :: splitCompounds cs
      else match splitCompounds cs with
        | [] => [[c]]
        | x :: xs => (c :: x) :: xs

/-- `selector.iter_raw_match_order().rev().filter_map(|x| x.as_combinator())`
(src/selector.rs:1420). -/
def combinatorsRev (cs : List Component) : List Combinator := cs.reverse.filterMap (·.asCombinator)

/-- The loop of `serialize_selector` (src/selector.rs:1426-1552), without the special treatment of
`&`, `:scope` and `*`: print a compound, then the next combinator. -/
def interleave : List (List Component) → List Combinator → List Component
  | [], _ => []
  | c :: cs, [] => c ++ interleave cs []
  | c :: cs, k :: ks => c ++ .combinator k :: interleave cs ks

/-- The components in the order in which they are printed (src/selector.rs:1420-1552). -/
def printOrder (s : Selector) : List Component :=
  interleave (splitCompounds s.comps).reverse (combinatorsRev s.comps)

theorem splitCompounds_ne_nil (cs : List Component) : splitCompounds cs ≠ [] := by
  cases cs with
  | nil => simp [splitCompounds]
  | cons c cs =>
    rw [splitCompounds]
    split
    · simp
    · split <;> simp

theorem splitCompounds_compound (c : List Component) (h : NoComb c) : splitCompounds c = [c] := by
  induction c with
  | nil => rfl
  | cons x xs ih =>
    rw [splitCompounds, ih (fun c hc => h c (List.mem_cons_of_mem _ hc)), h x (by simp)]
    simp

theorem splitCompounds_append (c : List Component) (h : NoComb c) (k : Combinator)
    (cs : List Component) :
    splitCompounds (c ++ .combinator k :: cs) = c :: splitCompounds cs := by
  induction c with
  | nil => simp [splitCompounds, Component.isCombinator]
  | cons x xs ih =>
    rw [List.cons_append, splitCompounds, ih (fun c hc => h c (List.mem_cons_of_mem _ hc)),
      h x (by simp)]
    simp

theorem splitCompounds_matchOrder (first : List Component) (rev : List (Combinator × List Component))
    (h : Compounds first rev) :
    splitCompounds (matchOrder first rev) = rev.map (·.2) ++ [first] := by
  induction rev with
  | nil => simp [matchOrder, splitCompounds_compound _ h.1]
  | cons p prev ih =>
    obtain ⟨k, c⟩ := p
    rw [matchOrder, splitCompounds_append _ (h.2 (k, c) (by simp)),
      ih ⟨h.1, fun p hp => h.2 p (List.mem_cons_of_mem _ hp)⟩]
    simp

theorem filterMap_compound (c : List Component) (h : NoComb c) :
    c.filterMap (·.asCombinator) = [] := by
  simp only [List.filterMap_eq_nil_iff]
  intro x hx
  exact asCombinator_none (h x hx)

theorem combinators_matchOrder (first : List Component) (rev : List (Combinator × List Component))
    (h : Compounds first rev) :
    (matchOrder first rev).filterMap (·.asCombinator) = rev.map (·.1) := by
  induction rev with
  | nil => simp [matchOrder, filterMap_compound _ h.1]
  | cons p prev ih =>
    obtain ⟨k, c⟩ := p
    rw [matchOrder, List.filterMap_append, filterMap_compound _ (h.2 (k, c) (by simp)),
      List.filterMap_cons, ih ⟨h.1, fun p hp => h.2 p (List.mem_cons_of_mem _ hp)⟩]
    simp [Component.asCombinator]

theorem interleave_written (first : List Component) (rest : List (Combinator × List Component)) :
    interleave (first :: rest.map (·.2)) (rest.map (·.1)) = written first rest := by
  induction rest generalizing first with
  | nil => simp [interleave, written]
  | cons p rest ih =>
    simp only [List.map_cons, interleave]
    rw [ih]
    simp [written]

theorem printOrder_matchOrder (first : List Component) (rest : List (Combinator × List Component))
    (h : Compounds first rest) (n : Nat) :
    printOrder (.mk n (matchOrder first rest.reverse)) = written first rest := by
  have hr : Compounds first rest.reverse := ⟨h.1, fun p hp => h.2 p (List.mem_reverse.1 hp)⟩
  have e1 : (splitCompounds (Selector.comps (.mk n (matchOrder first rest.reverse)))).reverse
      = first :: rest.map (·.2) := by
    simp only [Selector.comps]
    rw [splitCompounds_matchOrder _ _ hr]
    simp
  have e2 : combinatorsRev (Selector.comps (.mk n (matchOrder first rest.reverse)))
      = rest.map (·.1) := by
    simp only [Selector.comps, combinatorsRev]
    rw [List.filterMap_reverse, combinators_matchOrder _ _ hr]
    simp
  rw [printOrder, e1, e2, interleave_written]

end Verif.Selectors
