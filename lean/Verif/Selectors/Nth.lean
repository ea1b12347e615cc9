import Verif.Selectors.Ast
import Verif.Common.Decimal
import Mathlib.Data.Int.Basic
import Mathlib.Tactic.Common
import Mathlib.Algebra.Order.Group.Int
/-!
# Selectors: `:nth-child()` and friends — matching (C39) and printing (C55)
-/
namespace Verif.Selectors.Nth

/-! ## Model: matching -/

/-- `i32::MIN` and `i32::MAX`. -/
def i32Min : Int := -2147483648
/-- `i32::MAX`. -/
def i32Max : Int := 2147483647

/-- The value is an `i32`. -/
def IsI32 (x : Int) : Prop := i32Min ≤ x ∧ x ≤ i32Max

/-- `i32::checked_sub` (Rust core). -/
def checkedSub (x y : Int) : Option Int :=
  if i32Min ≤ x - y ∧ x - y ≤ i32Max then some (x - y) else none

/-- `i32::checked_div` (Rust core): truncating division; `None` for division by zero and for
`i32::MIN / -1`. -/
def checkedDiv (x y : Int) : Option Int :=
  if y = 0 ∨ (x = i32Min ∧ y = -1) then none else some (x.tdiv y)

/-- The end of `matches_generic_nth_child` (selectors/matching.rs:868-875): is there a non-negative
integer n such that an+b = index? -/
def matchesNth (index a b : Int) : Bool :=
  match checkedSub index b with
  | none => false
  | some an => match checkedDiv an a with
      | some n => decide (n ≥ 0) && a * n == an
      | none => an == 0

/-- `NthIndexCacheInner` (selectors/nth_index_cache.rs:33-51), a map from elements to indices, as an
association list (the latest insertion first). -/
abbrev Cache (E : Type) := List (E × Int)

variable {E : Type} [DecidableEq E]

/-- The first loop of `nth_child_index` (selectors/matching.rs:897-906): look for a cached index among
the previous siblings (nearest first). -/
def scanFromEnd (same : E → Bool) (isOfType : Bool) (cache : Cache E) : List E → Int → Option Int
  | [], _ => none
  | curr :: rest, index =>
      if !isOfType || same curr then
        match cache.lookup curr with
        | some i => some (i - index)
        | none => scanFromEnd same isOfType cache rest (index + 1)
      else scanFromEnd same isOfType cache rest index

/-- The second loop of `nth_child_index` (selectors/matching.rs:910-937). -/
def scan (same : E → Bool) (isOfType isFromEnd : Bool) (cache : Option (Cache E)) :
    List E → Int → Int
  | [], index => index
  | curr :: rest, index =>
      if !isOfType || same curr then
        match (if !isFromEnd then cache.bind (fun c => c.lookup curr) else none) with
        | some i => i + index
        | none => scan same isOfType isFromEnd cache rest (index + 1)
      else scan same isOfType isFromEnd cache rest index

/-- `nth_child_index` (selectors/matching.rs:879-940). `prevs` and `nexts` are the elements that
`prev_sibling_element` and `next_sibling_element` reach from the element, nearest first. The `i32`
counters are integers here. -/
def nthChildIndex (same : E → Bool) (prevs nexts : List E) (isOfType isFromEnd : Bool)
    (cache : Option (Cache E)) : Int :=
  let cached := match cache with
    | some c => if isFromEnd && !c.isEmpty then scanFromEnd same isOfType c prevs 1 else none
    | none => none
  match cached with
  | some i => i
  | none => scan same isOfType isFromEnd cache (if isFromEnd then nexts else prevs) 1

/-- `matches_generic_nth_child` (selectors/matching.rs:822-876), for elements that do not ignore
`:nth-child`: the answer and the updated cache. Setting flags is not modelled. -/
def matchesGeneric (sameType : E → E → Bool) (e : E) (prevs nexts : List E)
    (isOfType isFromEnd : Bool) (a b : Int) (cache : Option (Cache E)) : Bool × Option (Cache E) :=
  match cache.bind (fun c => c.lookup e) with
  | some i => (matchesNth i a b, cache)
  | none =>
    let i := nthChildIndex (sameType e) prevs nexts isOfType isFromEnd cache
    (matchesNth i a b, cache.map (fun c => (e, i) :: c))

/-! ## Specification: matching -/

/-- Which siblings count for an element. -/
def counts (sameType : E → E → Bool) (isOfType : Bool) (e s : E) : Bool := !isOfType || sameType e s

/-- The 1-based position of `e` among its counted siblings, from the start or from the end, when its
siblings are `before`, itself, `after` in document order. -/
def position (sameType : E → E → Bool) (isOfType isFromEnd : Bool) (before : List E) (e : E)
    (after : List E) : Int :=
  1 + ((if isFromEnd then after else before).countP (counts sameType isOfType e) : Nat)

/-- Every cached index of a sibling is its position. -/
def Valid (sameType : E → E → Bool) (isOfType isFromEnd : Bool) (siblings : List E)
    (cache : Cache E) : Prop :=
  ∀ before s after i, siblings = before ++ s :: after → cache.lookup s = some i →
    i = position sameType isOfType isFromEnd before s after

/-! ## Matching: the formula -/

/-- C39. For all `i32` values of A and B and every index, the formula accepts the index exactly when it
is A·n+B for some n ≥ 0, unless `index - B` does not fit an `i32` (see
`nth_formula_overflow_wrong`). -/
theorem nth_formula_partial (index a b : Int) (hi : 1 ≤ index) (hi' : IsI32 index) (ha : IsI32 a)
    (hb : IsI32 b) (hfit : index - b ≤ i32Max) :
    matchesNth index a b = true ↔ ∃ n : Int, 0 ≤ n ∧ a * n + b = index := by
  obtain ⟨hb1, hb2⟩ := hb
  unfold i32Min at hb1
  unfold i32Max at hb2 hfit
  have hs : checkedSub index b = some (index - b) := by
    unfold checkedSub i32Min i32Max
    rw [if_pos ⟨by omega, by omega⟩]
  unfold matchesNth
  rw [hs]
  have hne : index - b ≠ -2147483648 := by omega
  by_cases h0 : a = 0
  · subst h0
    simp only [checkedDiv, true_or, if_true]
    constructor
    · intro h
      have : index - b = 0 := by simpa using h
      exact ⟨0, by omega, by omega⟩
    · rintro ⟨n, _, h⟩
      have : index - b = 0 := by omega
      simp [this]
  · have hd : checkedDiv (index - b) a = some ((index - b).tdiv a) := by
      unfold checkedDiv i32Min
      rw [if_neg]
      rintro (h | ⟨h, _⟩)
      · exact h0 h
      · exact hne h
    simp only [hd, Bool.and_eq_true, decide_eq_true_eq, beq_iff_eq]
    constructor
    · rintro ⟨h1, h2⟩
      exact ⟨_, h1, by omega⟩
    · rintro ⟨n, hn, h⟩
      have e : index - b = a * n := by omega
      rw [e, Int.mul_tdiv_cancel_left n h0]
      exact ⟨hn, rfl⟩

/-- The hypothesis of the formula always holds for non-negative B. -/
theorem nth_formula (index a b : Int) (hi : 1 ≤ index) (hi' : IsI32 index) (ha : IsI32 a)
    (hb : IsI32 b) (hb0 : 0 ≤ b) :
    matchesNth index a b = true ↔ ∃ n : Int, 0 ≤ n ∧ a * n + b = index :=
  nth_formula_partial index a b hi hi' ha hb (by obtain ⟨_, h⟩ := hi'; omega)

/-- Counterexample: `:nth-child(n - 2147483648)` matches every element by the standard, but no element
by the code, because the subtraction overflows. -/
theorem nth_formula_overflow_wrong :
    matchesNth 1 1 (-2147483648) = false ∧ ∃ n : Int, 0 ≤ n ∧ 1 * n + (-2147483648) = 1 :=
  ⟨by decide, 2147483649, by decide, by decide⟩

/-- Non-vacuity: `:nth-child(-2n+7)` matches 1, 3, 5, 7 only; `:nth-child(3n-1)` matches 2, 5. -/
example : (List.range 9).map (fun (i : Nat) => matchesNth ((i : Int) + 1) (-2) 7)
      = [true, false, true, false, true, false, true, false, false] ∧
    (List.range 6).map (fun (i : Nat) => matchesNth ((i : Int) + 1) 3 (-1))
      = [false, true, false, false, true, false] := by decide

/-! ## Matching: the index and its cache -/

theorem scan_count (sameType : E → E → Bool) (isOfType isFromEnd : Bool) (e : E) (l : List E)
    (index : Int) (cache : Option (Cache E))
    (hc : isFromEnd = true ∨ cache = none ∨ ∀ c, cache = some c → ∀ x ∈ l, c.lookup x = none) :
    scan (sameType e) isOfType isFromEnd cache l index
      = index + (l.countP (counts sameType isOfType e) : Nat) := by
  induction l generalizing index with
  | nil => simp [scan]
  | cons x xs ih =>
    have hxs : isFromEnd = true ∨ cache = none ∨ ∀ c, cache = some c → ∀ x ∈ xs, c.lookup x = none := by
      rcases hc with h | h | h
      · exact .inl h
      · exact .inr (.inl h)
      · exact .inr (.inr fun c hc x hx => h c hc x (List.mem_cons_of_mem _ hx))
    have hnone : (if !isFromEnd then cache.bind (fun c => c.lookup x) else none) = none := by
      rcases hc with h | h | h
      · simp [h]
      · simp [h]
      · cases cache with
        | none => simp
        | some c => simp [h c rfl x (by simp)]
    rw [scan, List.countP_cons]
    by_cases hk : (!isOfType || sameType e x) = true
    · rw [if_pos hk, hnone]
      simp only
      rw [ih _ hxs]
      simp only [counts, hk, if_true]
      omega
    · rw [if_neg hk, ih _ hxs]
      simp only [counts, hk]
      simp

/-- `sameType` is an equivalence relation. -/
structure IsType (sameType : E → E → Bool) : Prop where
  refl : ∀ x, sameType x x = true
  symm : ∀ x y, sameType x y = true → sameType y x = true
  trans : ∀ x y z, sameType x y = true → sameType y z = true → sameType x z = true

omit [DecidableEq E] in
theorem counts_congr {sameType : E → E → Bool} (ht : IsType sameType) {isOfType : Bool} {e s : E}
    (h : counts sameType isOfType e s = true) (x : E) :
    counts sameType isOfType s x = counts sameType isOfType e x := by
  unfold counts at *
  cases isOfType with
  | false => rfl
  | true =>
    simp only [Bool.not_true, Bool.false_or] at *
    rw [Bool.eq_iff_iff]
    exact ⟨ht.trans _ _ _ h, ht.trans _ _ _ (ht.symm _ _ h)⟩

theorem scan_left_valid {sameType : E → E → Bool} (ht : IsType sameType) (isOfType : Bool)
    (e : E) (cache : Cache E) (prevs tail : List E) (index : Int)
    (hv : Valid sameType isOfType false (prevs.reverse ++ tail) cache) :
    scan (sameType e) isOfType false (some cache) prevs index
      = index + (prevs.countP (counts sameType isOfType e) : Nat) := by
  induction prevs generalizing index tail with
  | nil => simp [scan]
  | cons x xs ih =>
    have hv' : Valid sameType isOfType false (xs.reverse ++ (x :: tail)) cache := by
      simpa using hv
    rw [scan, List.countP_cons]
    by_cases hk : (!isOfType || sameType e x) = true
    · rw [if_pos hk]
      have hk' : counts sameType isOfType e x = true := hk
      simp only [Bool.not_false, if_true, Option.bind_some]
      cases hl : cache.lookup x with
      | some i =>
        simp only
        have hi := hv' xs.reverse x tail i rfl hl
        rw [hi, hk']
        simp only [position]
        rw [show counts sameType isOfType x = counts sameType isOfType e from
          funext (counts_congr ht hk')]
        simp [List.countP_reverse]
        omega
      | none =>
        simp only
        rw [ih (x :: tail) _ hv', hk']
        simp
        omega
    · rw [if_neg hk, ih (x :: tail) _ hv']
      have hk' : counts sameType isOfType e x = false := by simpa [counts] using hk
      simp [hk']

theorem scanFromEnd_valid {sameType : E → E → Bool} (ht : IsType sameType) (isOfType : Bool)
    (e : E) (cache : Cache E) (nexts : List E) (prevs mid : List E) (index r : Int)
    (hv : Valid sameType isOfType true (prevs.reverse ++ (mid ++ e :: nexts)) cache)
    (hidx : index = 1 + (mid.countP (counts sameType isOfType e) : Nat))
    (hs : scanFromEnd (sameType e) isOfType cache prevs index = some r) :
    r = 1 + (nexts.countP (counts sameType isOfType e) : Nat) := by
  induction prevs generalizing index mid with
  | nil => simp [scanFromEnd] at hs
  | cons x xs ih =>
    have hv' : Valid sameType isOfType true (xs.reverse ++ ((x :: mid) ++ e :: nexts)) cache := by
      simpa using hv
    rw [scanFromEnd] at hs
    by_cases hk : (!isOfType || sameType e x) = true
    · rw [if_pos hk] at hs
      have hk' : counts sameType isOfType e x = true := hk
      cases hl : cache.lookup x with
      | some i =>
        rw [hl] at hs
        simp only [Option.some.injEq] at hs
        have hi := hv' xs.reverse x (mid ++ e :: nexts) i (by simp) hl
        simp only [position, if_true] at hi
        rw [show counts sameType isOfType x = counts sameType isOfType e from
          funext (counts_congr ht hk')] at hi
        have he : counts sameType isOfType e e = true := by simp [counts, ht.refl]
        rw [List.countP_append, List.countP_cons, he] at hi
        simp only [if_true] at hi
        push_cast at hi
        omega
      | none =>
        rw [hl] at hs
        refine ih (x :: mid) _ hv' ?_ hs
        rw [List.countP_cons, hk', hidx]
        simp
        omega
    · rw [if_neg hk] at hs
      refine ih (x :: mid) _ hv' ?_ hs
      have hk' : counts sameType isOfType e x = false := by simpa [counts] using hk
      rw [List.countP_cons, hk', hidx]
      simp

/-- C39. With any cache whose entries are right, the index computed for an element is its position
among its siblings (of the same type, when asked), from the start or from the end. -/
theorem nth_child_index_correct {sameType : E → E → Bool} (ht : IsType sameType)
    (isOfType isFromEnd : Bool) (before : List E) (e : E) (after : List E) (cache : Option (Cache E))
    (hv : ∀ c, cache = some c → Valid sameType isOfType isFromEnd (before ++ e :: after) c) :
    nthChildIndex (sameType e) before.reverse after isOfType isFromEnd cache
      = position sameType isOfType isFromEnd before e after := by
  unfold nthChildIndex position
  cases isFromEnd with
  | false =>
    cases cache with
    | none =>
      simp only [Bool.false_eq_true, if_false]
      rw [scan_count _ _ _ _ _ _ _ (.inr (.inl rfl))]
      simp [List.countP_reverse]
    | some c =>
      simp only [Bool.false_and, Bool.false_eq_true, if_false]
      rw [scan_left_valid ht isOfType e c before.reverse (e :: after) 1 (by simpa using hv c rfl)]
      simp [List.countP_reverse]
  | true =>
    cases cache with
    | none =>
      simp only [if_true]
      rw [scan_count _ _ _ _ _ _ _ (.inl rfl)]
    | some c =>
      simp only [Bool.true_and, if_true]
      cases hemp : c.isEmpty with
      | true =>
        simp only [Bool.not_true, Bool.false_eq_true, if_false]
        rw [scan_count _ _ _ _ _ _ _ (.inl rfl)]
      | false =>
        simp only [Bool.not_false, if_true]
        cases hs : scanFromEnd (sameType e) isOfType c before.reverse 1 with
        | some r =>
          simp only
          exact scanFromEnd_valid ht isOfType e c after before.reverse [] 1 r
            (by simpa using hv c rfl) (by simp) hs
        | none =>
          simp only
          rw [scan_count _ _ _ _ _ _ _ (.inl rfl)]

/-- C39. Matching against a list of siblings with a right cache answers by the position of the
element, and leaves a right cache: caching never changes an answer, in whatever order the elements
are asked for. (Siblings are distinct elements.) -/
theorem matches_generic_correct {sameType : E → E → Bool} (ht : IsType sameType)
    (isOfType isFromEnd : Bool) (before : List E) (e : E) (after : List E)
    (hnd : (before ++ e :: after).Nodup) (a b : Int) (cache : Option (Cache E))
    (hv : ∀ c, cache = some c → Valid sameType isOfType isFromEnd (before ++ e :: after) c) :
    (matchesGeneric sameType e before.reverse after isOfType isFromEnd a b cache).1
      = matchesNth (position sameType isOfType isFromEnd before e after) a b ∧
    ∀ c, (matchesGeneric sameType e before.reverse after isOfType isFromEnd a b cache).2 = some c →
      Valid sameType isOfType isFromEnd (before ++ e :: after) c := by
  unfold matchesGeneric
  cases hb : cache.bind (fun c => c.lookup e) with
  | some i =>
    simp only
    rw [Option.bind_eq_some_iff] at hb
    obtain ⟨c, hc, hl⟩ := hb
    have := hv c hc before e after i rfl hl
    exact ⟨by rw [this], fun c' hc' => hv c' hc'⟩
  | none =>
    simp only
    rw [nth_child_index_correct ht isOfType isFromEnd before e after cache hv]
    refine ⟨rfl, ?_⟩
    intro c hc
    rw [Option.map_eq_some_iff] at hc
    obtain ⟨c', hc', rfl⟩ := hc
    intro bf s af i hsib hl
    rw [List.lookup_cons] at hl
    by_cases hse : s = e
    · subst hse
      simp only [beq_self_eq_true, Option.some.injEq] at hl
      have hd : bf = before ∧ af = after := by
        have h1 : s ∉ bf := by
          rw [hsib] at hnd
          intro hm
          exact (List.nodup_append.1 hnd).2.2 s hm s (by simp) rfl
        have h2 : s ∉ before := by
          intro hm
          exact (List.nodup_append.1 hnd).2.2 s hm s (by simp) rfl
        have hlen : ∀ (x y p q : List E), x ++ s :: p = y ++ s :: q → s ∉ x → s ∉ y → x = y ∧ p = q := by
          intro x
          induction x with
          | nil =>
            intro y p q h _ hy
            cases y with
            | nil => simp at h; exact ⟨rfl, h⟩
            | cons z zs => simp at h; exact absurd h.1 (by intro h'; exact hy (by simp [h']))
          | cons w ws ih =>
            intro y p q h hx hy
            cases y with
            | nil => simp at h; exact absurd h.1 (by intro h'; exact hx (by simp [h']))
            | cons z zs =>
              simp only [List.cons_append, List.cons.injEq] at h
              have := ih zs p q h.2 (fun h' => hx (List.mem_cons_of_mem _ h'))
                (fun h' => hy (List.mem_cons_of_mem _ h'))
              exact ⟨by rw [h.1, this.1], this.2⟩
        have := hlen before bf after af hsib h2 h1
        exact ⟨this.1.symm, this.2.symm⟩
      rw [hd.1, hd.2]
      exact hl.symm
    · have : (s == e) = false := by simpa using hse
      rw [this] at hl
      exact hv c' hc' bf s af i hsib hl

/-- Non-vacuity: five siblings, types alternating, from the end with a cached earlier sibling. -/
example :
    let same : Nat → Nat → Bool := fun x y => x % 2 == y % 2
    (matchesGeneric same 3 [2, 1, 0] [4] true true 0 1 (some [(1, 2)])).1 = true ∧
    position same true true [0, 1, 2] 3 [4] = 1 := by decide

end Verif.Selectors.Nth
