import Verif.Border.Model
import Verif.Border.Spec
/-! # Lemmas about one category of border properties -/
namespace Verif.Border
open Spec (Mode Value Longhand parts)

section
variable {V : Type}

/-- The side of the category at a physical side. -/
def sig (m : Mode) (log : Bool) (p : Pos) : Pos := if log then m.inv p else p

theorem set_long (m : Mode) (c : Pos → Key → Value V) (log : Bool) (q : Pos) (k : Key) (v : V) (p : Pos) (j : Key) :
    Spec.set m c (.long (slotOf log q) k v) p j = if sig m log p = q ∧ j = k then .val v else c p j := by
  cases log
  · show (if Longhand (.long (.phys q) k) (.phys p) j then Value.val v else if Longhand (.long (.phys q) k) (.log (m.inv p)) j then Value.val v else c p j) = if p = q ∧ j = k then .val v else c p j
    by_cases h : p = q ∧ j = k
    · rw [if_pos h]; obtain ⟨rfl, rfl⟩ := h; rw [if_pos (.long _ _)]
    · rw [if_neg h, if_neg (by intro h'; cases h'; exact h ⟨rfl, rfl⟩), if_neg (by intro h'; cases h')]
  · show (if Longhand (.long (.log q) k) (.phys p) j then Value.val v else if Longhand (.long (.log q) k) (.log (m.inv p)) j then Value.val v else c p j) = if m.inv p = q ∧ j = k then .val v else c p j
    rw [if_neg (by intro h'; cases h')]
    generalize m.inv p = x
    by_cases h : x = q ∧ j = k
    · rw [if_pos h]; obtain ⟨rfl, rfl⟩ := h; rw [if_pos (.long _ _)]
    · rw [if_neg h, if_neg (by intro h'; cases h'; exact h ⟨rfl, rfl⟩)]

theorem set_phys (m : Mode) (c : Pos → Key → Value V) (q : Pos) (k : Key) (v : V) (p : Pos) (j : Key) :
    Spec.set m c (.long (.phys q) k v) p j = if p = q ∧ j = k then .val v else c p j := set_long m c false q k v p j

theorem set_side (m : Mode) (c : Pos → Key → Value V) (log : Bool) (q : Pos) (b : Key → V) (p : Pos) (j : Key) :
    Spec.set m c (.side (slotOf log q) b) p j = if sig m log p = q then .val (b j) else c p j := by
  cases log
  · show (if Longhand (.side (.phys q)) (.phys p) j then Value.val (b j) else if Longhand (.side (.phys q)) (.log (m.inv p)) j then Value.val (b j) else c p j) = if p = q then .val (b j) else c p j
    by_cases h : p = q
    · rw [if_pos h]; obtain rfl := h; rw [if_pos (.side _ _)]
    · rw [if_neg h, if_neg (by intro h'; cases h'; exact h rfl), if_neg (by intro h'; cases h')]
  · show (if Longhand (.side (.log q)) (.phys p) j then Value.val (b j) else if Longhand (.side (.log q)) (.log (m.inv p)) j then Value.val (b j) else c p j) = if m.inv p = q then .val (b j) else c p j
    rw [if_neg (by intro h'; cases h')]
    generalize m.inv p = x
    by_cases h : x = q
    · rw [if_pos h]; obtain rfl := h; rw [if_pos (.side _ _)]
    · rw [if_neg h, if_neg (by intro h'; cases h'; exact h rfl)]

theorem set_rect (m : Mode) (c : Pos → Key → Value V) (k : Key) (v : Pos → V) (p : Pos) (j : Key) :
    Spec.set m c (.rect k v) p j = if j = k then .val (v p) else c p j := by
  simp only [Spec.set, parts]
  by_cases h : j = k
  · subst h; rw [if_pos (.rect _ _), if_pos rfl]
  · rw [if_neg, if_neg, if_neg h]
    · intro h'; cases h'
    · intro h'; cases h'; exact h rfl

theorem set_border (m : Mode) (c : Pos → Key → Value V) (b : Key → V) (p : Pos) (j : Key) :
    Spec.set m c (.border b) p j = .val (b j) := by
  simp only [Spec.set, parts]
  rw [if_pos (.border _ _)]

theorem set_axisKey (m : Mode) (c : Pos → Key → Value V) (a : Axis) (k : Key) (v w : V) (p : Pos) (j : Key) :
    Spec.set m c (.axisKey a k v w) p j = if m.inv p = a.start ∧ j = k then .val v else if m.inv p = a.stop ∧ j = k then .val w else c p j := by
  simp only [Spec.set, parts]
  rw [if_neg (by intro h; cases h)]
  generalize m.inv p = x
  by_cases hj : j = k
  · subst hj
    cases a <;> cases x <;> simp [Axis.start, Axis.stop] <;>
      first
      | exact fun h => absurd (by constructor) h
      | (intro h; cases h)
  · rw [if_neg (by intro h; cases h <;> exact hj rfl), if_neg (fun h => hj h.2), if_neg (fun h => hj h.2)]

theorem set_axis (m : Mode) (c : Pos → Key → Value V) (a : Axis) (b : Key → V) (p : Pos) (j : Key) :
    Spec.set m c (.axis a b) p j = if m.inv p = a.start ∨ m.inv p = a.stop then .val (b j) else c p j := by
  simp only [Spec.set, parts]
  rw [if_neg (by intro h; cases h)]
  generalize m.inv p = x
  cases a <;> cases x <;> simp [Axis.start, Axis.stop] <;>
      first
      | exact fun h => absurd (by constructor) h
      | (intro h; cases h)

/-- The longhands after several declarations. -/
def sets (m : Mode) (c : Pos → Key → Value V) (ds : List (Decl V)) : Pos → Key → Value V := ds.foldl (Spec.set m) c

theorem sets_append (m : Mode) (c : Pos → Key → Value V) (a b : List (Decl V)) : sets m c (a ++ b) = sets m (sets m c a) b := by
  simp [sets, List.foldl_append]
theorem sets_cons (m : Mode) (c : Pos → Key → Value V) (a : Decl V) (b : List (Decl V)) : sets m c (a :: b) = sets m (Spec.set m c a) b := rfl
theorem sets_nil (m : Mode) (c : Pos → Key → Value V) : sets m c [] = c := rfl

/-- Held values over others. -/
def over (m : Mode) (log : Bool) (g : Held V) (c : Pos → Key → Value V) (p : Pos) (k : Key) : Value V := match g (sig m log p) k with
  | some v => .val v
  | none => c p k

theorem full_some {g : Held V} {p : Pos} {b : Key → V} (h : full g p = some b) (k : Key) : g p k = some (b k) := by
  simp only [full] at h
  split at h
  · injection h with h; subst h; cases k <;> assumption
  · cases h

theorem fullAll_some {g : Held V} {b : Pos → Key → V} (h : fullAll g = some b) (p : Pos) (k : Key) : g p k = some (b p k) := by
  simp only [fullAll] at h
  split at h
  · rename_i h1 h2 h3 h4
    injection h with h; subst h
    cases p
    · exact full_some h1 k
    · exact full_some h2 k
    · exact full_some h3 k
    · exact full_some h4 k
  · cases h

variable [DecidableEq V]

theorem sets_sideDiff (m : Mode) (c : Pos → Key → Value V) (log : Bool) (b : Pos → Key → V) (base other : Pos)
    (hc : ∀ p k, sig m log p = other → c p k = .val (b base k)) (p : Pos) (k : Key) :
    sets m c (sideDiff log b base other) p k = if sig m log p = other then .val (b other k) else c p k := by
  simp only [sideDiff]
  by_cases ho : sig m log p = other
  · rw [if_pos ho]
    by_cases h1 : b base .width = b other .width ∧ b base .style = b other .style
    · rw [if_pos h1]
      simp only [sets_cons, sets_nil, set_long]
      cases k <;> simp [ho, hc p _ ho, h1]
    · rw [if_neg h1]
      by_cases h2 : b base .width = b other .width ∧ b base .color = b other .color
      · rw [if_pos h2]
        simp only [sets_cons, sets_nil, set_long]
        cases k <;> simp [ho, hc p _ ho, h2]
      · rw [if_neg h2]
        by_cases h3 : b base .style = b other .style ∧ b base .color = b other .color
        · rw [if_pos h3]
          simp only [sets_cons, sets_nil, set_long]
          cases k <;> simp [ho, hc p _ ho, h3]
        · rw [if_neg h3]
          simp only [sets_cons, sets_nil, set_side]
          simp [ho]
  · rw [if_neg ho]
    split
    · simp [sets_cons, sets_nil, set_long, ho]
    · split
      · simp [sets_cons, sets_nil, set_long, ho]
      · split
        · simp [sets_cons, sets_nil, set_long, ho]
        · simp [sets_cons, sets_nil, set_side, ho]

omit [DecidableEq V] in
theorem sets_border (m : Mode) (c : Pos → Key → Value V) (b : Key → V) (p : Pos) (k : Key) : Spec.set m c (.border b) p k = .val (b k) := set_border ..

theorem eqSide_iff {b : Pos → Key → V} {p q : Pos} : eqSide b p q = true ↔ ∀ k, b p k = b q k := by
  simp only [eqSide, decide_eq_true_eq]
  constructor
  · rintro ⟨h1, h2, h3⟩ k; cases k <;> assumption
  · intro h; exact ⟨h _, h _, h _⟩

theorem eqKey_iff {b : Pos → Key → V} {k : Key} : eqKey b k = true ↔ ∀ p q, b p k = b q k := by
  simp only [eqKey, decide_eq_true_eq]
  constructor
  · rintro ⟨h1, h2, h3⟩ p q
    have : ∀ p, b p k = b .bs k := by
      intro p
      cases p
      · rfl
      · exact h1.symm
      · exact h3
      · exact h2.symm.trans h3
    rw [this p, this q]
  · intro h; exact ⟨h _ _, h _ _, h _ _⟩

theorem sets_propDiff (m : Mode) (c : Pos → Key → Value V) (log : Bool) (b : Pos → Key → V) (base : Pos) (fallback : List (Decl V)) (wb : Bool)
    (hf : ∀ p k, sets m c ((if wb then [.border (b base)] else []) ++ fallback) p k = .val (b (sig m log p) k)) (p : Pos) (k : Key) :
    sets m c (propDiff log b base fallback wb) p k = .val (b (sig m log p) k) := by
  simp only [propDiff]
  have key : ∀ k1 k2 k3 : Key, k1 ≠ k2 → k1 ≠ k3 → k2 ≠ k3 → log = false → eqKey b k1 = true → eqKey b k2 = true →
      sets m c [.border (b base), .rect k3 (fun p => b p k3)] p k = .val (b (sig m log p) k) := by
    intro k1 k2 k3 n1 n2 n3 hl e1 e2
    subst hl
    simp only [sets_cons, sets_nil, set_rect, set_border, sig]
    by_cases hk : k = k3
    · subst hk; simp
    · rw [if_neg hk]
      have : k = k1 ∨ k = k2 := by revert n1 n2 n3 hk; cases k <;> cases k1 <;> cases k2 <;> cases k3 <;> decide
      rcases this with rfl | rfl
      · rw [eqKey_iff.mp e1 base p]; rfl
      · rw [eqKey_iff.mp e2 base p]; rfl
  split
  · rename_i h
    simp at h
    exact key .color .style .width (by decide) (by decide) (by decide) h.1 h.2.1 h.2.2
  · split
    · rename_i h
      simp at h
      exact key .width .style .color (by decide) (by decide) (by decide) h.1 h.2.1 h.2.2
    · split
      · rename_i h
        simp at h
        exact key .width .color .style (by decide) (by decide) (by decide) h.1 h.2.1 h.2.2
      · exact hf p k

/-- After `border`, two sides. -/
theorem sets_two (m : Mode) (c : Pos → Key → Value V) (log : Bool) (b : Pos → Key → V) (base q r : Pos) (hqr : q ≠ r)
    (hb : ∀ p, p ≠ q → p ≠ r → ∀ k, b base k = b p k) (p : Pos) (k : Key) :
    sets m c (.border (b base) :: (sideDiff log b base q ++ sideDiff log b base r)) p k = .val (b (sig m log p) k) := by
  rw [sets_cons, sets_append, sets_sideDiff, sets_sideDiff]
  · by_cases h1 : sig m log p = r
    · rw [if_pos h1, h1]
    · rw [if_neg h1]
      by_cases h2 : sig m log p = q
      · rw [if_pos h2, h2]
      · rw [if_neg h2, set_border, hb _ h2 h1]
  · intro p k _; exact set_border ..
  · intro p k h
    rw [sets_sideDiff]
    · rw [if_neg (by rw [h]; exact hqr.symm), set_border]
    · intro p k _; exact set_border ..

/-- After `border`, one side. -/
theorem sets_one (m : Mode) (c : Pos → Key → Value V) (log : Bool) (b : Pos → Key → V) (base q : Pos)
    (hb : ∀ p, p ≠ q → ∀ k, b base k = b p k) (p : Pos) (k : Key) :
    sets m c (.border (b base) :: sideDiff log b base q) p k = .val (b (sig m log p) k) := by
  rw [sets_cons, sets_sideDiff]
  · by_cases h2 : sig m log p = q
    · rw [if_pos h2, h2]
    · rw [if_neg h2, set_border, hb _ h2]
  · intro p k _; exact set_border ..

theorem sets_blockEq (m : Mode) (c : Pos → Key → Value V) (log : Bool) (b : Pos → Key → V) (he : ∀ k, b .bs k = b .be k) (p : Pos) (k : Key) :
    sets m c (.border (b .bs) :: blockEq log b) p k = .val (b (sig m log p) k) := by
  have hs : sets m c (.border (b .bs) :: (sideDiff log b .bs .is ++ sideDiff log b .bs .ie)) p k = .val (b (sig m log p) k) := by
    refine sets_two m c log b .bs .is .ie (by decide) ?_ p k
    intro p h1 h2 k
    cases p
    · rfl
    · exact he k
    · exact absurd rfl h1
    · exact absurd rfl h2
  simp only [blockEq]
  cases log
  · simpa using hs
  · simp only [if_true]
    by_cases h1 : diffCount b = 1
    · rw [if_pos h1]
      have key : ∀ k', (b .is k' ≠ b .bs k') → sets m c (.border (b .bs) :: [.axisKey .inline k' (b .is k') (b .ie k')]) p k = .val (b (sig m true p) k) := by
        intro k' hk'
        have other : ∀ j, j ≠ k' → b .is j = b .bs j ∧ b .ie j = b .bs j := by
          intro j hj
          apply Classical.byContradiction
          intro hn
          have hn : b .is j ≠ b .bs j ∨ b .ie j ≠ b .bs j := by
            by_cases h : b .is j = b .bs j
            · exact .inr (fun h' => hn ⟨h, h'⟩)
            · exact .inl h
          have m1 : j ∈ keys.filter fun k => b .is k ≠ b .bs k ∨ b .ie k ≠ b .bs k := by
            rw [List.mem_filter]; exact ⟨by cases j <;> simp [keys], by simpa using hn⟩
          have m2 : k' ∈ keys.filter fun k => b .is k ≠ b .bs k ∨ b .ie k ≠ b .bs k := by
            rw [List.mem_filter]; exact ⟨by cases k' <;> simp [keys], by simp [hk']⟩
          unfold diffCount at h1
          obtain ⟨x, hx⟩ := List.length_eq_one_iff.mp h1
          rw [hx] at m1 m2
          simp at m1 m2
          exact hj (m1.trans m2.symm)
        simp only [sets_cons, sets_nil, set_axisKey, set_border, sig, if_true, Axis.start, Axis.stop]
        generalize m.inv p = x
        by_cases hk : k = k'
        · subst hk; cases x <;> simp [he]
        · have := other k hk; cases x <;> simp [hk, this, he]
      split
      · rename_i h; exact key _ h
      · split
        · rename_i h; exact key _ h
        · split
          · rename_i h; exact key _ h
          · exact hs
    · rw [if_neg h1]
      by_cases h2 : diffCount b > 1 ∧ eqSide b .is .ie = true
      · rw [if_pos h2]
        have h2 := eqSide_iff.mp h2.2
        simp only [sets_cons, sets_nil, set_axis, set_border, sig, if_true, Axis.start, Axis.stop]
        generalize m.inv p = x
        cases x <;> simp [he, h2]
      · rw [if_neg h2]; exact hs

theorem sets_complete (m : Mode) (c : Pos → Key → Value V) (log : Bool) (b : Pos → Key → V) (p : Pos) (k : Key) :
    sets m c (complete log b) p k = .val (b (sig m log p) k) := by
  simp only [complete]
  by_cases h : (eqSide b .bs .be && eqSide b .bs .is && eqSide b .bs .ie) = true
  · rw [if_pos h]
    simp only [Bool.and_eq_true, eqSide_iff] at h
    simp only [sets_cons, sets_nil, set_border]
    generalize sig m log p = x
    cases x
    · rfl
    · rw [h.1.1]
    · rw [h.1.2]
    · rw [h.2]
  rw [if_neg h]; clear h
  by_cases h : (eqSide b .bs .be && eqSide b .bs .is) = true
  · rw [if_pos h]
    simp only [Bool.and_eq_true, eqSide_iff] at h
    exact sets_one m c log b _ _ (by intro p hp k; cases p <;> first | rfl | exact h.1 k | exact h.2 k | exact absurd rfl hp) p k
  rw [if_neg h]; clear h
  by_cases h : (eqSide b .bs .be && eqSide b .bs .ie) = true
  · rw [if_pos h]
    simp only [Bool.and_eq_true, eqSide_iff] at h
    exact sets_one m c log b _ _ (by intro p hp k; cases p <;> first | rfl | exact h.1 k | exact h.2 k | exact absurd rfl hp) p k
  rw [if_neg h]; clear h
  by_cases h : (eqSide b .is .ie && eqSide b .be .is) = true
  · rw [if_pos h]
    simp only [Bool.and_eq_true, eqSide_iff] at h
    exact sets_one m c log b _ _ (by intro p hp k; cases p <;> first | rfl | exact h.1 k | exact (h.2 k).symm | exact absurd rfl hp) p k
  rw [if_neg h]; clear h
  by_cases h : (eqSide b .is .ie && eqSide b .bs .is) = true
  · rw [if_pos h]
    simp only [Bool.and_eq_true, eqSide_iff] at h
    exact sets_one m c log b _ _ (by intro p hp k; cases p <;> first | rfl | exact h.1 k | exact (h.2 k).symm | exact absurd rfl hp) p k
  rw [if_neg h]; clear h
  by_cases h : eqSide b .bs .be = true
  · rw [if_pos h]
    exact sets_propDiff m c log b _ _ _ (fun p k => sets_blockEq m c log b (eqSide_iff.mp h) p k) p k
  rw [if_neg h]; clear h
  by_cases h : eqSide b .is .ie = true
  · rw [if_pos h]
    refine sets_propDiff m c log b _ _ _ (fun p k => ?_) p k
    have h := eqSide_iff.mp h
    exact sets_two m c log b _ _ _ (by decide) (by intro p h1 h2 k; cases p <;> first | rfl | exact h k | exact absurd rfl h1 | exact absurd rfl h2) p k
  rw [if_neg h]; clear h
  by_cases h : eqSide b .be .ie = true
  · rw [if_pos h]
    refine sets_propDiff m c log b _ _ _ (fun p k => ?_) p k
    have h := eqSide_iff.mp h
    exact sets_two m c log b _ _ _ (by decide) (by intro p h1 h2 k; cases p <;> first | rfl | exact h k | exact absurd rfl h1 | exact absurd rfl h2) p k
  rw [if_neg h]; clear h
  refine sets_propDiff m c log b _ _ _ (fun p k => ?_) p k
  simp only [Bool.false_eq_true, if_false, List.nil_append, sets_cons, sets_nil, set_side]
  generalize sig m log p = x
  cases x <;> simp

/-- The writing modes and targets for which a category is written faithfully. -/
def Fits (env : Env V) (m : Mode) (log : Bool) : Prop := log = false ∨ (env.logical = true ∧ env.logicalShorthand = true) ∨ m.Horizontal

omit [DecidableEq V] in
theorem over_clear (m : Mode) (log : Bool) (g : Held V) (c : Pos → Key → Value V) (ps : List Pos) (k : Key) (p : Pos) (j : Key) :
    over m log (clear g ps k) c p j = if sig m log p ∈ ps ∧ j = k then c p j else over m log g c p j := by
  simp only [over, clear]
  by_cases h : sig m log p ∈ ps ∧ j = k
  · rw [if_pos h, if_pos h]
  · rw [if_neg h, if_neg h]

omit [DecidableEq V] in
theorem over_some (m : Mode) (log : Bool) (g : Held V) (c : Pos → Key → Value V) (p : Pos) (j : Key) (v : V) (h : g (sig m log p) j = some v) :
    over m log g c p j = .val v := by simp only [over, h]

omit [DecidableEq V] in
theorem over_none (m : Mode) (log : Bool) (g : Held V) (c : Pos → Key → Value V) (p : Pos) (j : Key) (h : g (sig m log p) j = none) :
    over m log g c p j = c p j := by simp only [over, h]

theorem shorthand_over (m : Mode) (log : Bool) (k : Key) (c : Pos → Key → Value V) (s : Held V × List (Decl V)) :
    over m log (shorthand log k s).1 (sets m c (shorthand log k s).2) = over m log s.1 (sets m c s.2) := by
  funext p j
  simp only [shorthand]
  split
  · rename_i a b d e h1 h2 h3 h4
    split
    · rename_i hc
      rw [over_clear, sets_append, sets_cons, sets_nil]
      have hm : sig m log p ∈ poss := by generalize sig m log p = x; cases x <;> simp [poss]
      by_cases hj : j = k
      · subst hj
        rw [if_pos ⟨hm, rfl⟩, set_rect, if_pos rfl]
        symm
        apply over_some
        rcases hc with rfl | ⟨rfl, rfl, rfl⟩
        · show s.1 p j = _
          cases p <;> assumption
        · generalize sig m log p = x
          cases x <;> cases p <;> assumption
      · rw [if_neg (fun h => hj h.2)]
        simp only [over, set_rect, if_neg hj]
    · rfl
  · rfl

omit [DecidableEq V] in
theorem axisShorthand_over (m : Mode) (a : Axis) (k : Key) (c : Pos → Key → Value V) (s : Held V × List (Decl V)) :
    over m true (axisShorthand a k s).1 (sets m c (axisShorthand a k s).2) = over m true s.1 (sets m c s.2) := by
  funext p j
  simp only [axisShorthand]
  split
  · rename_i v w h1 h2
    rw [over_clear, sets_append, sets_cons, sets_nil, set_axisKey]
    by_cases hj : j = k
    · subst hj
      by_cases e1 : m.inv p = a.start
      · rw [if_pos ⟨by simp [sig, e1], rfl⟩, if_pos ⟨e1, rfl⟩]
        exact (over_some _ _ _ _ _ _ _ (by simpa [sig, e1] using h1)).symm
      · by_cases e2 : m.inv p = a.stop
        · rw [if_pos ⟨by simp [sig, e2], rfl⟩, if_neg (fun h => e1 h.1), if_pos ⟨e2, rfl⟩]
          exact (over_some _ _ _ _ _ _ _ (by simpa [sig, e2] using h2)).symm
        · rw [if_neg (by simp [sig, e1, e2])]
          simp only [over, set_axisKey]
          rw [if_neg (fun h => e1 h.1), if_neg (fun h => e2 h.1)]
    · rw [if_neg (fun h => hj h.2)]
      simp only [over, set_axisKey]
      rw [if_neg (fun h => hj h.2), if_neg (fun h => hj h.2)]
  · rfl

omit [DecidableEq V] in
theorem horizontal_inv {m : Mode} (h : m.Horizontal) : m.inv .bs = .bs ∧ m.inv .be = .be ∧ (∀ p, (m.inv p = .is ∨ m.inv p = .ie) ↔ (p = .is ∨ p = .ie)) := by
  have h1 : m.inv .bs = .bs := by have := m.left .bs; rwa [h.1] at this
  have h2 : m.inv .be = .be := by have := m.left .be; rwa [h.2] at this
  refine ⟨h1, h2, fun p => ?_⟩
  constructor
  · intro hp
    cases p
    · rw [h1] at hp; simp at hp
    · rw [h2] at hp; simp at hp
    · exact .inl rfl
    · exact .inr rfl
  · intro hp
    generalize hx : m.inv p = x
    have : m.to x = p := by rw [← hx, m.right]
    cases x
    · rw [h.1] at this; subst this; simp at hp
    · rw [h.2] at this; subst this; simp at hp
    · exact .inl rfl
    · exact .inr rfl

theorem inlineProp_over (m : Mode) (hm : m.Horizontal) (k : Key) (c : Pos → Key → Value V) (s : Held V × List (Decl V)) :
    over m true (inlineProp k s).1 (sets m c (inlineProp k s).2) = over m true s.1 (sets m c s.2) := by
  funext p j
  obtain ⟨_, _, hi⟩ := horizontal_inv hm
  simp only [inlineProp]
  split
  · rename_i v w h1 h2
    split
    · rename_i hvw
      subst hvw
      rw [over_clear, sets_append, sets_cons, sets_cons, sets_nil, set_phys, set_phys]
      by_cases hj : j = k
      · subst hj
        by_cases e : p = .is ∨ p = .ie
        · have e' := (hi p).mpr e
          rw [if_pos ⟨by simpa [sig] using e', rfl⟩]
          rw [over_some _ _ _ _ _ _ v (by rcases e' with e' | e' <;> simpa [sig, e'])]
          rcases e with rfl | rfl <;> simp
        · have e' : ¬ (m.inv p = .is ∨ m.inv p = .ie) := fun h => e ((hi p).mp h)
          rw [if_neg (by simpa [sig] using e')]
          simp only [over, set_phys]
          rw [if_neg (fun h => e (.inr h.1)), if_neg (fun h => e (.inl h.1))]
      · rw [if_neg (fun h => hj h.2)]
        simp only [over, set_phys]
        rw [if_neg (fun h => hj h.2), if_neg (fun h => hj h.2)]
    · rfl
  · rfl

omit [DecidableEq V] in
theorem sets_longOf (m : Mode) (log : Bool) (g : Held V) (q : Pos) (k : Key) (c : Pos → Key → Value V) (p : Pos) (j : Key) :
    sets m c (longOf log g q k) p j = if sig m log p = q ∧ j = k then over m log g c p j else c p j := by
  simp only [longOf]
  split
  · rename_i v h
    rw [sets_cons, sets_nil, set_long]
    by_cases hc : sig m log p = q ∧ j = k
    · rw [if_pos hc, if_pos hc, over_some]; rw [hc.1, hc.2, h]
    · rw [if_neg hc, if_neg hc]
  · rename_i h
    rw [sets_nil]
    by_cases hc : sig m log p = q ∧ j = k
    · rw [if_pos hc, over_none]; rw [hc.1, hc.2, h]
    · rw [if_neg hc]

omit [DecidableEq V] in
theorem over_congr (m : Mode) (log : Bool) (g : Held V) (c c' : Pos → Key → Value V) (p : Pos) (j : Key) (h : c p j = c' p j) : over m log g c p j = over m log g c' p j := by
  simp only [over, h]

omit [DecidableEq V] in
theorem sets_sideOut (m : Mode) (log : Bool) (g : Held V) (q : Pos) (c : Pos → Key → Value V) (p : Pos) (j : Key) :
    sets m c (sideOut log g q) p j = if sig m log p = q then over m log g c p j else c p j := by
  simp only [sideOut]
  split
  · rename_i b h
    rw [sets_cons, sets_nil, set_side]
    by_cases hc : sig m log p = q
    · rw [if_pos hc, if_pos hc, over_some]; rw [hc]; exact full_some h j
    · rw [if_neg hc, if_neg hc]
  · simp only [sets_append, sets_longOf]
    by_cases hc : sig m log p = q
    · cases j <;> simp [hc, over, sets_longOf]
    · simp [hc]

omit [DecidableEq V] in
theorem sets_sides (m : Mode) (log : Bool) (g : Held V) (q r : Pos) (c : Pos → Key → Value V) (p : Pos) (j : Key) :
    sets m c (sideOut log g q ++ sideOut log g r) p j = if sig m log p = q ∨ sig m log p = r then over m log g c p j else c p j := by
  rw [sets_append, sets_sideOut]
  by_cases h2 : sig m log p = r
  · rw [if_pos h2, if_pos (.inr h2)]
    simp only [over, sets_sideOut]
    by_cases h1 : sig m log p = q
    · rw [if_pos h1]; split <;> first | rfl | simp_all [over]
    · rw [if_neg h1]
  · rw [if_neg h2, sets_sideOut]
    by_cases h1 : sig m log p = q
    · rw [if_pos h1, if_pos (.inl h1)]
    · rw [if_neg h1, if_neg (fun h => h.elim h1 h2)]

theorem eqFull_some {g : Held V} {p q : Pos} {b : Key → V} (h : eqFull g p q = some b) (k : Key) : g p k = some (b k) ∧ g q k = some (b k) := by
  simp only [eqFull] at h
  split at h
  · rename_i b' hb
    split at h
    · rename_i hq
      injection h with h; subst h
      refine ⟨full_some hb k, ?_⟩
      cases k
      · exact hq.1
      · exact hq.2.1
      · exact hq.2.2
    · cases h
  · cases h

/-- What the two halves of a category have in common: the held values of two sides are written, nothing else changes. -/
structure Half (m : Mode) (log : Bool) (q r : Pos) (c : Pos → Key → Value V) (s t : Held V × List (Decl V)) : Prop where
  here : ∀ p k, sig m log p = q ∨ sig m log p = r → sets m c t.2 p k = over m log s.1 (sets m c s.2) p k
  away : ∀ p k, ¬ (sig m log p = q ∨ sig m log p = r) → sets m c t.2 p k = sets m c s.2 p k
  held : ∀ x k, ¬ (x = q ∨ x = r) → t.1 x k = s.1 x k

omit [DecidableEq V] in
theorem axis_held (a : Axis) (k : Key) (s : Held V × List (Decl V)) (x : Pos) (j : Key) (hx : ¬ (x = a.start ∨ x = a.stop)) : (axisShorthand a k s).1 x j = s.1 x j := by
  simp only [axisShorthand]
  split
  · simp only [clear]; rw [if_neg]; intro h; apply hx; simpa using h.1
  · rfl

theorem inline_held (k : Key) (s : Held V × List (Decl V)) (x : Pos) (j : Key) (hx : ¬ (x = .is ∨ x = .ie)) : (inlineProp k s).1 x j = s.1 x j := by
  simp only [inlineProp]
  split
  · split
    · simp only [clear]; rw [if_neg]; intro h; apply hx; simpa using h.1
    · rfl
  · rfl

omit [DecidableEq V] in
theorem axis_away (m : Mode) (a : Axis) (k : Key) (c : Pos → Key → Value V) (s : Held V × List (Decl V)) (p : Pos) (j : Key)
    (hp : ¬ (sig m true p = a.start ∨ sig m true p = a.stop)) : sets m c (axisShorthand a k s).2 p j = sets m c s.2 p j := by
  have hp : ¬ (m.inv p = a.start ∨ m.inv p = a.stop) := hp
  simp only [axisShorthand]
  split
  · rw [sets_append, sets_cons, sets_nil, set_axisKey, if_neg (fun h => hp (.inl h.1)), if_neg (fun h => hp (.inr h.1))]
  · rfl

theorem inline_away (m : Mode) (hm : m.Horizontal) (k : Key) (c : Pos → Key → Value V) (s : Held V × List (Decl V)) (p : Pos) (j : Key)
    (hp : ¬ (sig m true p = .is ∨ sig m true p = .ie)) : sets m c (inlineProp k s).2 p j = sets m c s.2 p j := by
  have hp : ¬ (m.inv p = .is ∨ m.inv p = .ie) := hp
  have hp : ¬ (p = .is ∨ p = .ie) := fun h => hp (((horizontal_inv hm).2.2 p).mpr h)
  simp only [inlineProp]
  split
  · split
    · rw [sets_append, sets_cons, sets_cons, sets_nil, set_phys, set_phys, if_neg (fun h => hp (.inr h.1)), if_neg (fun h => hp (.inl h.1))]
    · rfl
  · rfl

omit [DecidableEq V] in
/-- The end of both halves. -/
theorem half_sides (m : Mode) (log : Bool) (q r : Pos) (c : Pos → Key → Value V) (s t : Held V × List (Decl V))
    (ho : over m log t.1 (sets m c t.2) = over m log s.1 (sets m c s.2))
    (ha : ∀ p k, ¬ (sig m log p = q ∨ sig m log p = r) → sets m c t.2 p k = sets m c s.2 p k)
    (hh : ∀ x k, ¬ (x = q ∨ x = r) → t.1 x k = s.1 x k) :
    Half m log q r c s (t.1, t.2 ++ (sideOut log t.1 q ++ sideOut log t.1 r)) where
  here := by
    intro p k hp
    simp only
    rw [sets_append, sets_sides, if_pos hp, ho]
  away := by
    intro p k hp
    simp only
    rw [sets_append, sets_sides, if_neg hp, ha p k hp]
  held := hh

omit [DecidableEq V] in
theorem half_equal (m : Mode) (log : Bool) (q r : Pos) (c : Pos → Key → Value V) (s : Held V × List (Decl V)) (b : Key → V) (ds : List (Decl V))
    (hb : ∀ k, s.1 q k = some (b k) ∧ s.1 r k = some (b k))
    (hd : ∀ (c : Pos → Key → Value V) p k, sets m c ds p k = if sig m log p = q ∨ sig m log p = r then .val (b k) else c p k) :
    Half m log q r c s (s.1, s.2 ++ ds) where
  here := by
    intro p k hp
    simp only
    rw [sets_append, hd, if_pos hp, over_some]
    rcases hp with h | h <;> rw [h]
    · exact (hb k).1
    · exact (hb k).2
  away := by
    intro p k hp
    simp only
    rw [sets_append, hd, if_neg hp]
  held := fun _ _ _ => rfl

theorem blockOut_half (env : Env V) (m : Mode) (log : Bool) (hf : Fits env m log) (c : Pos → Key → Value V) (s : Held V × List (Decl V)) :
    Half m log .bs .be c s (blockOut env log s) := by
  simp only [blockOut]
  cases log
  · simp only [Bool.false_eq_true, if_false, Bool.false_and]
    exact half_sides m false _ _ c s s rfl (fun _ _ _ => rfl) (fun _ _ _ => rfl)
  · simp only [if_true, Bool.true_and]
    split
    · rename_i b hb
      apply half_equal (b := b)
      · exact eqFull_some hb
      · intro c p k
        by_cases h1 : env.logical = true
        · rw [if_pos h1]
          by_cases h2 : env.logicalShorthand = true
          · rw [if_pos h2, sets_cons, sets_nil, set_axis]; rfl
          · rw [if_neg h2, sets_cons, sets_cons, sets_nil]
            have := fun c q => set_side m c true q b p k
            simp only [slotOf, if_true] at this
            rw [this, this]
            by_cases h3 : sig m true p = .be
            · rw [if_pos h3, if_pos (.inr h3)]
            · rw [if_neg h3]; simp [h3]
        · rw [if_neg h1, sets_cons, sets_cons, sets_nil]
          have hm : m.Horizontal := hf.elim (fun h => absurd h (by decide)) fun h => h.elim (fun h => absurd h.1 h1) fun h => h
          obtain ⟨i1, i2, i3⟩ := horizontal_inv hm
          have := fun c q => set_side m c false q b p k
          simp only [slotOf, Bool.false_eq_true, if_false] at this
          rw [this, this]
          have i3 := i3 p
          simp only [sig, Bool.false_eq_true, if_false, if_true]
          cases p
          · simp [i1]
          · simp [i2]
          all_goals
            revert i3; generalize m.inv _ = x; cases x <;> simp
    · split
      · refine half_sides m true _ _ c s _ ?_ ?_ ?_
        · rw [axisShorthand_over, axisShorthand_over, axisShorthand_over]
        · intro p k hp
          rw [axis_away _ .block _ _ _ _ _ hp, axis_away _ .block _ _ _ _ _ hp, axis_away _ .block _ _ _ _ _ hp]
        · intro x k hx
          rw [axis_held .block _ _ _ _ hx, axis_held .block _ _ _ _ hx, axis_held .block _ _ _ _ hx]
      · exact half_sides m true _ _ c s s rfl (fun _ _ _ => rfl) (fun _ _ _ => rfl)

theorem inlineOut_half (env : Env V) (m : Mode) (log : Bool) (hf : Fits env m log) (c : Pos → Key → Value V) (s : Held V × List (Decl V)) :
    Half m log .is .ie c s (inlineOut env log s) := by
  simp only [inlineOut]
  cases log
  · simp only [Bool.false_eq_true, if_false, Bool.false_and]
    exact half_sides m false _ _ c s s rfl (fun _ _ _ => rfl) (fun _ _ _ => rfl)
  · simp only [if_true, Bool.true_and]
    split
    · rename_i b hb
      apply half_equal (b := b)
      · exact eqFull_some hb
      · intro c p k
        by_cases h1 : env.logical = true
        · rw [if_pos h1]
          by_cases h2 : env.logicalShorthand = true
          · rw [if_pos h2, sets_cons, sets_nil, set_axis]; rfl
          · rw [if_neg h2, sets_cons, sets_cons, sets_nil]
            have := fun c q => set_side m c true q b p k
            simp only [slotOf, if_true] at this
            rw [this, this]
            by_cases h3 : sig m true p = .ie
            · rw [if_pos h3, if_pos (.inr h3)]
            · rw [if_neg h3]; simp [h3]
        · rw [if_neg h1, sets_cons, sets_cons, sets_nil]
          have hm : m.Horizontal := hf.elim (fun h => absurd h (by decide)) fun h => h.elim (fun h => absurd h.1 h1) fun h => h
          obtain ⟨i1, i2, i3⟩ := horizontal_inv hm
          have := fun c q => set_side m c false q b p k
          simp only [slotOf, Bool.false_eq_true, if_false] at this
          rw [this, this]
          have i3 := i3 p
          simp only [sig, Bool.false_eq_true, if_false, if_true]
          cases p
          · simp [i1]
          · simp [i2]
          all_goals
            revert i3; generalize m.inv _ = x; cases x <;> simp
    · split
      · by_cases h2 : env.logicalShorthand = true
        · rw [if_pos h2]
          refine half_sides m true _ _ c s _ ?_ ?_ ?_
          · rw [axisShorthand_over, axisShorthand_over, axisShorthand_over]
          · intro p k hp
            rw [axis_away _ .inline _ _ _ _ _ hp, axis_away _ .inline _ _ _ _ _ hp, axis_away _ .inline _ _ _ _ _ hp]
          · intro x k hx
            rw [axis_held .inline _ _ _ _ hx, axis_held .inline _ _ _ _ hx, axis_held .inline _ _ _ _ hx]
        · rw [if_neg h2]
          have hm : m.Horizontal := hf.elim (fun h => absurd h (by decide)) fun h => h.elim (fun h => absurd h.2 h2) fun h => h
          refine half_sides m true _ _ c s _ ?_ ?_ ?_
          · rw [inlineProp_over m hm, inlineProp_over m hm, inlineProp_over m hm]
          · intro p k hp
            rw [inline_away m hm _ _ _ _ _ hp, inline_away m hm _ _ _ _ _ hp, inline_away m hm _ _ _ _ _ hp]
          · intro x k hx
            rw [inline_held _ _ _ _ hx, inline_held _ _ _ _ hx, inline_held _ _ _ _ hx]
      · exact half_sides m true _ _ c s s rfl (fun _ _ _ => rfl) (fun _ _ _ => rfl)

/-- A category is written faithfully. -/
theorem sets_category (env : Env V) (m : Mode) (log : Bool) (hf : Fits env m log) (g : Held V) (c : Pos → Key → Value V) :
    sets m c (category env log g) = over m log g c := by
  funext p k
  simp only [category]
  split
  · rename_i b hb
    rw [sets_complete, over_some]
    exact fullAll_some hb _ _
  · generalize hs : shorthand log .color (shorthand log .width (shorthand log .style (g, []))) = s
    have ho : over m log s.1 (sets m c s.2) = over m log g c := by
      rw [← hs, shorthand_over, shorthand_over, shorthand_over]; rfl
    rw [← ho]
    have h1 := blockOut_half env m log hf c s
    have h2 := inlineOut_half env m log hf c (blockOut env log s)
    by_cases hp : sig m log p = .is ∨ sig m log p = .ie
    · have hn : ¬ (sig m log p = .bs ∨ sig m log p = .be) := by revert hp; generalize sig m log p = x; cases x <;> simp
      rw [h2.here p k hp]
      simp only [over, h1.held _ _ hn, h1.away _ _ hn]
    · have hn : sig m log p = .bs ∨ sig m log p = .be := by revert hp; generalize sig m log p = x; cases x <;> simp
      rw [h2.away p k hp, h1.here p k hn]

end
end Verif.Border
