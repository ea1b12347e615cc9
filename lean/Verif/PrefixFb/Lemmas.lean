import Verif.PrefixFb.Spec
import Verif.Targets.Props
/-!
# Lemmas about winners and the prefix handler
-/
namespace Verif.PrefixFb
open Verif.Targets

variable {V : Type}

open Classical in
/-- What one declaration sets. -/
noncomputable def View.set (w : View V) : Item V → Option (Won V)
  | .own v p => if w.Knows p ∧ w.understands v then some (.value v) else none
  | .unparsed v p => if w.Knows p then some (.unparsed v) else none
  | .other _ => none

/-- The winner, from the right. -/
noncomputable def View.win (w : View V) : List (Item V) → Option (Won V)
  | [] => none
  | d :: ds => (w.win ds).or (w.set d)

theorem set_iff (w : View V) (d : Item V) (x : Won V) : w.set d = some x ↔ w.Sets d x := by
  cases d with
  | own v p =>
    simp only [View.set]
    constructor
    · intro h
      split at h
      · rename_i hc; cases h; exact .own hc.1 hc.2
      · cases h
    · intro h
      cases h with
      | own h1 h2 => simp [h1, h2]
  | unparsed v p =>
    simp only [View.set]
    constructor
    · intro h
      split at h
      · rename_i hc; cases h; exact .unparsed hc
      · cases h
    · intro h
      cases h with
      | unparsed h1 => simp [h1]
  | other s =>
    simp only [View.set]
    exact ⟨(by intro h; cases h), (by intro h; cases h)⟩

theorem set_none (w : View V) (d : Item V) : w.set d = none ↔ ∀ y, ¬ w.Sets d y := by
  constructor
  · intro h y hy
    rw [(set_iff w d y).2 hy] at h; cases h
  · intro h
    cases hs : w.set d with
    | none => rfl
    | some y => exact absurd ((set_iff w d y).1 hs) (h y)

theorem win_append (w : View V) (a b : List (Item V)) : w.win (a ++ b) = (w.win b).or (w.win a) := by
  induction a with
  | nil => cases h : w.win b <;> simp [View.win, h]
  | cons d a ih =>
    simp only [List.cons_append, View.win, ih]
    cases w.win b <;> cases w.win a <;> rfl

theorem win_none (w : View V) (ds : List (Item V)) : w.win ds = none ↔ ∀ d ∈ ds, w.set d = none := by
  induction ds with
  | nil => simp [View.win]
  | cons d ds ih =>
    simp only [View.win, Option.or_eq_none_iff, ih, List.mem_cons, forall_eq_or_imp]
    exact and_comm

theorem wins_iff (w : View V) (ds : List (Item V)) (x : Won V) : w.Wins ds x ↔ w.win ds = some x := by
  constructor
  · rintro ⟨a, d, b, rfl, hs, hb⟩
    have : w.win b = none := (win_none w b).2 fun e he => (set_none w e).2 (hb e he)
    rw [win_append]
    simp [View.win, this, (set_iff w d x).2 hs]
  · induction ds with
    | nil => intro h; cases h
    | cons d ds ih =>
      intro h
      simp only [View.win] at h
      cases hw : w.win ds with
      | none =>
        rw [hw] at h
        refine ⟨[], d, ds, rfl, (set_iff w d x).1 (by simpa using h), fun e he => ?_⟩
        exact (set_none w e).1 ((win_none w ds).1 hw e he)
      | some y =>
        rw [hw] at h
        obtain ⟨a, e, b, rfl, h1, h2⟩ := ih (by simpa [hw] using h)
        exact ⟨d :: a, e, b, rfl, h1, h2⟩

theorem has_union (a b : PrefixSet) (q : Prefix) : (a.union b).has q = true ↔ a.has q = true ∨ b.has q = true := by
  cases q <;> simp [PrefixSet.union, PrefixSet.has]

theorem knows_union (w : View V) (a b : PrefixSet) : w.Knows (a.union b) ↔ w.Knows a ∨ w.Knows b := by
  unfold View.Knows
  simp only [has_union]
  constructor
  · rintro ⟨q, h, h1 | h1⟩
    · exact Or.inl ⟨q, h, h1⟩
    · exact Or.inr ⟨q, h, h1⟩
  · rintro (⟨q, h, h1⟩ | ⟨q, h, h1⟩)
    · exact ⟨q, h, Or.inl h1⟩
    · exact ⟨q, h, Or.inr h1⟩

theorem contains_has {a b : PrefixSet} (h : contains a b = true) (q : Prefix) (hb : b.has q = true) : a.has q = true := by
  unfold contains at h
  simp only [Bool.and_eq_true, Bool.or_eq_true, Bool.not_eq_true'] at h
  cases q <;> simp only [PrefixSet.has] at * <;> simp_all

/-- The index points at the last parsed declaration of the property, if there is one. -/
def Inv (s : State V) : Prop :=
  (∀ d ∈ s.dest, ¬ d.IsOwn) ∨ ∃ a v p b, s.dest = a ++ .own v p :: b ∧ s.index = some a.length ∧ ∀ d ∈ b, ¬ d.IsOwn

theorem put_eq (s : State V) (a : List (Item V)) (x y : Item V) (b : List (Item V)) (h : s.dest = a ++ x :: b) : s.put a.length y = ⟨s.index, a ++ y :: b⟩ := by
  unfold State.put
  rw [h]
  simp

/-- One step for a parsed declaration. -/
theorem handlePrefix_own [DecidableEq V] (t : Targets) (f : PrefixFeature) (s : State V) (hs : Inv s) (val : V) (pre : PrefixSet) :
    (∃ a cur ps b, s.dest = a ++ .own cur ps :: b ∧ (∀ d ∈ b, ¬ d.IsOwn) ∧ (val = cur ∨ contains ps pre = true) ∧
      handlePrefix t f s (.own val pre) = ⟨some a.length, a ++ .own val (t.prefixes (ps.union pre) f) :: b⟩) ∨
    handlePrefix t f s (.own val pre) = ⟨some s.dest.length, s.dest ++ [.own val (t.prefixes pre f)]⟩ := by
  unfold handlePrefix
  rcases hs with hs | ⟨a, cur, ps, b, hd, hi, hb⟩
  · right
    cases hi : s.index with
    | none => rfl
    | some i =>
      simp only
      cases hg : s.dest[i]? with
      | none => rfl
      | some d =>
        have := hs d (List.mem_of_getElem? hg)
        cases d with
        | own _ _ => exact absurd trivial this
        | unparsed _ _ => rfl
        | other _ => rfl
  · simp only [hi]
    have hg : s.dest[a.length]? = some (.own cur ps) := by rw [hd]; simp
    simp only [hg]
    split
    · rename_i hc
      left
      refine ⟨a, cur, ps, b, hd, hb, hc, ?_⟩
      rw [put_eq s a _ _ b hd, hi]
    · right; rfl

theorem handlePrefix_inv [DecidableEq V] (t : Targets) (f : PrefixFeature) (s : State V) (hs : Inv s) (d : Item V) : Inv (handlePrefix t f s d) := by
  cases d with
  | own val pre =>
    rcases handlePrefix_own t f s hs val pre with ⟨a, cur, ps, b, -, hb, -, h⟩ | h
    · rw [h]; exact Or.inr ⟨a, _, _, b, rfl, rfl, hb⟩
    · rw [h]; exact Or.inr ⟨s.dest, _, _, [], rfl, rfl, by simp⟩
  | unparsed v p =>
    unfold handlePrefix
    rcases hs with hs | ⟨a, cur, ps, b, hd, hi, hb⟩
    · left
      intro d hd
      simp only [List.mem_append, List.mem_singleton] at hd
      rcases hd with hd | rfl
      · exact hs d hd
      · exact fun h => h
    · right
      refine ⟨a, cur, ps, b ++ [.unparsed v p], by simp [hd], hi, ?_⟩
      intro d hd
      simp only [List.mem_append, List.mem_singleton] at hd
      rcases hd with hd | rfl
      · exact hb d hd
      · exact fun h => h
  | other v =>
    unfold handlePrefix
    rcases hs with hs | ⟨a, cur, ps, b, hd, hi, hb⟩
    · left
      intro d hd
      simp only [List.mem_append, List.mem_singleton] at hd
      rcases hd with hd | rfl
      · exact hs d hd
      · exact fun h => h
    · right
      refine ⟨a, cur, ps, b ++ [.other v], by simp [hd], hi, ?_⟩
      intro d hd
      simp only [List.mem_append, List.mem_singleton] at hd
      rcases hd with hd | rfl
      · exact hb d hd
      · exact fun h => h

theorem win_other (w : View V) (b : List (Item V)) (h1 : ∀ d ∈ b, ¬ d.IsOwn) (h2 : ∀ d ∈ b, ¬ d.IsUnparsed) : w.win b = none := by
  rw [win_none]
  intro d hd
  cases d with
  | own _ _ => exact absurd trivial (h1 _ hd)
  | unparsed _ _ => exact absurd trivial (h2 _ hd)
  | other _ => rfl

/-- If vendor prefixes are excluded, or there are no browsers and they are not asked for, prefixes stay. -/
theorem prefixes_same {t : Targets} (ht : (t.browsers = none ∧ t.incl.getLsbD 18 = false) ∨ t.excl.getLsbD 18 = true) (p : PrefixSet) (f : PrefixFeature) : t.prefixes p f = p := by
  have key : ∀ x : Flags, x.contains .vendorPrefixes = x.getLsbD 18 := by
    intro x
    rw [Bool.eq_iff_iff, contains_iff]
    constructor
    · intro h; exact h 18 (by decide)
    · intro h i hi
      have : i = 18 := by
        unfold Flags.vendorPrefixes at hi
        rw [BitVec.getLsbD_shiftLeft] at hi
        simp at hi
        omega
      rw [this]; exact h
  unfold Targets.prefixes
  rw [key, key]
  rcases ht with ⟨h1, h2⟩ | h
  · rw [h1, h2]; simp
  · rw [h]; simp

end Verif.PrefixFb
