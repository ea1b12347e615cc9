import Mathlib.Data.List.Count
import Mathlib.Data.Nat.Bitwise
/-!
# Selectors: the counting Bloom filter (selectors/bloom.rs), property C38
-/
namespace Verif.Selectors.Bloom

/-! ## Model -/

/-- `KEY_SIZE` (selectors/bloom.rs:13). -/
def keySize : Nat := 12

/-- `KEY_MASK` (selectors/bloom.rs:16). -/
def keyMask : Nat := (1 <<< keySize) - 1

/-- `BLOOM_HASH_MASK` (selectors/bloom.rs:12). -/
def bloomHashMask : Nat := 0x00ffffff

/-- `hash1` (selectors/bloom.rs:282-284). -/
def hash1 (hash : Nat) : Nat := hash &&& keyMask

/-- `hash2` (selectors/bloom.rs:287-289). -/
def hash2 (hash : Nat) : Nat := (hash >>> keySize) &&& keyMask

/-- `BloomStorageU8` (selectors/bloom.rs:172-174): the array of counters, as a function of the index.
Counters are bytes. -/
abbrev Counters := Nat → Nat

/-- `BloomStorageU8::default` (selectors/bloom.rs:202-208). -/
def Counters.zero : Counters := fun _ => 0

/-- `BloomStorageU8::adjust_slot` (selectors/bloom.rs:178-188). Decrementing zero panics in debug
builds and wraps around in release builds; the latter is modelled. -/
def adjustSlot (c : Counters) (index : Nat) (increment : Bool) : Counters :=
  if c index ≠ 0xff then
    if increment then fun i => if i = index then c i + 1 else c i
    else fun i => if i = index then (if c i = 0 then 0xff else c i - 1) else c i
  else c

/-- `slot_is_empty` (selectors/bloom.rs:191-193). -/
def slotIsEmpty (c : Counters) (index : Nat) : Bool := c index == 0

/-- `insert_hash` (selectors/bloom.rs:101-104). -/
def insertHash (c : Counters) (hash : Nat) : Counters :=
  adjustSlot (adjustSlot c (hash1 hash) true) (hash2 hash) true

/-- `remove_hash` (selectors/bloom.rs:108-111). -/
def removeHash (c : Counters) (hash : Nat) : Counters :=
  adjustSlot (adjustSlot c (hash1 hash) false) (hash2 hash) false

/-- `might_contain_hash` (selectors/bloom.rs:117-119). -/
def mightContain (c : Counters) (hash : Nat) : Bool :=
  !slotIsEmpty c (hash1 hash) && !slotIsEmpty c (hash2 hash)

/-- `is_zeroed` (selectors/bloom.rs:196-198): all counters of the array are zero. -/
def isZeroed (c : Counters) : Prop := ∀ i < 1 <<< keySize, c i = 0

/-! ## Specification -/

/-- One call on the filter. -/
inductive Op
  | insert (hash : Nat)
  | remove (hash : Nat)
  deriving DecidableEq

/-- The items in the filter after a history, each as often as it was inserted and not yet removed;
`none` if something was removed that was not there. -/
def contents : List Op → Option (List Nat)
  | [] => some []
  | .insert h :: past => (contents past).map (h :: ·)
  | .remove h :: past => (contents past).bind fun l => if h ∈ l then some (l.erase h) else none

/-- The state of the filter after a history (latest call first). -/
def run : List Op → Counters
  | [] => .zero
  | .insert h :: past => insertHash (run past) h
  | .remove h :: past => removeHash (run past) h

/-! ## Lemmas -/

/-- How often the items of the list use slot `i`. -/
def load (l : List Nat) (i : Nat) : Nat :=
  l.countP (fun h => hash1 h == i) + l.countP (fun h => hash2 h == i)

theorem load_cons (h : Nat) (l : List Nat) (i : Nat) :
    load (h :: l) i = load l i + (if hash1 h = i then 1 else 0) + (if hash2 h = i then 1 else 0) := by
  simp only [load, List.countP_cons, beq_iff_eq]
  omega

theorem load_erase (h : Nat) (l : List Nat) (i : Nat) (hm : h ∈ l) :
    load l i = load (l.erase h) i + (if hash1 h = i then 1 else 0) + (if hash2 h = i then 1 else 0) := by
  have hp := List.perm_cons_erase hm
  have : load l i = load (h :: l.erase h) i := by
    unfold load
    rw [hp.countP_eq, hp.countP_eq]
  rw [this, load_cons]

/-- The counter of a slot is exact, or saturated. -/
def Inv (c : Counters) (l : List Nat) : Prop :=
  ∀ i, c i = 255 ∨ (c i = load l i ∧ c i < 255)

theorem inv_insert {c : Counters} {l : List Nat} (hi : Inv c l) (h : Nat) :
    Inv (insertHash c h) (h :: l) := by
  intro i
  rw [load_cons]
  have h0 := hi i
  have h1 := hi (hash1 h)
  have h2 := hi (hash2 h)
  unfold insertHash adjustSlot
  by_cases e1 : i = hash1 h <;> by_cases e2 : i = hash2 h
  · subst e1
    have : hash2 h = hash1 h := e2.symm
    by_cases s1 : c (hash1 h) = 255
    · simp [s1, this]
    · by_cases s2 : c (hash1 h) + 1 = 255
      · simp [s1, s2, this]
      · simp [s1, s2, this]; omega
  · subst e1
    have : hash2 h ≠ hash1 h := fun h => e2 h.symm
    by_cases s1 : c (hash1 h) = 255 <;> by_cases s2 : c (hash2 h) = 255 <;>
      simp [s1, s2, this, e2] <;> omega
  · subst e2
    by_cases s1 : c (hash1 h) = 255 <;> by_cases s2 : c (hash2 h) = 255 <;>
      simp [s1, s2, e1, Ne.symm e1] <;> omega
  · by_cases s1 : c (hash1 h) = 255
    · by_cases s2 : c (hash2 h) = 255 <;>
        simp [s1, s2, e1, e2, Ne.symm e1, Ne.symm e2] <;> omega
    · by_cases e3 : hash2 h = hash1 h
      · by_cases s3 : c (hash1 h) + 1 = 255 <;>
          simp [s1, s3, e1, e3, Ne.symm e1] <;> omega
      · by_cases s2 : c (hash2 h) = 255 <;>
          simp [s1, s2, e1, e2, e3, Ne.symm e1, Ne.symm e2] <;> omega

theorem inv_remove {c : Counters} {l : List Nat} (hi : Inv c l) (h : Nat) (hm : h ∈ l) :
    Inv (removeHash c h) (l.erase h) := by
  intro i
  have hl := load_erase h l i hm
  have hl1 := load_erase h l (hash1 h) hm
  have hl2 := load_erase h l (hash2 h) hm
  have h0 := hi i
  have h1 := hi (hash1 h)
  have h2 := hi (hash2 h)
  simp only [if_true] at hl1 hl2
  unfold removeHash adjustSlot
  by_cases e1 : i = hash1 h <;> by_cases e2 : i = hash2 h
  · subst e1
    have : hash2 h = hash1 h := e2.symm
    by_cases s1 : c (hash1 h) = 255
    · simp [s1, this]
    · simp only [this, if_true] at hl1
      have z1 : c (hash1 h) ≠ 0 := by omega
      have z2 : c (hash1 h) - 1 ≠ 0 := by omega
      have s2 : c (hash1 h) - 1 ≠ 255 := by omega
      simp [s1, s2, z1, z2, this]; omega
  · subst e1
    have : hash2 h ≠ hash1 h := fun h => e2 h.symm
    simp only [this, if_false] at hl1
    by_cases s1 : c (hash1 h) = 255 <;> by_cases s2 : c (hash2 h) = 255
    · simp [s1, s2, this]
    · have z : c (hash2 h) ≠ 0 := by omega
      simp [s1, s2, this, e2]
    · have z : c (hash1 h) ≠ 0 := by omega
      simp [s1, s2, this, e2, z]; omega
    · have z : c (hash1 h) ≠ 0 := by omega
      simp [s1, s2, this, e2, z]; omega
  · subst e2
    have : hash1 h ≠ hash2 h := fun h => e1 h.symm
    simp only [this, if_false] at hl2
    by_cases s1 : c (hash1 h) = 255 <;> by_cases s2 : c (hash2 h) = 255
    · simp [s1, s2]
    · have z : c (hash2 h) ≠ 0 := by omega
      simp [s1, s2, e1, z]; omega
    · simp [s1, s2, e1]
    · have z : c (hash2 h) ≠ 0 := by omega
      simp [s1, s2, e1, z]; omega
  · simp only [Ne.symm e1, Ne.symm e2, if_false] at hl
    have key : ∀ b : Bool, ∀ c' : Counters, ∀ j, i ≠ j → adjustSlot c' j b i = c' i := by
      intro b c' j hj
      unfold adjustSlot
      split
      · split <;> simp [hj]
      · rfl
    have e : adjustSlot (adjustSlot c (hash1 h) false) (hash2 h) false i = c i := by
      rw [key _ _ _ e2, key _ _ _ e1]
    unfold adjustSlot at e
    rw [e]
    omega

theorem inv_run : ∀ (hist : List Op) (l : List Nat), contents hist = some l → Inv (run hist) l
  | [], l, h => by
    simp only [contents, Option.some.injEq] at h
    subst h
    intro i
    right
    simp [run, Counters.zero, load]
  | .insert h :: past, l, hl => by
    simp only [contents, Option.map_eq_some_iff] at hl
    obtain ⟨l', hl', rfl⟩ := hl
    exact inv_insert (inv_run past l' hl') h
  | .remove h :: past, l, hl => by
    simp only [contents, Option.bind_eq_some_iff] at hl
    obtain ⟨l', hl', hr⟩ := hl
    split at hr
    · rename_i hm
      simp only [Option.some.injEq] at hr
      subst hr
      exact inv_remove (inv_run past l' hl') h hm
    · simp at hr

theorem load_pos {h : Nat} {l : List Nat} (hm : h ∈ l) : 0 < load l (hash1 h) ∧ 0 < load l (hash2 h) := by
  have h1 := load_erase h l (hash1 h) hm
  have h2 := load_erase h l (hash2 h) hm
  simp only [if_true] at h1 h2
  omega

/-! ## Properties -/

/-- C38. No false negatives: after any history in which everything removed had been inserted, every
item still in the filter is reported as possibly present. -/
theorem no_false_negatives (hist : List Op) (l : List Nat) (hv : contents hist = some l) (h : Nat)
    (hm : h ∈ l) : mightContain (run hist) h = true := by
  have hi := inv_run hist l hv
  have hp := load_pos hm
  have h1 := hi (hash1 h)
  have h2 := hi (hash2 h)
  simp only [mightContain, slotIsEmpty, Bool.and_eq_true, Bool.not_eq_true', beq_eq_false_iff_ne]
  omega

/-- C38. In such a history no counter is decremented below zero: when an item is removed, its counters
are positive, also after the first of the two decrements when both hashes select the same slot. -/
theorem no_underflow (hist : List Op) (l : List Nat) (hv : contents hist = some l) (h : Nat)
    (hm : h ∈ l) :
    run hist (hash1 h) ≠ 0 ∧ adjustSlot (run hist) (hash1 h) false (hash2 h) ≠ 0 := by
  have hi := inv_run hist l hv
  have hl1 := load_erase h l (hash1 h) hm
  have hl2 := load_erase h l (hash2 h) hm
  simp only [if_true] at hl1 hl2
  have h1 := hi (hash1 h)
  have h2 := hi (hash2 h)
  refine ⟨by omega, ?_⟩
  unfold adjustSlot
  by_cases s1 : run hist (hash1 h) = 255
  · simp [s1]; omega
  · by_cases e : hash2 h = hash1 h
    · simp only [e, if_true] at hl1
      have z1 : run hist (hash1 h) ≠ 0 := by omega
      simp [s1, e, z1]; omega
    · simp [s1, e]; omega

theorem adjustSlot_apply (c : Counters) (j i : Nat) (b : Bool) :
    adjustSlot c j b i = if i = j ∧ c j ≠ 255 then
      (if b then c i + 1 else if c i = 0 then 255 else c i - 1) else c i := by
  unfold adjustSlot
  by_cases h : c j = 255
  · simp [h]
  · by_cases hi : i = j
    · subst hi; cases b <;> simp [h]
    · cases b <;> simp [h, hi]

/-- The slots are never used 255 times at once in the history. -/
def Unsaturated : List Op → Prop
  | [] => True
  | op :: past => (∀ l, contents (op :: past) = some l → ∀ i, load l i < 255) ∧ Unsaturated past

theorem exact_run : ∀ (hist : List Op) (l : List Nat), contents hist = some l → Unsaturated hist →
    ∀ i, run hist i = load l i
  | [], l, h, _ => by
    simp only [contents, Option.some.injEq] at h
    subst h
    simp [run, Counters.zero, load]
  | .insert h :: past, l, hl, hu => by
    have hb := hu.1 l hl
    simp only [contents, Option.map_eq_some_iff] at hl
    obtain ⟨l', hl', rfl⟩ := hl
    have ih := exact_run past l' hl' hu.2
    intro i
    have hbi := hb i
    have hb1 := hb (hash1 h)
    have hb2 := hb (hash2 h)
    rw [load_cons] at hbi hb1 hb2 ⊢
    simp only [run, insertHash, adjustSlot_apply, ih]
    simp only [if_true] at hb1 hb2
    have s1 : load l' (hash1 h) ≠ 255 := by omega
    by_cases e : hash2 h = hash1 h
    · simp only [e, if_true] at hb1 ⊢
      have s2 : load l' (hash1 h) + 1 ≠ 255 := by omega
      by_cases e1 : i = hash1 h
      · subst e1; simp [s1, s2]
      · simp [s1, s2, e1, Ne.symm e1]
    · have s2 : load l' (hash2 h) ≠ 255 := by omega
      by_cases e1 : i = hash1 h <;> by_cases e2 : i = hash2 h
      · subst e1; exact absurd e2.symm e
      · subst e1; simp [s1, s2, e, e2]
      · subst e2; simp [s1, s2, e1, Ne.symm e1]
      · simp [s1, s2, e, e1, e2, Ne.symm e1, Ne.symm e2]
  | .remove h :: past, l, hl, hu => by
    simp only [contents, Option.bind_eq_some_iff] at hl
    obtain ⟨l', hl', hr⟩ := hl
    split at hr
    · rename_i hm
      simp only [Option.some.injEq] at hr
      subst hr
      have ih := exact_run past l' hl' hu.2
      have hb : ∀ i, load l' i < 255 := by
        intro i
        cases past with
        | nil =>
          simp only [contents, Option.some.injEq] at hl'
          subst hl'
          simp at hm
        | cons op past => exact hu.2.1 l' hl' i
      intro i
      have hi := inv_remove (c := run past) (l := l')
        (fun i => Or.inr ⟨ih i, by rw [ih i]; exact hb i⟩) h hm i
      rcases hi with hs | hs
      · -- a counter below 255 that is not incremented stays below 255
        exfalso
        have hlt : removeHash (run past) h i < 255 := by
          have hl1 := load_erase h l' (hash1 h) hm
          have hl2 := load_erase h l' (hash2 h) hm
          simp only [if_true] at hl1 hl2
          have b0 := hb i
          have b1 := hb (hash1 h)
          have b2 := hb (hash2 h)
          simp only [removeHash, adjustSlot_apply]
          have s1 : load l' (hash1 h) ≠ 255 := by omega
          by_cases e : hash2 h = hash1 h
          · simp only [e, if_true] at hl1
            have z1 : load l' (hash1 h) ≠ 0 := by omega
            have z2 : load l' (hash1 h) - 1 ≠ 0 := by omega
            have s2 : load l' (hash1 h) - 1 ≠ 255 := by omega
            by_cases e1 : i = hash1 h
            · subst e1; simp [ih, s1, s2, z1, z2, e]; omega
            · simp [ih, s1, s2, z1, e, e1]; omega
          · have s2 : load l' (hash2 h) ≠ 255 := by omega
            have z1 : load l' (hash1 h) ≠ 0 := by omega
            have z2 : load l' (hash2 h) ≠ 0 := by omega
            by_cases e1 : i = hash1 h <;> by_cases e2 : i = hash2 h
            · subst e1; exact absurd e2.symm e
            · subst e1; simp [ih, s1, s2, z1, e, e2]; omega
            · subst e2; simp [ih, s1, s2, z2, e1]; omega
            · simp [ih, s1, s2, e, e1, e2]; omega
        omega
      · exact hs.1
    · simp at hr

/-- C38. The filter is zeroed once everything was removed, if no slot was ever used by 255 items at
once. Missing from the full property: counters that reached 255 are never decremented again (see
`not_zeroed_after_saturation`). -/
theorem zeroed_partial (hist : List Op) (hv : contents hist = some []) (hu : Unsaturated hist) :
    isZeroed (run hist) := by
  intro i _
  rw [exact_run hist [] hv hu i]
  simp [load]

/-- The filter only looks at the low 24 bits of a hash (selectors/bloom.rs:10-12). -/
theorem mightContain_mask (c : Counters) (h : Nat) :
    mightContain c (h &&& bloomHashMask) = mightContain c h := by
  have e1 : hash1 (h &&& bloomHashMask) = hash1 h := by
    have : bloomHashMask = 2 ^ 24 - 1 := by decide
    unfold hash1
    have k : keyMask = 2 ^ 12 - 1 := by decide
    rw [this, k, Nat.and_two_pow_sub_one_eq_mod, Nat.and_two_pow_sub_one_eq_mod,
      Nat.and_two_pow_sub_one_eq_mod]
    omega
  have e2 : hash2 (h &&& bloomHashMask) = hash2 h := by
    have : bloomHashMask = 2 ^ 24 - 1 := by decide
    unfold hash2
    have k : keyMask = 2 ^ 12 - 1 := by decide
    have k' : keySize = 12 := rfl
    rw [this, k, k', Nat.and_two_pow_sub_one_eq_mod, Nat.and_two_pow_sub_one_eq_mod,
      Nat.and_two_pow_sub_one_eq_mod, Nat.shiftRight_eq_div_pow, Nat.shiftRight_eq_div_pow]
    omega
  unfold mightContain
  rw [e1, e2]

/-- The slots of a hash are inside the array (no out-of-bounds access). -/
theorem slots_in_bounds (h : Nat) : hash1 h < 1 <<< keySize ∧ hash2 h < 1 <<< keySize := by
  have k : keyMask = 2 ^ 12 - 1 := by decide
  have k' : 1 <<< keySize = 4096 := by decide
  unfold hash1 hash2
  rw [k, k', Nat.and_two_pow_sub_one_eq_mod, Nat.and_two_pow_sub_one_eq_mod]
  omega

/-- Non-vacuity: a history with a removal whose remaining item is still found, and the removed one is
not. -/
example : contents [.remove 5, .insert 70000, .insert 5] = some [70000] ∧
    mightContain (run [.remove 5, .insert 70000, .insert 5]) 70000 = true ∧
    mightContain (run [.remove 5, .insert 70000, .insert 5]) 5 = false := by decide +kernel

/-- Counterexample to the last part of C38: 255 items that share a slot, all removed again, leave the
filter non-zero for ever (selectors/bloom.rs:180). -/
theorem not_zeroed_after_saturation :
    contents (List.replicate 255 (.remove 1) ++ List.replicate 255 (.insert 1)) = some [] ∧
    run (List.replicate 255 (.remove 1) ++ List.replicate 255 (.insert 1)) 1 = 255 := by
  decide +kernel

/-! ## The one-bit storage -/

/-- `BloomStorageBool::adjust_slot` (selectors/bloom.rs:224-240): bits are only ever set; the byte
array is a function from bit index to bit. `none` is the failed assertion. -/
def adjustBit (c : Nat → Bool) (index : Nat) (increment : Bool) : Option (Nat → Bool) :=
  if increment || c index then
    some (if increment then fun i => if i = index then true else c i else c)
  else none

/-- `insert_hash` / `remove_hash` with one-bit storage (selectors/bloom.rs:101-111). -/
def stepBool (c : Nat → Bool) : Op → Option (Nat → Bool)
  | .insert h => (adjustBit c (hash1 h) true).bind (adjustBit · (hash2 h) true)
  | .remove h => (adjustBit c (hash1 h) false).bind (adjustBit · (hash2 h) false)

/-- The state after a history (latest call first). -/
def runBool : List Op → Option (Nat → Bool)
  | [] => some fun _ => false
  | op :: past => (runBool past).bind (stepBool · op)

/-- C38, one-bit storage: in a history in which everything removed had been inserted, no assertion
fails and every item ever inserted stays reported as possibly present. -/
theorem bool_no_false_negatives : ∀ (hist : List Op) (l : List Nat), contents hist = some l →
    ∃ c, runBool hist = some c ∧ ∀ h, .insert h ∈ hist → c (hash1 h) = true ∧ c (hash2 h) = true
  | [], _, _ => ⟨_, rfl, by simp⟩
  | .insert h :: past, l, hl => by
    simp only [contents, Option.map_eq_some_iff] at hl
    obtain ⟨l', hl', rfl⟩ := hl
    obtain ⟨c, hc, hp⟩ := bool_no_false_negatives past l' hl'
    refine ⟨fun i => if i = hash2 h then true else if i = hash1 h then true else c i,
      by simp [runBool, hc, stepBool, adjustBit], ?_⟩
    intro h' hm
    rcases List.mem_cons.1 hm with he | hm
    · cases he; simp
    · obtain ⟨a, b⟩ := hp h' hm
      simp [a, b]
  | .remove h :: past, l, hl => by
    simp only [contents, Option.bind_eq_some_iff] at hl
    obtain ⟨l', hl', hr⟩ := hl
    split at hr
    · rename_i hm
      obtain ⟨c, hc, hp⟩ := bool_no_false_negatives past l' hl'
      have hin : ∀ (hist : List Op) (l : List Nat), contents hist = some l → ∀ h ∈ l, Op.insert h ∈ hist := by
        intro hist
        induction hist with
        | nil => intro l hl h hm; simp only [contents, Option.some.injEq] at hl; subst hl; simp at hm
        | cons op past ih =>
          intro l hl h hm
          cases op with
          | insert h' =>
            simp only [contents, Option.map_eq_some_iff] at hl
            obtain ⟨l', hl', rfl⟩ := hl
            rcases List.mem_cons.1 hm with rfl | hm
            · simp
            · exact List.mem_cons_of_mem _ (ih l' hl' h hm)
          | remove h' =>
            simp only [contents, Option.bind_eq_some_iff] at hl
            obtain ⟨l', hl', hr⟩ := hl
            split at hr
            · simp only [Option.some.injEq] at hr
              subst hr
              exact List.mem_cons_of_mem _ (ih l' hl' h (List.mem_of_mem_erase hm))
            · simp at hr
      obtain ⟨a, b⟩ := hp h (hin past l' hl' h hm)
      refine ⟨c, by simp [runBool, hc, stepBool, adjustBit, a, b], ?_⟩
      intro h' hm'
      rcases List.mem_cons.1 hm' with he | hm'
      · cases he
      · exact hp h' hm'
    · simp at hr

end Verif.Selectors.Bloom
