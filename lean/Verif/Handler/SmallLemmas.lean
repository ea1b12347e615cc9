import Verif.Handler.BoxLemmas
import Mathlib.Data.List.FinRange
/-! `OverflowHandler` and `shorthand_handler!` keep the meaning of the declarations. -/
namespace Verif.Handler
variable {V M : Type}

/-- Pending value. -/
def pv (m : V → M) (o : Option V) : Option (Val M) := o.map fun v => .val (m v)

theorem ov_finalize [DecidableEq V] (m : V → M) (two : Bool) (σ : OvState V) :
    (σ.finalize two).1 = ⟨none, none⟩ ∧ last (ovSetsX m) (σ.finalize two).2 = pv m σ.x ∧
      last (ovSetsY m) (σ.finalize two).2 = pv m σ.y := by
  obtain ⟨x, y⟩ := σ
  rcases x with _ | x <;> rcases y with _ | y <;> simp only [OvState.finalize]
  · exact ⟨trivial, rfl, rfl⟩
  · exact ⟨trivial, rfl, rfl⟩
  · exact ⟨trivial, rfl, rfl⟩
  · by_cases h : x = y ∨ two = true
    · rw [if_pos h]; exact ⟨trivial, rfl, rfl⟩
    · rw [if_neg h]; exact ⟨trivial, rfl, rfl⟩

theorem ov_handle [DecidableEq V] (m : V → M) (two : Bool) (d : OvDecl V) (σ : OvState V) :
    (pv m (σ.handle two d).1.x).or (last (ovSetsX m) (σ.handle two d).2) = (ovSetsX m d).or (pv m σ.x) ∧
    (pv m (σ.handle two d).1.y).or (last (ovSetsY m) (σ.handle two d).2) = (ovSetsY m d).or (pv m σ.y) := by
  obtain ⟨h1, h2, h3⟩ := ov_finalize m two σ
  cases d <;> simp [OvState.handle, ovSetsX, ovSetsY, last_nil, pv, h1, last_append, last_singleton, h2, h3] <;>
    exact ⟨trivial, trivial⟩

/-- The invariant of `shorthand_handler!`. -/
def ShState.Inv {n : Nat} (σ : ShState V n) : Prop := σ.hasAny = false → ∀ i, σ.key i = none

/-- The values `get_fallbacks` leaves mean the same. -/
def ShCfg.Keeps {n : Nat} (c : ShCfg V n) (m : V → M) : Prop :=
  (∀ i v, m (c.fbLong i v).1 = m v) ∧ (∀ vs i, m ((c.fbShort vs).1 i) = m (vs i)) ∧ ∀ v, m (c.unparsed v) = m v

theorem last_flushLong {n : Nat} (m : V → M) (c : ShCfg V n) (hc : c.Keeps m) (σ : ShState V n) (i j : Fin n) :
    last (shSets m i) (σ.flushLong c j) = if j = i then pv m (σ.key i) else none := by
  unfold ShState.flushLong
  cases hk : σ.key j with
  | none =>
    by_cases h : j = i
    · subst h; simp [hk, last_nil, pv]
    · simp [h, last_nil]
  | some v =>
    simp only []
    by_cases h : j = i
    · subst h
      simp only [if_true, pv, hk, Option.map_some]
      split
      · simp [last_singleton, shSets]
      · simp [last_append, last_singleton, shSets, hc.1]
    · rw [if_neg h]
      apply last_none
      intro d hd
      split at hd
      · simp at hd; subst hd; simp [shSets, h]
      · simp only [List.mem_append, List.mem_map, List.mem_singleton] at hd
        rcases hd with ⟨w, _, rfl⟩ | rfl <;> simp [shSets, h]

theorem last_flushLongs {n : Nat} (m : V → M) (c : ShCfg V n) (hc : c.Keeps m) (σ : ShState V n) (i : Fin n) (l : List (Fin n)) :
    last (shSets m i) (l.flatMap (σ.flushLong c)) = if i ∈ l then pv m (σ.key i) else none := by
  induction l with
  | nil => simp [last_nil]
  | cons j l ih =>
    rw [List.flatMap_cons, last_append, ih, last_flushLong m c hc]
    by_cases hj : j = i
    · subst hj
      by_cases hl : j ∈ l <;> simp [hl, pv]
    · have : i ≠ j := fun h => hj h.symm
      by_cases hl : i ∈ l <;> simp [hl, hj, this]

theorem allKeys_some {n : Nat} (key : Fin n → Option V) (vs : Fin n → V) (h : allKeys key = some vs) (i : Fin n) :
    key i = some (vs i) := by
  unfold allKeys at h
  split at h
  · injection h with h
    subst h
    simp
  · simp at h

theorem sh_flush {n : Nat} (m : V → M) (c : ShCfg V n) (hc : c.Keeps m) (σ : ShState V n) (h : σ.Inv) :
    (∀ i, (σ.flush c).1.key i = none) ∧ (σ.flush c).1.Inv ∧ ∀ i, last (shSets m i) (σ.flush c).2 = pv m (σ.key i) := by
  have inv : ∀ σ' : ShState V n, (∀ i, σ'.key i = none) → σ'.Inv := fun σ' h _ => h
  unfold ShState.flush
  cases ha : σ.hasAny with
  | false =>
    simp only [Bool.not_false, if_true]
    exact ⟨h ha, h, fun i => by simp [h ha i, pv, last_nil]⟩
  | true =>
    simp only [Bool.not_true, Bool.false_eq_true, if_false]
    cases hk : allKeys σ.key with
    | none =>
      refine ⟨fun _ => rfl, inv _ fun _ => rfl, fun i => ?_⟩
      rw [last_flushLongs m c hc, if_pos (List.mem_finRange i)]
    | some vs =>
      have hki := allKeys_some _ _ hk
      simp only []
      split
      · exact ⟨fun _ => rfl, inv _ fun _ => rfl, fun i => by simp [last_singleton, shSets, pv, hki]⟩
      · exact ⟨fun _ => rfl, inv _ fun _ => rfl, fun i => by simp [last_append, last_singleton, shSets, pv, hki, hc.2.1]⟩

theorem sh_handle {n : Nat} (m : V → M) (c : ShCfg V n) (hc : c.Keeps m) (d : ShDecl V n) (σ : ShState V n) (h : σ.Inv) :
    (σ.handle c d).1.Inv ∧
      ∀ i, (pv m ((σ.handle c d).1.key i)).or (last (shSets m i) (σ.handle c d).2) = (shSets m i d).or (pv m (σ.key i)) := by
  obtain ⟨h1, h2, h3⟩ := sh_flush m c hc σ h
  cases d with
  | long j v =>
    refine ⟨by simp [ShState.Inv, ShState.handle], fun i => ?_⟩
    simp only [ShState.handle, shSets]
    by_cases hj : j = i
    · subst hj; simp [pv]
    · have : i ≠ j := fun h => hj h.symm
      simp only [if_neg this, if_neg hj]
      split
      · simp [h1, h3, pv]
      · simp [last_nil]
  | short vs =>
    exact ⟨by simp [ShState.Inv, ShState.handle], fun i => by simp [ShState.handle, shSets, pv]⟩
  | unparsed id v =>
    refine ⟨fun _ => h1, fun i => ?_⟩
    simp only [ShState.handle, h1, last_append, last_singleton, h3]
    cases id with
    | none => simp [shSets, pv, hc.2.2]
    | some j =>
      by_cases hj : j = i
      · simp [shSets, hj, pv, hc.2.2]
      · simp [shSets, hj, pv]

theorem sh_finalize {n : Nat} (m : V → M) (c : ShCfg V n) (hc : c.Keeps m) (σ : ShState V n) (h : σ.Inv) :
    (∀ i, (σ.finalize c).1.key i = none) ∧ (∀ i, (σ.finalize c).1.flushed i = false) ∧
      ∀ i, last (shSets m i) (σ.finalize c).2 = pv m (σ.key i) := by
  obtain ⟨h1, _, h3⟩ := sh_flush m c hc σ h
  exact ⟨h1, fun _ => rfl, h3⟩

end Verif.Handler
