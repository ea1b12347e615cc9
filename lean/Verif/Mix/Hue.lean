import Verif.Mix.Spec
/-! Hues. -/
namespace Verif.Mix

theorem rem360_same (x : ℝ) : SameAngle (rem360 x) x := by
  unfold rem360
  split
  · exact ⟨-⌊x / 360⌋, by push_cast; ring⟩
  · exact ⟨-⌈x / 360⌉, by push_cast; ring⟩

theorem rem360_nonneg {x : ℝ} (h : 0 ≤ x) : 0 ≤ rem360 x ∧ rem360 x < 360 := by
  unfold rem360
  rw [if_pos (by positivity)]
  have h1 := Int.floor_le (x / 360)
  have h2 := Int.lt_floor_add_one (x / 360)
  constructor <;> linarith

theorem rem360_abs (x : ℝ) : |rem360 x| < 360 := by
  unfold rem360
  split
  · have h1 := Int.floor_le (x / 360)
    have h2 := Int.lt_floor_add_one (x / 360)
    rw [abs_lt]; constructor <;> linarith
  · have h1 := Int.le_ceil (x / 360)
    have h2 := Int.ceil_lt_add_one (x / 360)
    rw [abs_lt]; constructor <;> linarith

theorem same_trans {x y z : ℝ} (h : SameAngle x y) (h' : SameAngle y z) : SameAngle x z := by
  obtain ⟨k, rfl⟩ := h; obtain ⟨l, rfl⟩ := h'; exact ⟨l + k, by push_cast; ring⟩

theorem same_symm {x y : ℝ} (h : SameAngle x y) : SameAngle y x := by
  obtain ⟨k, rfl⟩ := h; exact ⟨-k, by push_cast; ring⟩

theorem norm360_same (x : ℝ) : SameAngle (norm360 x) x := by
  refine same_trans (rem360_same _) ?_
  obtain ⟨k, h⟩ := rem360_same x
  exact ⟨k + 1, by push_cast; linarith⟩

theorem norm360_range (x : ℝ) : 0 ≤ norm360 x ∧ norm360 x < 360 :=
  rem360_nonneg (by have := abs_lt.1 (rem360_abs x); linarith)

theorem same_eq {x y a : ℝ} (h : SameAngle x a) (h' : SameAngle y a) (hx : 0 ≤ x) (hx' : x < 360) (hy : 0 ≤ y) (hy' : y < 360) : x = y := by
  obtain ⟨k, rfl⟩ := h; obtain ⟨l, rfl⟩ := h'
  have h1 : (k : ℝ) < l + 1 := by linarith
  have h2 : (l : ℝ) < k + 1 := by linarith
  have h1 : k < l + 1 := by exact_mod_cast h1
  have h2 : l < k + 1 := by exact_mod_cast h2
  have : k = l := by omega
  rw [this]

theorem adjust_fix (m : HueMethod) (a b : ℝ) : FixUp m a b (m.adjust a b).1 (m.adjust a b).2 := by
  have ha := norm360_same a
  have hb := norm360_same b
  obtain ⟨a0, a1⟩ := norm360_range a
  obtain ⟨b0, b1⟩ := norm360_range b
  cases m <;> simp only [HueMethod.adjust, reduceCtorEq, if_false, if_true]
  · split
    · exact .first (by simp) ha hb a0 a1 b0 b1 (by simp only [Allowed]; intro h; linarith [h.2]) (by simp only [Allowed]; constructor <;> linarith)
    split
    · exact .second (by simp) ha hb a0 a1 b0 b1 (by simp only [Allowed]; intro h; linarith [h.1]) (by simp only [Allowed]; constructor <;> linarith)
    · exact .keep (by simp) ha hb a0 a1 b0 b1 (by simp only [Allowed]; constructor <;> linarith)
  · split
    · rename_i h
      exact .first (by simp) ha hb a0 a1 b0 b1 (by simp only [Allowed]; rintro (h' | ⟨h', _⟩ | ⟨_, h'⟩) <;> linarith [h.1, h.2])
        (.inr (.inr ⟨by linarith [h.1], by linarith [h.2]⟩))
    split
    · rename_i h
      exact .second (by simp) ha hb a0 a1 b0 b1 (by simp only [Allowed]; rintro (h' | ⟨h', _⟩ | ⟨_, h'⟩) <;> linarith [h.1, h.2])
        (.inr (.inl ⟨by linarith [h.1], by linarith [h.2]⟩))
    · rename_i h1 h2
      refine .keep (by simp) ha hb a0 a1 b0 b1 ?_
      simp only [Allowed]
      rcases lt_trichotomy (norm360 b - norm360 a) 0 with h | h | h
      · have := not_lt.1 fun h' => h2 ⟨h', h⟩
        exact .inr (.inr ⟨by linarith, this⟩)
      · exact .inl h
      · have := not_lt.1 fun h' => h1 ⟨h, h'⟩
        exact .inr (.inl ⟨this, by linarith⟩)
  · split
    · exact .second (by simp) ha hb a0 a1 b0 b1 (by simp only [Allowed]; intro h; linarith [h.1]) (by simp only [Allowed]; constructor <;> linarith)
    · exact .keep (by simp) ha hb a0 a1 b0 b1 (by simp only [Allowed]; constructor <;> linarith)
  · split
    · exact .first (by simp) ha hb a0 a1 b0 b1 (by simp only [Allowed]; intro h; linarith [h.2]) (by simp only [Allowed]; constructor <;> linarith)
    · exact .keep (by simp) ha hb a0 a1 b0 b1 (by simp only [Allowed]; constructor <;> linarith)
  · exact .specified

/-- The fix-up of the specification has one result. -/
theorem fix_unique {m : HueMethod} {a b x y x' y' : ℝ} (h : FixUp m a b x y) (h' : FixUp m a b x' y') : x = x' ∧ y = y' := by
  have contra : ∀ {u v : ℝ}, 0 ≤ u → u < 360 → 0 ≤ v → v < 360 → m ≠ .specified → ¬ Allowed m (v - u) → Allowed m (v - (u + 360)) → Allowed m (v + 360 - u) → False := by
    intro u v h1 h2 h3 h4 hm hn hx hy
    cases m <;> simp only [Allowed] at hn hx hy
    · exact hn ⟨by linarith [hx.1], by linarith [hy.2]⟩
    · rcases lt_trichotomy (v - u) 0 with h | h | h
      · rcases hx with hx | ⟨hx, _⟩ | ⟨hx, _⟩ <;> linarith
      · exact hn (.inl h)
      · rcases hy with hy | ⟨_, hy⟩ | ⟨_, hy⟩ <;> linarith
    · linarith [hx.1]
    · linarith [hy.2]
    · exact hm rfl
  cases h with
  | specified => cases h' with
    | specified => exact ⟨rfl, rfl⟩
    | _ hm => exact absurd rfl hm
  | keep hm ha hb a0 a1 b0 b1 hk => cases h' with
    | specified => exact absurd rfl hm
    | keep _ ha' hb' a0' a1' b0' b1' hk' => exact ⟨same_eq ha ha' a0 a1 a0' a1', same_eq hb hb' b0 b1 b0' b1'⟩
    | _ _ ha' hb' a0' a1' b0' b1' hn =>
      rw [same_eq ha ha' a0 a1 a0' a1', same_eq hb hb' b0 b1 b0' b1'] at hk; exact absurd hk hn
  | first hm ha hb a0 a1 b0 b1 hn hk => cases h' with
    | specified => exact absurd rfl hm
    | keep _ ha' hb' a0' a1' b0' b1' hk' =>
      rw [same_eq ha ha' a0 a1 a0' a1', same_eq hb hb' b0 b1 b0' b1'] at hn; exact absurd hk' hn
    | first _ ha' hb' a0' a1' b0' b1' hn' hk' => rw [same_eq ha ha' a0 a1 a0' a1', same_eq hb hb' b0 b1 b0' b1']; exact ⟨rfl, rfl⟩
    | second _ ha' hb' a0' a1' b0' b1' hn' hk' =>
      rw [same_eq ha ha' a0 a1 a0' a1', same_eq hb hb' b0 b1 b0' b1'] at hk
      exact (contra a0' a1' b0' b1' hm hn' hk hk').elim
  | second hm ha hb a0 a1 b0 b1 hn hk => cases h' with
    | specified => exact absurd rfl hm
    | keep _ ha' hb' a0' a1' b0' b1' hk' =>
      rw [same_eq ha ha' a0 a1 a0' a1', same_eq hb hb' b0 b1 b0' b1'] at hn; exact absurd hk' hn
    | second _ ha' hb' a0' a1' b0' b1' hn' hk' => rw [same_eq ha ha' a0 a1 a0' a1', same_eq hb hb' b0 b1 b0' b1']; exact ⟨rfl, rfl⟩
    | first _ ha' hb' a0' a1' b0' b1' hn' hk' =>
      rw [same_eq ha ha' a0 a1 a0' a1', same_eq hb hb' b0 b1 b0' b1'] at hk
      exact (contra a0' a1' b0' b1' hm hn' hk' hk).elim

/-- **C89.** Before hues are mixed, they are adjusted as the method says: each stays the same angle, between 0 and 720 degrees, their difference is one the method allows, and no turn
is added when none is needed. This determines the two angles. -/
theorem C89_hue (m : HueMethod) (a b x y : ℝ) :
    FixUp m a b x y ↔ m.interpolate (some a) (some b) = (some x, some y) := by
  constructor
  · intro h
    obtain ⟨h1, h2⟩ := fix_unique (adjust_fix m a b) h
    simp [HueMethod.interpolate, h1, h2]
  · intro h
    simp only [HueMethod.interpolate, Prod.mk.injEq, Option.some.injEq] at h
    rw [← h.1, ← h.2]; exact adjust_fix m a b

/-- **C89.** The difference of the adjusted hues is one the method allows, and each is the angle that was given. -/
theorem C89_difference (m : HueMethod) (a b : ℝ) : ∃ x y, m.interpolate (some a) (some b) = (some x, some y) ∧ SameAngle x a ∧ SameAngle y b ∧ Allowed m (y - x) := by
  refine ⟨_, _, rfl, ?_⟩
  have key : ∀ {x y}, FixUp m a b x y → SameAngle x a ∧ SameAngle y b ∧ Allowed m (y - x) := by
    intro x y h
    cases h with
    | specified => exact ⟨⟨0, by simp⟩, ⟨0, by simp⟩, trivial⟩
    | keep hm ha hb _ _ _ _ hk => exact ⟨ha, hb, hk⟩
    | first hm ha hb _ _ _ _ _ hk => exact ⟨same_trans ⟨1, by simp⟩ ha, hb, hk⟩
    | second hm ha hb _ _ _ _ _ hk => exact ⟨ha, same_trans ⟨1, by simp⟩ hb, hk⟩
  exact key (adjust_fix m a b)

/-- Non-vacuity: from 350 to -340 degrees (that is, 20 degrees), the shorter way goes from 350 to 380 degrees. -/
example : HueMethod.shorter.interpolate (some 350) (some (-340)) = (some 350, some 380) := by
  rw [← C89_hue]
  have := FixUp.second (m := .shorter) (a := 350) (b := -340) (x := 350) (y := 20) (by simp) ⟨0, by norm_num⟩ ⟨1, by norm_num⟩ (by norm_num) (by norm_num) (by norm_num) (by norm_num)
    (by simp only [Allowed]; norm_num) (by simp only [Allowed]; norm_num)
  rw [show (20 : ℝ) + 360 = 380 by norm_num] at this
  exact this

end Verif.Mix
