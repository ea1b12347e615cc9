import Verif.MathFn.Spec
import Mathlib.Tactic.Linarith
import Mathlib.Tactic.FieldSimp
import Mathlib.Tactic.Ring
import Mathlib.Tactic.Common
/-!
# Math functions: the numeric functions
-/
set_option linter.unusedSectionVars false
namespace Verif.MathFn

variable {K : Type} [Field K] [LinearOrder K] [IsStrictOrderedRing K] [FloorRing K]

/-- What is needed of the square root function. -/
structure SqrtLaws (sqrt : K → K) : Prop where
  one : sqrt 1 = 1
  scale : ∀ k y, 0 ≤ k → 0 ≤ y → sqrt (k * k * y) = k * sqrt y

theorem pxPer_unit (ρ : Env K) (a : AbsUnit) : (pxPer a : K) = ρ.unit (.abs a) := by
  cases a <;> simp only [pxPer]
  · exact ρ.px.symm
  · exact ρ.inch.symm
  · have := ρ.cm; field_simp; linarith
  · have := ρ.mm; field_simp; linarith
  · have := ρ.q; field_simp; linarith
  · have := ρ.pt; field_simp; linarith
  · have := ρ.pc; field_simp; linarith

theorem toPx_eval (ρ : Env K) (u : Unit) (x y : K) (h : toPx u x = some y) : y = x * ρ.unit u := by
  cases u with
  | abs a => simp only [toPx, Option.some.injEq] at h; rw [← h, pxPer_unit ρ]
  | rel n => simp [toPx] at h

theorem sgn_eq (x : K) : sgn x = cssSign x := by
  unfold sgn cssSign
  rcases lt_trichotomy x 0 with h | h | h
  · simp [h, h.ne, h.le]
  · simp [h]
  · simp [h, h.ne', not_lt.2 h.le]

theorem cssSign_scale (x k : K) (hk : 0 < k) : cssSign (x * k) = cssSign x := by
  unfold cssSign
  rcases lt_trichotomy x 0 with h | h | h
  · have := mul_neg_of_neg_of_pos h hk
    simp [this, h, not_lt.2 this.le, not_lt.2 h.le]
  · simp [h]
  · have := mul_pos h hk
    simp [this, h]

/-! ### Rounding -/

/-- Not a negative number half way between two integers. -/
def NoNegTie (v : K) : Prop := v < 0 → v - ⌊v⌋ ≠ 1 / 2

theorem roundHalf_eq (v : K) (h : NoNegTie v) :
    roundHalf v = if v - ⌊v⌋ < ⌈v⌉ - v then (⌊v⌋ : K) else (⌈v⌉ : K) := by
  have hf0 : (⌊v⌋ : K) ≤ v := Int.floor_le v
  have hf1 : v < (⌊v⌋ : K) + 1 := Int.lt_floor_add_one v
  rcases eq_or_lt_of_le hf0 with he | hlt
  · -- an integer
    have hc : (⌈v⌉ : K) = v := by rw [← he]; simp
    have hr : roundHalf v = v := by
      unfold roundHalf
      split
      · have : ⌊v + 1 / 2⌋ = ⌊v⌋ := by
          rw [Int.floor_eq_iff]
          constructor <;> [linarith; skip]
          linarith
        rw [this]; exact he
      · have : ⌈v - 1 / 2⌉ = ⌊v⌋ := by
          rw [Int.ceil_eq_iff]
          constructor <;> linarith
        rw [this]; exact he
    rw [hr, hc, he]
    simp
  · have hc : ⌈v⌉ = ⌊v⌋ + 1 := by
      rw [Int.ceil_eq_iff]
      push_cast
      constructor <;> linarith
    have hc' : (⌈v⌉ : K) = ⌊v⌋ + 1 := by rw [hc]; push_cast; rfl
    rw [hc']
    unfold roundHalf
    rcases lt_trichotomy (v - ⌊v⌋) (1 / 2) with hl | hm | hg
    · rw [if_pos (show v - ⌊v⌋ < (⌊v⌋ : K) + 1 - v by linarith)]
      split
      · have : ⌊v + 1 / 2⌋ = ⌊v⌋ := by
          rw [Int.floor_eq_iff]; constructor <;> linarith
        rw [this]
      · have : ⌈v - 1 / 2⌉ = ⌊v⌋ := by
          rw [Int.ceil_eq_iff]; constructor <;> linarith
        rw [this]
    · rw [if_neg (show ¬ v - ⌊v⌋ < (⌊v⌋ : K) + 1 - v by linarith)]
      split
      · have : ⌊v + 1 / 2⌋ = ⌊v⌋ + 1 := by
          rw [Int.floor_eq_iff]; push_cast; constructor <;> linarith
        rw [this]; push_cast; rfl
      · rename_i hn
        exact absurd hm (h (not_le.1 hn))
    · rw [if_neg (show ¬ v - ⌊v⌋ < (⌊v⌋ : K) + 1 - v by linarith)]
      split
      · have : ⌊v + 1 / 2⌋ = ⌊v⌋ + 1 := by
          rw [Int.floor_eq_iff]; push_cast; constructor <;> linarith
        rw [this]; push_cast; rfl
      · have : ⌈v - 1 / 2⌉ = ⌊v⌋ + 1 := by
          rw [Int.ceil_eq_iff]; push_cast; constructor <;> linarith
        rw [this]; push_cast; rfl

theorem trunc_eq (v : K) :
    trunc v = if |(⌊v⌋ : K)| < |(⌈v⌉ : K)| then (⌊v⌋ : K) else (⌈v⌉ : K) := by
  have hfc : (⌊v⌋ : K) ≤ ⌈v⌉ := (Int.floor_le v).trans (Int.le_ceil v)
  unfold trunc
  split
  · rename_i hv
    have h0 : (0 : K) ≤ ⌊v⌋ := by exact_mod_cast Int.floor_nonneg.2 hv
    rw [abs_of_nonneg h0, abs_of_nonneg (h0.trans hfc)]
    split
    · rfl
    · exact le_antisymm hfc (not_lt.1 ‹_›)
  · rename_i hv
    have h0 : (⌈v⌉ : K) ≤ 0 := by
      have : ⌈v⌉ ≤ 0 := Int.ceil_le.2 (by push_cast; exact (not_le.1 hv).le)
      exact_mod_cast this
    rw [abs_of_nonpos h0, abs_of_nonpos (hfc.trans h0), if_neg]
    linarith

/-- `round()` is right for a positive step if the value is not negative and half way between two
multiples (to the nearest). -/
theorem round_correct (s : Strategy) (a b : K) (hb : 0 < b) (h : s = .nearest → NoNegTie (a / b)) :
    round s a b = cssRound s a b := by
  have hab : |b| = b := abs_of_pos hb
  cases s with
  | up => simp [round, cssRound, hab]
  | down => simp [round, cssRound, hab]
  | nearest =>
    simp only [round, cssRound, hab]
    rw [roundHalf_eq _ (h rfl)]
    have key : (a - ⌊a / b⌋ * b < ⌈a / b⌉ * b - a) ↔
        (a / b - ⌊a / b⌋ < ⌈a / b⌉ - a / b) := by
      have ha : a = a / b * b := by field_simp
      constructor
      · intro hx
        by_contra hn
        have := mul_le_mul_of_nonneg_right (not_lt.1 hn) hb.le
        rw [sub_mul, sub_mul, ← ha] at this
        linarith
      · intro hx
        have := mul_lt_mul_of_pos_right hx hb
        rw [sub_mul, sub_mul, ← ha] at this
        exact this
    by_cases hx : a / b - ⌊a / b⌋ < ⌈a / b⌉ - a / b
    · rw [if_pos hx, if_pos (key.2 hx)]
    · rw [if_neg hx, if_neg (mt key.1 hx)]
  | toZero =>
    simp only [round, cssRound, hab]
    rw [trunc_eq]
    have key : |(⌊a / b⌋ : K) * b| < |(⌈a / b⌉ : K) * b| ↔ |(⌊a / b⌋ : K)| < |(⌈a / b⌉ : K)| := by
      rw [abs_mul, abs_mul, hab]
      exact mul_lt_mul_iff_of_pos_right hb
    by_cases hx : |(⌊a / b⌋ : K)| < |(⌈a / b⌉ : K)|
    · rw [if_pos hx, if_pos (key.2 hx)]
    · rw [if_neg hx, if_neg (mt key.1 hx)]

theorem frem_eq (a b : K) : frem a b = cssRem a b := by
  unfold frem cssRem trunc
  split <;> rfl

theorem modulo_eq (a b : K) : modulo a b = cssMod a b := by
  by_cases hb : b = 0
  · subst hb
    simp [modulo, cssMod, frem]
  · unfold modulo cssMod
    set v := a / b with hv
    have ha : a = v * b := by rw [hv]; field_simp
    obtain ⟨n, hn⟩ : ∃ n : Int, trunc v = (n : K) := by
      unfold trunc
      split
      · exact ⟨_, rfl⟩
      · exact ⟨_, rfl⟩
    have htb : -1 < v - trunc v := by
      unfold trunc
      split
      · have := Int.floor_le v; linarith
      · have := Int.ceil_lt_add_one v; linarith
    have h1 : frem a b = b * (v - n) := by
      unfold frem
      rw [← hv, hn, ha]; ring
    have h2 : (frem a b + b) / b = v - n + 1 := by rw [h1]; field_simp
    have h3 : trunc ((frem a b + b) / b) = ((⌊v⌋ : K) - n + 1) := by
      rw [h2]
      unfold trunc
      rw [if_pos (by rw [hn] at htb; linarith)]
      have : v - (n : K) + 1 = v + ((1 - n : Int) : K) := by push_cast; ring
      rw [this, Int.floor_add_intCast]
      push_cast; ring
    rw [show frem (frem a b + b) b = (frem a b + b) - b * trunc ((frem a b + b) / b) from rfl, h3, h1, ha]
    ring

/-! ### Scaling -/

/-- The operation commutes with a change of the unit. -/
def Homogeneous (op : K → K → K) : Prop := ∀ x y k, 0 ≤ k → op (x * k) (y * k) = op x y * k

theorem div_scale (x y k : K) (hk : k ≠ 0) : x * k / (y * k) = x / y := mul_div_mul_right x y hk

theorem round_homogeneous (s : Strategy) : Homogeneous (round s : K → K → K) := by
  intro x y k hk
  rcases hk.eq_or_lt with rfl | hk
  · cases s <;> simp [round]
  · cases s <;> simp only [round, div_scale x y k hk.ne'] <;> ring

theorem frem_homogeneous : Homogeneous (frem : K → K → K) := by
  intro x y k hk
  rcases hk.eq_or_lt with rfl | hk
  · simp [frem]
  · simp only [frem, div_scale x y k hk.ne']; ring

theorem modulo_homogeneous : Homogeneous (modulo : K → K → K) := by
  intro x y k hk
  unfold modulo
  rw [frem_homogeneous x y k hk, ← add_mul, frem_homogeneous _ _ k hk]

theorem hypot_homogeneous (sqrt : K → K) (hs : SqrtLaws sqrt) :
    Homogeneous (fun x y : K => sqrt (x * x + y * y)) := by
  intro x y k hk
  have : x * k * (x * k) + y * k * (y * k) = k * k * (x * x + y * y) := by ring
  simp only [this]
  rw [hs.scale _ _ hk (by nlinarith [mul_self_nonneg x, mul_self_nonneg y]), mul_comm]

end Verif.MathFn
