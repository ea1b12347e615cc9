import Verif.UniRange.Spec
import Mathlib.Data.Nat.Bitwise
import Mathlib.Tactic.Ring
import Mathlib.Tactic.IntervalCases
/-!
C115: `unicode-range` is printed as a range of the same code points.
-/
namespace Verif.UniRange
open Spec

theorem hexDigit_G {d : Nat} (h : d < 16) : Digit (hexDigit d) d := by
  by_cases h1 : d < 10
  · refine .dec h1 ?_
    simp only [hexDigit, h1, if_true]
    interval_cases d <;> rfl
  · refine .upper (by omega) h ?_
    simp only [hexDigit, h1, if_false]
    interval_cases d <;> first | rfl | (exfalso; omega)

theorem hex_G (n : Nat) : Hex (hex n) n := by
  induction n using Nat.strongRecOn with
  | _ n ih =>
    rw [hex]
    split
    · next h =>
      have := Hex.snoc .nil (hexDigit_G h)
      simpa using this
    · next h =>
      have := Hex.snoc (ih (n / 16) (by omega)) (hexDigit_G (d := n % 16) (by omega))
      rwa [show n / 16 * 16 + n % 16 = n by omega] at this

theorem hex_length {k n : Nat} (h : n < 16 ^ k) (hk : 1 ≤ k) : 1 ≤ (hex n).length ∧ (hex n).length ≤ k := by
  induction k generalizing n with
  | zero => omega
  | succ k ih =>
    rw [hex]
    split
    · simp
    · next h16 =>
      have hk1 : 1 ≤ k := by
        by_contra hk0
        have : k = 0 := by omega
        subst this
        simp at h
        omega
      have hlt : n / 16 < 16 ^ k := by
        rw [Nat.div_lt_iff_lt_mul (by decide)]
        rwa [← pow_succ]
      have := ih hlt hk1
      simp
      omega

theorem and_nibble (a k : Nat) : a &&& (0xf <<< (4 * k)) = (a / 16 ^ k % 16) * 16 ^ k := by
  have h16 : (16 : Nat) ^ k = 2 ^ (4 * k) := by rw [pow_mul]; norm_num
  rw [h16, ← Nat.shiftRight_eq_div_pow, show (16 : Nat) = 2 ^ 4 from rfl, ← Nat.and_two_pow_sub_one_eq_mod, ← Nat.shiftLeft_eq]
  apply Nat.eq_of_testBit_eq
  intro i
  simp only [Nat.testBit_and, Nat.testBit_shiftLeft, Nat.testBit_shiftRight]
  by_cases hi : 4 * k ≤ i
  · simp only [hi, decide_true, Bool.true_and]
    rw [show 4 * k + (i - 4 * k) = i by omega]
  · simp [hi]

/-- Above the digit that is found the numbers are equal. -/
theorem firstDiff_spec {a b : Nat} (k : Nat) (h : a / 16 ^ (k + 1) = b / 16 ^ (k + 1)) :
    ∃ j ≤ k, firstDiff a b k = 4 * j ∧ a / 16 ^ (j + 1) = b / 16 ^ (j + 1) := by
  induction k with
  | zero => exact ⟨0, le_refl _, rfl, h⟩
  | succ k ih =>
    simp only [firstDiff]
    split
    · exact ⟨k + 1, le_refl _, rfl, h⟩
    · next he =>
      simp only [ne_eq, not_not] at he
      rw [and_nibble, and_nibble] at he
      have hd : a / 16 ^ (k + 1) % 16 = b / 16 ^ (k + 1) % 16 := Nat.eq_of_mul_eq_mul_right (by positivity) he
      have hq : a / 16 ^ (k + 1) = b / 16 ^ (k + 1) := by
        rw [pow_succ (n := k + 1), ← Nat.div_div_eq_div_mul, ← Nat.div_div_eq_div_mul] at h
        omega
      obtain ⟨j, hj, h1, h2⟩ := ih hq
      exact ⟨j, by omega, h1, h2⟩

/-- Every range that can be written is printed as a text for the same code points. -/
theorem C115_print (text : Str) (r : URange) (h : URangeG text r) : URangeG (print r) r := by
  have hr : r.start ≤ r.stop ∧ r.stop ≤ 0x10FFFF := by
    cases h with
    | single => exact ⟨le_refl _, by assumption⟩
    | wild => exact ⟨by simp, by assumption⟩
    | range => exact ⟨by assumption, by assumption⟩
  clear h
  obtain ⟨a, b⟩ := r
  simp only at hr
  have ha : a < 16 ^ 6 := by norm_num; omega
  have hb : b < 16 ^ 6 := by norm_num; omega
  obtain ⟨j, hj, h1, h2⟩ := firstDiff_spec (a := a) (b := b) 6 (by rw [Nat.div_eq_of_lt, Nat.div_eq_of_lt] <;> norm_num <;> omega)
  have hpow : (1 <<< (4 * j + 4) : Nat) = 16 ^ (j + 1) := by
    rw [Nat.shiftLeft_eq, one_mul, show 4 * j + 4 = 4 * (j + 1) by ring, pow_mul]; norm_num
  have hand : ∀ x : Nat, x &&& (16 ^ (j + 1) - 1) = x % 16 ^ (j + 1) := by
    intro x
    rw [show (16 : Nat) ^ (j + 1) = 2 ^ (4 * (j + 1)) by rw [pow_mul]; norm_num]
    exact Nat.and_two_pow_sub_one_eq_mod x _
  have hrange : URangeG (cs!"U+" ++ hex a ++ '-' :: hex b) ⟨a, b⟩ :=
    .range (.inl rfl) (hex_G a) (hex_length ha (by decide)).1 (hex_length ha (by decide)).2 (hex_G b) (hex_length hb (by decide)).1
      (hex_length hb (by decide)).2 hr.1 hr.2
  have hsingle : a = b → URangeG (cs!"U+" ++ hex a) ⟨a, b⟩ := by
    rintro rfl
    exact .single (.inl rfl) (hex_G a) (hex_length ha (by decide)).1 (hex_length ha (by decide)).2 hr.2
  simp only [print, h1, hpow, hand]
  split
  · next hc =>
    obtain ⟨hne, hlo, hhi⟩ := hc
    have hm := Nat.div_add_mod a (16 ^ (j + 1))
    have hm' := Nat.div_add_mod b (16 ^ (j + 1))
    have hpos : 0 < (16 : Nat) ^ (j + 1) := by positivity
    have hav : a = a / 16 ^ (j + 1) * 16 ^ (j + 1) := by rw [mul_comm]; omega
    have hbv : b = a / 16 ^ (j + 1) * 16 ^ (j + 1) + (16 ^ (j + 1) - 1) := by rw [h2, mul_comm]; omega
    have hhigh : (a - a % 16 ^ (j + 1)) >>> (4 * j + 4) = a / 16 ^ (j + 1) := by
      rw [hlo, Nat.sub_zero, Nat.shiftRight_eq_div_pow, show 4 * j + 4 = 4 * (j + 1) by ring, pow_mul]
      norm_num
    rw [hhigh, show (4 * j + 4) / 4 = j + 1 by omega]
    have hj5 : j + 1 ≤ 5 := by
      by_contra hj6
      have : (16 : Nat) ^ 6 ≤ 16 ^ (j + 1) := Nat.pow_le_pow_right (by decide) (by omega)
      have : 16 ^ (j + 1) - 1 ≤ b := by rw [← hhi]; exact Nat.mod_le _ _
      norm_num at *
      omega
    generalize hv : a / 16 ^ (j + 1) = v at *
    rw [hav, hbv]
    have hlen : ∀ h : Str, Hex h v → h.length + (j + 1) ≤ 6 →
        URangeG (cs!"U+" ++ h ++ List.replicate (j + 1) '?') ⟨v * 16 ^ (j + 1), v * 16 ^ (j + 1) + (16 ^ (j + 1) - 1)⟩ := by
      intro h hh hl
      exact .wild (.inl rfl) hh (by omega) hl (by rw [← hbv]; exact hr.2)
    split
    · refine hlen _ (hex_G v) ?_
      have : v < 16 ^ (6 - (j + 1)) := by
        rw [← hv, Nat.div_lt_iff_lt_mul hpos, ← pow_add, show 6 - (j + 1) + (j + 1) = 6 by omega]
        exact ha
      have := (hex_length this (by omega)).2
      omega
    · next hz =>
      have hz : v = 0 := by omega
      subst hz
      exact hlen [] .nil (by simp; omega)
  · split
    · exact hrange
    · next h => exact hsingle (by simpa using Eq.symm (not_not.1 h))

/-! ### The grammar is unambiguous -/

theorem Digit.facts {c d} (h : Digit c d) : c ≠ '?' ∧ c ≠ '-' := by
  constructor <;> rintro rfl <;> cases h with
  | dec h1 h2 => simp at h2; try omega
  | upper h1 h2 h3 => simp at h3; try omega
  | lower h1 h2 h3 => simp at h3; try omega

theorem Digit.unique {c d d'} (h : Digit c d) (h' : Digit c d') : d = d' := by
  cases h <;> cases h' <;> simp at * <;> omega

theorem Hex.facts {h v} (hh : Hex h v) : ∀ c ∈ h, c ≠ '?' ∧ c ≠ '-' := by
  induction hh with
  | nil => simp
  | snoc _ hd ih =>
    intro c hc
    rcases List.mem_append.1 hc with hc | hc
    · exact ih c hc
    · rw [List.mem_singleton.1 hc]; exact Digit.facts hd

theorem Hex.unique {h v v'} (hh : Hex h v) (hh' : Hex h v') : v = v' := by
  induction hh generalizing v' with
  | nil =>
    generalize he : ([] : Str) = s at hh'
    cases hh' with
    | nil => rfl
    | snoc => simp at he
  | @snoc s v c d hs hd ih =>
    generalize he : s ++ [c] = t at hh'
    cases hh' with
    | nil => simp at he
    | snoc hs' hd' =>
      obtain ⟨rfl, hc⟩ := List.append_inj' he rfl
      cases hc
      rw [ih hs', Digit.unique hd hd']

theorem split_hex {h v rest h' v' rest'} (hh : Hex h v) (hh' : Hex h' v') (hr : ∀ c, rest.head? = some c → c = '?' ∨ c = '-')
    (hr' : ∀ c, rest'.head? = some c → c = '?' ∨ c = '-') (he : h ++ rest = h' ++ rest') : h = h' ∧ rest = rest' := by
  have key : ∀ (h rest : Str), (∀ c ∈ h, c ≠ '?' ∧ c ≠ '-') → (∀ c, rest.head? = some c → c = '?' ∨ c = '-') →
      (h ++ rest).takeWhile (fun c => c ≠ '?' && c ≠ '-') = h ∧ (h ++ rest).dropWhile (fun c => c ≠ '?' && c ≠ '-') = rest := by
    intro h rest hh hr
    have hall : ∀ c ∈ h, (fun c => decide (c ≠ '?') && decide (c ≠ '-')) c = true := by
      intro c hc
      simpa using hh c hc
    rw [List.takeWhile_append_of_pos hall, List.dropWhile_append_of_pos hall]
    cases rest with
    | nil => simp
    | cons c rest =>
      rcases hr c rfl with rfl | rfl <;> simp
  have k1 := key h rest (Hex.facts hh) hr
  have k2 := key h' rest' (Hex.facts hh') hr'
  rw [he] at k1
  exact ⟨k1.1.symm.trans k2.1, k1.2.symm.trans k2.2⟩

theorem replicate_q_head {q : Nat} (c : Char) (h : (List.replicate q '?').head? = some c) : c = '?' ∨ c = '-' := by
  cases q with
  | zero => simp at h
  | succ q => simp [List.replicate_succ] at h; exact .inl h.symm

/-- A text stands for one range only. -/
theorem C115_unique (text : Str) (r r' : URange) (h : URangeG text r) (h' : URangeG text r') : r = r' := by
  have form : ∀ r, URangeG text r → ∃ u hx v rest, text = u :: '+' :: (hx ++ rest) ∧ Hex hx v ∧
      (∀ c, rest.head? = some c → c = '?' ∨ c = '-') ∧
      ((rest = [] ∧ r = ⟨v, v⟩) ∨ (∃ q, 1 ≤ q ∧ rest = List.replicate q '?' ∧ r = ⟨v * 16 ^ q, v * 16 ^ q + (16 ^ q - 1)⟩) ∨
        ∃ h' v', Hex h' v' ∧ rest = '-' :: h' ∧ r = ⟨v, v'⟩) := by
    intro r h
    cases h with
    | @single u hx v hu hh => exact ⟨u, hx, v, [], by simp, hh, by simp, .inl ⟨rfl, rfl⟩⟩
    | @wild u hx v q hu hh hq => exact ⟨u, hx, v, _, rfl, hh, replicate_q_head, .inr (.inl ⟨q, hq, rfl, rfl⟩)⟩
    | @range u hx v hy v' hu hh _ _ hh' => exact ⟨u, hx, v, _, rfl, hh, by simp, .inr (.inr ⟨hy, v', hh', rfl, rfl⟩)⟩
  obtain ⟨u, hx, v, rest, he, hh, hr, hc⟩ := form r h
  obtain ⟨u', hx', v', rest', he', hh', hr', hc'⟩ := form r' h'
  rw [he] at he'
  simp only [List.cons.injEq, true_and] at he'
  obtain ⟨rfl, rfl⟩ := split_hex hh hh' hr hr' he'.2
  have := Hex.unique hh hh'
  subst this
  rcases hc with ⟨e, rfl⟩ | ⟨q, hq, e, rfl⟩ | ⟨h2, v2, hh2, e, rfl⟩ <;> rcases hc' with ⟨e', rfl⟩ | ⟨q', hq', e', rfl⟩ | ⟨h3, v3, hh3, e', rfl⟩ <;>
    rw [e] at e'
  · obtain ⟨q, rfl⟩ : ∃ k, q' = k + 1 := ⟨q' - 1, by omega⟩
    simp [List.replicate_succ] at e'
  · simp at e'
  · obtain ⟨q, rfl⟩ : ∃ k, q = k + 1 := ⟨q - 1, by omega⟩
    simp [List.replicate_succ] at e'
  · have := congrArg List.length e'
    simp at this
    subst this
    rfl
  · obtain ⟨q, rfl⟩ : ∃ k, q = k + 1 := ⟨q - 1, by omega⟩
    simp [List.replicate_succ] at e'
  · simp at e'
  · obtain ⟨q, rfl⟩ : ∃ k, q' = k + 1 := ⟨q' - 1, by omega⟩
    simp [List.replicate_succ] at e'
  · cases e'
    rw [Hex.unique hh2 hh3]

/-- `U+400-4FF`, `U+0-FF`, `U+100-2FF`, `U+A5`. -/
example : print ⟨0x400, 0x4FF⟩ = cs!"U+4??" ∧ print ⟨0, 0xFF⟩ = cs!"U+??" ∧ print ⟨0x100, 0x2FF⟩ = cs!"U+100-2FF" ∧
    print ⟨0xA5, 0xA5⟩ = cs!"U+A5" ∧ URangeG cs!"u+4??" ⟨0x400, 0x4FF⟩ := by
  refine ⟨by decide +kernel, by decide +kernel, by decide +kernel, by decide +kernel, ?_⟩
  have h : Hex cs!"4" 4 := Hex.snoc (s := []) (v := 0) (c := '4') (d := 4) .nil (.dec (by decide) rfl)
  exact URangeG.wild (h := cs!"4") (q := 2) (.inr rfl) h (by decide) (by decide) (by decide)

end Verif.UniRange
