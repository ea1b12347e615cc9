import Verif.Units.Spec
import Verif.MathFn.EvalProps
/-!
# Times, angles, percentages and numbers: theorems (C45, C60)
-/
namespace Verif.Units
open Verif.MathFn (Strategy cssRound cssMod cssRem cssSign minOf maxOf cmpK sgn Homogeneous SqrtLaws)

variable {K : Type} [Field K] [LinearOrder K] [IsStrictOrderedRing K] [FloorRing K] {F : Fns K}

/-! ### Operations on values -/

theorem amount_mul (k : K) (v : Val K) : amount F (v.mul k) = amount F v * k := by
  cases v <;> simp only [Val.mul, amount] <;> ring

theorem kind_mul (k : K) (v : Val K) : (v.mul k).kind = v.kind := by
  cases v <;> rfl

theorem toMs_amount (v : Val K) (h : v.kind = .time) : toMs v = amount F v := by
  cases v <;> simp_all [Val.kind, toMs, amount]

theorem toDegrees_amount (v : Val K) (h : v.kind = .angle) : toDegrees F v = amount F v := by
  cases v <;> simp_all [Val.kind, toDegrees, amount]
  · by_cases hp : F.pi = 0
    · simp [hp]
    · left; field_simp; ring
  · ring

theorem toRadians_amount (hpi : 0 < F.pi) (v : Val K) (h : v.kind = .angle) :
    toRadians F v = amount F v * (2 * F.pi / 360) := by
  have := hpi.ne'
  cases v <;> simp only [Val.kind, reduceCtorEq] at h <;> simp only [toRadians, amount]
  · ring
  · field_simp
  · ring
  · ring

theorem op_kind (f : K → K → K) (v w : Val K) (h : v.kind = w.kind) : (v.op F f w).kind = v.kind := by
  cases v <;> cases w <;> simp_all [Val.kind, Val.op]

/-- `Op::op` computes with amounts, if the operation does not depend on the unit. -/
theorem op_amount (hpi : 0 < F.pi) (f : K → K → K) (hf : Homogeneous f) (v w : Val K)
    (h : v.kind = w.kind) : amount F (v.op F f w) = f (amount F v) (amount F w) := by
  have h1 : (0 : K) ≤ 1000 := by norm_num
  have h2 : (0 : K) ≤ 360 / 400 := by norm_num
  have h3 : (0 : K) ≤ 360 := by norm_num
  have h4 : (0 : K) ≤ 360 / (2 * F.pi) := by positivity
  have g : ∀ v w : Val K, v.kind = .angle → w.kind = .angle →
      f (toDegrees F v) (toDegrees F w) = f (amount F v) (amount F w) := by
    intro v w hv hw
    rw [toDegrees_amount v hv, toDegrees_amount w hw]
  cases v <;> cases w <;> simp only [Val.kind, reduceCtorEq] at h <;> simp only [Val.op] <;>
    first
      | (simp only [amount]; done)
      | (simp only [amount]; rw [← hf _ _ _ h1]; done)
      | (simp only [amount]; rw [← hf _ _ _ h2]; done)
      | (simp only [amount]; rw [← hf _ _ _ h3]; done)
      | (simp only [amount]; rw [← hf _ _ _ h4]; done)
      | (rw [amount, g _ _ rfl rfl]; done)
      | skip
  · rename_i a b
    simp only [amount]
    rw [← hf _ _ _ h1, div_mul_cancel₀ b (by norm_num : (1000 : K) ≠ 0)]

theorem cmp_amount (v w : Val K) (h : v.kind = w.kind) :
    v.cmp F w = cmpK (amount F v) (amount F w) := by
  have g : ∀ v w : Val K, v.kind = .angle → w.kind = .angle →
      cmpK (toDegrees F v) (toDegrees F w) = cmpK (amount F v) (amount F w) := by
    intro v w hv hw
    rw [toDegrees_amount v hv, toDegrees_amount w hw]
  have g' : ∀ v w : Val K, v.kind = .time → w.kind = .time →
      cmpK (toMs v) (toMs w) = cmpK (amount F v) (amount F w) := by
    intro v w hv hw
    rw [toMs_amount (F := F) v hv, toMs_amount (F := F) w hw]
  cases v <;> cases w <;> simp only [Val.kind, reduceCtorEq] at h <;> simp only [Val.cmp] <;>
    first
      | exact g _ _ rfl rfl
      | exact g' _ _ rfl rfl
      | simp only [amount]

/-! ### Operations on results -/

/-- What a result stands for. -/
def semOf (F : Fns K) : Calc K → Option (Sem K)
  | .value v => some ⟨v.kind, amount F v⟩
  | .number x => some ⟨.num, x⟩
  | .sum | .func => none

theorem semOf_value (v : Val K) : semOf F (.value v) = some ⟨v.kind, amount F v⟩ := rfl
theorem semOf_number (x : K) : semOf F (.number x) = some ⟨.num, x⟩ := rfl
theorem semOf_sum : semOf F (.sum : Calc K) = none := rfl
theorem semOf_func : semOf F (.func : Calc K) = none := rfl

/-- The values in a result are of the given type. -/
def Calc.Of (t : Kind) : Calc K → Prop
  | .value v => v.kind = t
  | _ => True

theorem kind_ne_num (v : Val K) : v.kind ≠ .num := by cases v <;> simp [Val.kind]

theorem mul_Of (t : Kind) (k : K) (c : Calc K) (h : c.Of t) : (c.mul k).Of t := by
  cases c <;> simp only [Calc.mul] <;> try split
  all_goals simp_all [Calc.Of, kind_mul]

theorem semOf_mul (k : K) (c : Calc K) :
    semOf F (c.mul k) = (semOf F c).map fun s => ⟨s.ty, s.x * k⟩ := by
  cases c <;> simp only [Calc.mul] <;> try split
  all_goals simp_all [semOf, kind_mul, amount_mul]

theorem homogeneous_add : Homogeneous (fun x y : K => x + y) := fun x y k _ => (add_mul x y k).symm

theorem add_Of (t : Kind) (a b c : Calc K) (ha : a.Of t) (hb : b.Of t) (h : a.add F b = some c) : c.Of t := by
  cases a <;> cases b <;> simp only [Calc.add, reduceCtorEq, Option.some.injEq] at h <;> subst h <;>
    simp_all [Calc.Of, op_kind]

theorem semOf_add (hpi : 0 < F.pi) (t : Kind) (a b : Calc K) (ha : a.Of t) (hb : b.Of t) :
    (a.add F b).bind (semOf F) =
      (semOf F a).bind fun x => (semOf F b).bind fun y => same2 (· + ·) x y := by
  have hn := kind_ne_num (K := K)
  have hn' := fun v => (kind_ne_num (K := K) v).symm
  cases a <;> cases b <;> simp only [Calc.add, semOf_value, semOf_number, semOf_sum, semOf_func,
    Option.bind_some, Option.bind_none, same2, hn, hn', if_true, if_false]
  rename_i v w
  simp only [Calc.Of] at ha hb
  have h : v.kind = w.kind := by rw [hb, ha]
  rw [op_kind _ _ _ h, op_amount hpi _ homogeneous_add _ _ h, if_pos h]

theorem semOf_sub (hpi : 0 < F.pi) (t : Kind) (a b : Calc K) (ha : a.Of t) (hb : b.Of t) :
    (a.add F (b.mul (-1))).bind (semOf F) =
      (semOf F a).bind fun x => (semOf F b).bind fun y => same2 (· - ·) x y := by
  rw [semOf_add hpi t a _ ha (mul_Of t _ b hb), semOf_mul]
  cases semOf F a <;> cases semOf F b <;> simp [same2, sub_eq_add_neg]

theorem mkMul_Of (t : Kind) (a b c : Calc K) (ha : a.Of t) (hb : b.Of t) (h : mkMul a b = some c) : c.Of t := by
  cases b <;> cases a <;> simp only [mkMul, reduceCtorEq, Option.some.injEq] at h <;> subst h <;>
    first | exact mul_Of t _ _ ha | exact mul_Of t _ _ hb

theorem semOf_mkMul (a b : Calc K) :
    (mkMul a b).bind (semOf F) = (semOf F a).bind fun x => (semOf F b).bind fun y =>
      if y.ty = .num then some ⟨x.ty, x.x * y.x⟩
      else if x.ty = .num then some ⟨y.ty, x.x * y.x⟩ else none := by
  have hn := kind_ne_num (K := K)
  cases b <;> cases a <;> simp [mkMul, semOf_value, semOf_number, semOf_sum, semOf_func, semOf_mul, hn, mul_comm]

theorem mkDiv_Of (t : Kind) (a b c : Calc K) (ha : a.Of t) (h : mkDiv a b = some c) : c.Of t := by
  unfold mkDiv at h
  split at h
  · split at h
    · exact absurd h (by simp)
    · simp only [Option.some.injEq] at h; subst h; exact mul_Of t _ _ ha
  · exact absurd h (by simp)

theorem semOf_mkDiv (a b : Calc K) :
    (mkDiv a b).bind (semOf F) = (semOf F a).bind fun x => (semOf F b).bind fun y =>
      if y.ty = .num ∧ y.x ≠ 0 then some ⟨x.ty, x.x / y.x⟩ else none := by
  have hn := kind_ne_num (K := K)
  cases b with
  | number k =>
    by_cases hk : k = 0
    · cases a <;> simp [mkDiv, semOf, hk]
    · simp only [mkDiv, hk, if_false, Option.bind_some, semOf_mul, semOf_number]
      cases semOf F a <;> simp [hk, div_eq_mul_inv]
  | _ => cases a <;> simp [mkDiv, semOf, hn]

theorem applyOp_Of (t : Kind) (f : K → K → K) (a b : Calc K) (ha : a.Of t) (hb : b.Of t) :
    ((applyOp F f a b).getD .func).Of t := by
  cases a <;> cases b <;> simp only [applyOp, Option.getD, Calc.Of] <;> simp only [Calc.Of] at ha hb
  rw [op_kind _ _ _ (ha.trans hb.symm), ha]

theorem semOf_applyOp (hpi : 0 < F.pi) (t : Kind) (f : K → K → K) (hf : Homogeneous f) (a b : Calc K)
    (ha : a.Of t) (hb : b.Of t) :
    semOf F ((applyOp F f a b).getD .func) =
      (semOf F a).bind fun x => (semOf F b).bind fun y => same2 f x y := by
  have hn := kind_ne_num (K := K)
  have hn' := fun v => (kind_ne_num (K := K) v).symm
  cases a <;> cases b <;> simp only [applyOp, Option.getD, semOf_value, semOf_number, semOf_sum, semOf_func,
    Option.bind_some, Option.bind_none, same2, hn, hn', if_true, if_false]
  rename_i v w
  simp only [Calc.Of] at ha hb
  have h : v.kind = w.kind := by rw [hb, ha]
  rw [op_kind _ _ _ h, op_amount hpi _ hf _ _ h, if_pos h]

theorem applyMap_Of (t : Kind) (f : K → K) (a : Calc K) (ha : a.Of t) :
    ((applyMap f a).getD .func).Of t := by
  cases a with
  | value v => cases v <;> simp_all [applyMap, Val.tryMap, Calc.Of, Val.kind]
  | _ => simp [applyMap, Calc.Of]

theorem semOf_abs (hpi : 0 < F.pi) (a : Calc K) (h : ∀ s, semOf F a = some s → s.ty ≠ .pct) :
    semOf F ((applyMap (fun x => |x|) a).getD .func) = (semOf F a).bind fun s => some ⟨s.ty, |s.x|⟩ := by
  have h1 : (0 : K) < 1000 := by norm_num
  have h2 : (0 : K) < 360 / 400 := by norm_num
  have h3 : (0 : K) < 360 := by norm_num
  have h4 : (0 : K) < 360 / (2 * F.pi) := by positivity
  have e : ∀ x k : K, 0 < k → |x * k| = |x| * k := fun x k hk => by rw [abs_mul, abs_of_pos hk]
  cases a with
  | value v =>
    cases v <;> simp only [applyMap, Val.tryMap, Option.map_some, Option.getD_some, semOf_value, Val.kind,
      amount, Option.bind_some, e _ _ h1, e _ _ h2, e _ _ h3, e _ _ h4]
    exact absurd rfl (h _ rfl)
  | _ => simp [applyMap, semOf]

theorem mkSign_Of (t : Kind) (a : Calc K) : (mkSign a).Of t := by
  cases a with
  | value v => cases v <;> simp [mkSign, Val.tryMap, Calc.Of]
  | _ => simp [mkSign, Calc.Of]

theorem sgn_sgn (x : K) : sgn (sgn x) = sgn x := by
  unfold sgn
  rcases lt_trichotomy x 0 with h | h | h
  · simp [h, h.ne]
  · simp [h]
  · simp [h.ne', not_lt.2 h.le]

theorem semOf_sign (hpi : 0 < F.pi) (a : Calc K) (h : ∀ s, semOf F a = some s → s.ty ≠ .pct) :
    semOf F (mkSign a) = (semOf F a).bind fun s => some ⟨.num, cssSign s.x⟩ := by
  have h1 : (0 : K) < 1000 := by norm_num
  have h2 : (0 : K) < 360 / 400 := by norm_num
  have h3 : (0 : K) < 360 := by norm_num
  have h4 : (0 : K) < 360 / (2 * F.pi) := by positivity
  cases a with
  | value v =>
    cases v <;> simp only [mkSign, Val.tryMap, Val.sign, semOf, sgn_sgn, Option.bind_some, amount]
    all_goals try simp only [
      MathFn.sgn_eq, MathFn.cssSign_scale _ _ h1, MathFn.cssSign_scale _ _ h2,
      MathFn.cssSign_scale _ _ h3, MathFn.cssSign_scale _ _ h4]
    exact absurd rfl (h _ rfl)
  | _ => simp [mkSign, semOf, MathFn.sgn_eq]

end Verif.Units
