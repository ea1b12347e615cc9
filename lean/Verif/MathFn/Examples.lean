import Verif.MathFn.EvalProps
import Mathlib.Data.Real.Sqrt
import Mathlib.Algebra.Order.Archimedean.Real.Basic
/-!
# Math functions: where the simplification is wrong, and examples (C40)
-/
set_option linter.unusedSectionVars false
namespace Verif.MathFn

/-- `Real.sqrt` has the laws that are asked of the square root. -/
theorem real_sqrt_laws : SqrtLaws Real.sqrt where
  one := Real.sqrt_one
  scale k x hk _ := by
    rw [Real.sqrt_mul (mul_self_nonneg k), Real.sqrt_mul_self hk]

/-- An environment over any field: relative units are 10px. -/
def exEnv {K : Type} [Field K] [LinearOrder K] [IsStrictOrderedRing K] (base : K) : Env K where
  unit
    | .abs a => match a with
      | .px => 1
      | .inch => 96
      | .cm => 9600 / 254
      | .mm => 960 / 254
      | .q => 960 / 1016
      | .pt => 96 / 72
      | .pc => 96 / 6
    | .rel _ => 10
  base := base
  px := rfl
  inch := rfl
  cm := by norm_num
  mm := by norm_num
  q := by norm_num
  pt := by norm_num
  pc := by norm_num
  pos u := by
    match u with
    | .abs .px | .abs .inch | .abs .cm | .abs .mm | .abs .q | .abs .pt | .abs .pc | .rel _ =>
      norm_num

/-- The lemma in the form used below. -/
def px (x : ℚ) : Src ℚ := .dim (.abs .px) x

/-- **C40** is false for a negative step: `round(up, 5px, -2px)` is 6px, but 4px is stored. -/
theorem round_negative_step :
    ∃ v : Val ℚ, (Src.round .up (px 5) (px (-2))).parseVal id 10 = .ok v ∧
      v.eval id (exEnv 100) = 4 ∧ (Src.round .up (px 5) (px (-2))).eval id (exEnv 100) = 6 :=
  ⟨_, rfl, by decide +kernel, by decide +kernel⟩

/-- **C40** is false half way between two multiples below zero: `round(-2.5px, 1px)` is -2px, but -3px is
stored. -/
theorem round_negative_tie :
    ∃ v : Val ℚ, (Src.round .nearest (px (-5 / 2)) (px 1)).parseVal id 10 = .ok v ∧
      v.eval id (exEnv 100) = -3 ∧ (Src.round .nearest (px (-5 / 2)) (px 1)).eval id (exEnv 100) = -2 :=
  ⟨_, rfl, by decide +kernel, by decide +kernel⟩

/-- **C40** is false for percentages of a negative length, as in `background-position` for an image wider
than its box: `min(10%, 20%)` is 20% then, but 10% is stored. -/
theorem min_negative_base :
    ∃ v : Val ℚ, (Src.min [.pct (1 / 10), .pct (2 / 10)]).parseVal id 10 = .ok v ∧
      v.eval id (exEnv (-100)) = -10 ∧
      (Src.min [.pct (1 / 10), .pct (2 / 10)] : Src ℚ).eval id (exEnv (-100)) = -20 :=
  ⟨.pct (1 / 10), by
    simp only [Src.parseVal, Src.isFn, Src.parseFn, Src.parse, parseArgs, Res.bind, mkMinMax, reduceArgs,
      reduceInto, argCmp, Val.partialCmp, cmpK, List.foldl, if_true]
    norm_num
    simp, by decide +kernel, by decide +kernel⟩

/-- **C40** is false for one negative argument of `hypot()`: `hypot(-3px)` is 3px, but -3px is stored. -/
theorem hypot_negative :
    ∃ v : Val ℝ, (Src.hypot [.dim (.abs .px) (-3)]).parseVal Real.sqrt 10 = .ok v ∧
      v.eval Real.sqrt (exEnv 100) = -3 ∧
      (Src.hypot [.dim (.abs .px) (-3)]).eval Real.sqrt (exEnv 100) = 3 :=
  ⟨.dim (.abs .px) (-3), rfl, by simp [Val.eval, exEnv], by
    simp only [Src.eval, evalArgs, cssHypot, exEnv, List.map_cons, List.map_nil, List.sum_cons,
      List.sum_nil, mul_one, add_zero]
    rw [show (-3 : ℝ) * -3 = 3 * 3 by norm_num]
    exact Real.sqrt_mul_self (by norm_num)⟩

/-- **C40** is false for three arguments of `hypot()` in different units: the first is squared before it
is converted to pixels. `hypot(1in, 1px, 1px)` is √9218px, but √98px is stored. -/
theorem hypot_units :
    ∃ v : Val ℝ, (Src.hypot [.dim (.abs .inch) 1, .dim (.abs .px) 1, .dim (.abs .px) 1]).parseVal
        Real.sqrt 10 = .ok v ∧
      v.eval Real.sqrt (exEnv 100) = Real.sqrt 98 ∧
      (Src.hypot [.dim (.abs .inch) 1, .dim (.abs .px) 1, .dim (.abs .px) 1]).eval
        Real.sqrt (exEnv 100) = Real.sqrt 9218 :=
  ⟨_, rfl, by
    simp only [Val.eval, exEnv, pxPer, mul_one]
    norm_num, by
    simp only [Src.eval, evalArgs, cssHypot, exEnv, List.map_cons, List.map_nil, List.sum_cons,
      List.sum_nil]
    norm_num⟩

/-- An expression that meets the hypotheses of `parse_value_partial`:
`round(up, hypot(3px, 4px) + 10% - 1em * 2, 2px)`. -/
noncomputable def exSrc : Src ℝ :=
  .round .up (.sub (.add (.hypot [.dim (.abs .px) 3, .dim (.abs .px) 4]) (.pct (1 / 10)))
    (.mul (.dim (.rel 0) 1) (.num 2))) (.dim (.abs .px) 2)

example : SqrtLaws Real.sqrt ∧ (0 : ℝ) ≤ (exEnv 100).base ∧ exSrc.Fine Real.sqrt (exEnv 100) := by
  refine ⟨real_sqrt_laws, by norm_num [exEnv], ?_⟩
  simp [exSrc, Src.Fine, FineArgs, HypotOk, Src.eval, exEnv]

/-- `min(1em, 2px, 1in, 3em, 10%)` -/
def exMin : Src ℚ :=
  .min [.dim (.rel 0) 1, px 2, .dim (.abs .inch) 1, .dim (.rel 0) 3, .pct (1 / 10)]

example : exMin.Fine id (exEnv 100) := by simp [exMin, px, Src.Fine, FineArgs]

/-- What is stored for `calc(1in + 10% - 2px)`: one length and one percentage. -/
example : (match (Src.calc (.sub (.add (.dim (.abs .inch) 1) (.pct (1 / 10))) (px 2))).parseVal id 10 with
    | .ok (.calc (.func (.calc (.sum (.value (.dim (.abs .px) x)) (.value (.pct y)))))) =>
      decide (x = 94 ∧ y = 1 / 10)
    | _ => false) = true := by decide +kernel

end Verif.MathFn
