import Verif.Transform.Lemmas
import Mathlib.LinearAlgebra.Matrix.Determinant.Basic
import Mathlib.Tactic.LinearCombination
/-! Transforms mean the same after printing (C76, C77); matrices (C79). -/
namespace Verif.Transform

/-! ## C76: transform functions -/

/-- Each valid function call is read, and what is printed for it, minified or not, is valid and is the same map of coordinates, wherever the values are resolved. -/
theorem C76_function (c : Call) :
    (∀ env, (callMap env c).isSome → (parse c).isSome) ∧
    ∀ t, parse c = some t → ∀ env f, callMap env c = some f → ∀ m, callMap env (print m t) = some f := by
  constructor
  · intro env h
    obtain ⟨f, hf⟩ := Option.isSome_iff_exists.mp h
    obtain ⟨t, ht, _⟩ := parse_map env c f hf
    simp [ht]
  · intro t ht env f hf m
    obtain ⟨t', ht', e, ok⟩ := parse_map env c f hf
    rw [ht] at ht'; cases ht'
    rw [print_map env m t ok, e]

/-- An environment for examples: a box of 200px by 100px, `1em` is 16px. -/
noncomputable def exEnv : Env := ⟨fun _ => 16, 200, 100, fun _ => 7, fun _ b => b / 2 + 3⟩

/-- `translate3d(0, 50%, 0)` becomes `translateY(50%)`, and both move a point by 50px. -/
example : ∃ t, parse ⟨.translate3d, [.num 0, .pct (1/2), .len 0 .cm]⟩ = some t ∧ print true t = ⟨.translateY, [.pct (1/2)]⟩ ∧
    callMap exEnv ⟨.translate3d, [.num 0, .pct (1/2), .len 0 .cm]⟩ = some (translation 0 50 0) := by
  refine ⟨_, rfl, ?_, ?_⟩
  · simp [print, LP.isZero, Len.isZero, LP.print]
  · simp [callMap, lengthPct, length, exEnv]; norm_num

/-- A bare number that is not zero is no length, but is read as one: `translate(5)`, which browsers ignore, becomes `translate(5px)`. -/
theorem C76_number_becomes_length : callMap exEnv ⟨.translate, [.num 5]⟩ = none ∧
    parse ⟨.translate, [.num 5]⟩ = some (.translate (.dim 5 .px) .zero) ∧
    print true (.translate (.dim 5 .px) .zero) = ⟨.translate, [.len 5 .px]⟩ := by
  refine ⟨by simp [callMap, lengthPct], rfl, ?_⟩
  simp [print, LP.isZero, LP.zero, LP.print, printLV]

theorem mapM_parse {env : Env} : ∀ {cs : List Call} {fs : List Map}, cs.mapM (callMap env) = some fs →
    ∃ ts, cs.mapM parse = some ts ∧ ∀ m, (ts.map (print m)).mapM (callMap env) = some fs := by
  intro cs
  induction cs with
  | nil => intro fs h; cases h; exact ⟨[], rfl, fun _ => rfl⟩
  | cons c cs ih =>
    intro fs h
    simp only [List.mapM_cons, Option.pure_def, Option.bind_eq_bind, Option.bind_eq_some_iff, Option.some.injEq] at h
    obtain ⟨f, hf, fs', hfs, rfl⟩ := h
    obtain ⟨ts, h1, h2⟩ := ih hfs
    obtain ⟨t, ht, e, ok⟩ := parse_map env c f hf
    refine ⟨t :: ts, by simp [List.mapM_cons, ht, h1], fun m => ?_⟩
    simp only [List.map_cons, List.mapM_cons, print_map env m t ok, h2 m, e]
    rfl

/-- The same for whole values of the property `transform`; `none` stays `none`, and nothing else becomes `none`. -/
theorem C76_transform_property (v : Value) :
    (∀ env, (valueMap env v).isSome → (parseList v).isSome) ∧
    ∀ ts, parseList v = some ts → ∀ env f, valueMap env v = some f → ∀ m, valueMap env (printList m ts) = some f := by
  have key : ∀ env f, valueMap env v = some f → ∃ ts, parseList v = some ts ∧ ∀ m, valueMap env (printList m ts) = some f := by
    intro env f h
    cases v with
    | none => cases h; exact ⟨[], rfl, fun _ => rfl⟩
    | calls cs =>
      cases cs with
      | nil => cases h
      | cons c cs =>
        simp only [valueMap, Option.map_eq_some_iff] at h
        obtain ⟨fs, hfs, rfl⟩ := h
        obtain ⟨ts, h1, h2⟩ := mapM_parse hfs
        refine ⟨ts, h1, fun m => ?_⟩
        cases ts with
        | nil =>
          have := h2 m
          simp only [List.map_nil, List.mapM_nil, Option.pure_def, Option.some.injEq] at this
          subst this
          simp only [List.mapM_cons, Option.pure_def, Option.bind_eq_bind, Option.bind_eq_some_iff, Option.some.injEq] at hfs
          obtain ⟨_, _, _, _, e⟩ := hfs
          cases e
        | cons t ts =>
          have := h2 m
          simp only [List.map_cons] at this
          simp only [printList, valueMap, List.map_cons, this]
          rfl
  constructor
  · intro env h
    obtain ⟨f, hf⟩ := Option.isSome_iff_exists.mp h
    obtain ⟨ts, h1, _⟩ := key env f hf
    simp [h1]
  · intro ts hts env f hf m
    obtain ⟨ts', h1, h2⟩ := key env f hf
    rw [hts] at h1; cases h1
    exact h2 m

/-- `translateX(1em) rotateZ(0)` is printed as `translate(1em) rotate(0)`. -/
example : (valueMap exEnv (.calls [⟨.translateX, [.len 1 (.rel 0)]⟩, ⟨.rotateZ, [.num 0]⟩])).isSome ∧
    (parseList (.calls [⟨.translateX, [.len 1 (.rel 0)]⟩, ⟨.rotateZ, [.num 0]⟩])).map (printList true) =
      some (.calls [⟨.translate, [.len 1 (.rel 0)]⟩, ⟨.rotate, [.num 0]⟩]) := by
  constructor
  · simp [valueMap, callMap, lengthPct, angle]
  · simp [parseList, parse, parseLP, parseLV, parseAng0, printList, print, LP.print, printLV, Ang.print0, Ang.isZero]

/-! ## C77: the properties `translate`, `rotate`, `scale` -/

/-- `translate`: valid values are read, and printed with the same meaning; as a transform function the value is the same map. -/
theorem C77_translate (v : PVal) :
    (∀ env, (translateProp env v).isSome → (Translate.parse v).isSome) ∧
    ∀ t, Translate.parse v = some t → ∀ env f, translateProp env v = some f →
      translateProp env t.print = some f ∧ ∀ m, callMap env (print m t.toTransform) = some (f.getD id) := by
  have key : ∀ env f, translateProp env v = some f → ∃ t, Translate.parse v = some t ∧ translateProp env t.print = some f ∧
      trMap env t.toTransform = f.getD id := by
    intro env f h
    have hp : ∀ x y z, translateProp env (Translate.xyz x y z).print =
        some (some (translation (lpVal env env.width x) (lpVal env env.height y) (lenVal env z))) := by
      intro x y z
      simp only [Translate.print]
      cases ey : y.isZero <;> cases ez : z.isZero <;> simp [translateProp, lp_print, length_print]
      · rw [len_zero ez]
      · rw [lp_zero ey, len_zero ez]
    unfold translateProp at h
    split at h
    · cases h
      refine ⟨.none, rfl, rfl, ?_⟩
      funext p
      simp [Translate.toTransform, trMap, LP.zero, Len.zero, lpVal, lenVal, translation]
    · lp1 h; obtain ⟨a, ha, rfl⟩ := h
      obtain ⟨l, e, e2⟩ := lp_parse ha
      rw [e2] at ha; cases ha
      refine ⟨.xyz l .zero .zero, by simp [Translate.parse, e], ?_, ?_⟩
      · rw [hp]; simp [lpVal, lenVal, LP.zero, Len.zero]
      · simp [Translate.toTransform, trMap, LP.zero, Len.zero, lpVal, lenVal]
    · lp1 h; obtain ⟨a, ha, b, hb, rfl⟩ := h
      obtain ⟨l, e, e2⟩ := lp_parse ha
      obtain ⟨k, e', e2'⟩ := lp_parse hb
      rw [e2] at ha; cases ha
      rw [e2'] at hb; cases hb
      refine ⟨.xyz l k .zero, by simp [Translate.parse, e, e'], ?_, ?_⟩
      · rw [hp]; simp [lenVal, Len.zero]
      · simp [Translate.toTransform, trMap, Len.zero, lenVal]
    · lp1 h; obtain ⟨a, ha, b, hb, c, hc, rfl⟩ := h
      obtain ⟨l, e, e2⟩ := lp_parse ha
      obtain ⟨k, e', e2'⟩ := lp_parse hb
      obtain ⟨j, e'', rfl⟩ := len_parse hc
      rw [e2] at ha; cases ha
      rw [e2'] at hb; cases hb
      exact ⟨.xyz l k j, by simp [Translate.parse, e, e', e''], hp l k j, rfl⟩
    · cases h
  constructor
  · intro env h
    obtain ⟨f, hf⟩ := Option.isSome_iff_exists.mp h
    obtain ⟨t, h1, _⟩ := key env f hf
    simp [h1]
  · intro t ht env f hf
    obtain ⟨t', h1, h2, h3⟩ := key env f hf
    rw [ht] at h1; cases h1
    refine ⟨h2, fun m => ?_⟩
    rw [print_map, h3]
    cases t <;> trivial

example : (translateProp exEnv (.args [.len 1 .inch, .pct 0, .len 2 .px])).isSome ∧
    (Translate.parse (.args [.len 1 .inch, .pct 0, .len 2 .px])).map Translate.print = some (.args [.len 1 .inch, .pct 0, .len 2 .px]) := by
  constructor
  · simp [translateProp, lengthPct, length]
  · simp [Translate.parse, parseLP, parseLV, parseLen, Translate.print, LP.isZero, Len.isZero, LP.print, Len.print, printLV]

/-- `scale`: the same. -/
theorem C77_scale (v : PVal) :
    ((scaleProp v).isSome → (Scale.parse v).isSome) ∧
    ∀ t, Scale.parse v = some t → ∀ f, scaleProp v = some f →
      scaleProp t.print = some f ∧ ∀ env m, callMap env (print m t.toTransform) = some (f.getD id) := by
  have key : ∀ f, scaleProp v = some f → ∃ t, Scale.parse v = some t ∧ scaleProp t.print = some f ∧
      ∀ env, trMap env t.toTransform = f.getD id := by
    intro f h
    have hp : ∀ x y z, scaleProp (Scale.xyz x y z).print = some (some (scaling x.toNum y.toNum z.toNum)) := by
      intro x y z
      simp only [Scale.print]
      by_cases hz : z.toNum = 1
      · by_cases hy : y = x
        · subst hy; simp [scaleProp, np_print, hz]
        · simp [scaleProp, np_print, hz, hy]
      · simp [scaleProp, np_print, hz]
    unfold scaleProp at h
    split at h
    · cases h
      refine ⟨.none, rfl, rfl, fun env => ?_⟩
      funext p
      simp [Scale.toTransform, trMap, NP.toNum, scaling]
    · lp1 h; obtain ⟨a, ha, b, hb, rfl⟩ := h
      rw [ha] at hb; cases hb
      obtain ⟨l, e, rfl⟩ := np_parse ha
      exact ⟨.xyz l l (.num 1), by simp [Scale.parse, e], hp _ _ _, fun _ => rfl⟩
    · lp1 h; obtain ⟨a, ha, b, hb, rfl⟩ := h
      obtain ⟨l, e, rfl⟩ := np_parse ha
      obtain ⟨k, e', rfl⟩ := np_parse hb
      exact ⟨.xyz l k (.num 1), by simp [Scale.parse, e, e'], hp _ _ _, fun _ => rfl⟩
    · lp1 h; obtain ⟨a, ha, b, hb, c, hc, rfl⟩ := h
      obtain ⟨l, e, rfl⟩ := np_parse ha
      obtain ⟨k, e', rfl⟩ := np_parse hb
      obtain ⟨j, e'', rfl⟩ := np_parse hc
      exact ⟨.xyz l k j, by simp [Scale.parse, e, e', e''], hp _ _ _, fun _ => rfl⟩
    · cases h
  constructor
  · intro h
    obtain ⟨f, hf⟩ := Option.isSome_iff_exists.mp h
    obtain ⟨t, h1, _⟩ := key f hf
    simp [h1]
  · intro t ht f hf
    obtain ⟨t', h1, h2, h3⟩ := key f hf
    rw [ht] at h1; cases h1
    refine ⟨h2, fun env m => ?_⟩
    rw [print_map, h3]
    cases t <;> trivial

example : (scaleProp (.args [.pct (1/2), .pct (1/2), .num 1])).isSome ∧
    (Scale.parse (.args [.pct (1/2), .pct (1/2), .num 1])).map Scale.print = some (.args [.pct (1/2)]) := by
  constructor
  · simp [scaleProp, numberPct]
  · simp [Scale.parse, parseNP, Scale.print, NP.toNum, NP.print]

theorem radians_neg (a : Ang) : radians (a.mul (-1)) = -radians a := by
  cases a <;> simp [Ang.mul, radians] <;> ring

theorem sqrt_sq' (x : ℝ) : Real.sqrt (x ^ 2) = |x| := Real.sqrt_sq_eq_abs x

/-- Rotation about a multiple of an axis. -/
theorem rotation_scale {k x y z t : ℝ} (hk : 0 < k) : rotation (k * x) (k * y) (k * z) t = rotation x y z t := by
  simp only [rotation]
  have h0 : (k * x = 0 ∧ k * y = 0 ∧ k * z = 0) ↔ (x = 0 ∧ y = 0 ∧ z = 0) := by
    simp [hk.ne']
  simp only [h0]
  split
  · rfl
  · have : Real.sqrt ((k * x) ^ 2 + (k * y) ^ 2 + (k * z) ^ 2) = k * Real.sqrt (x ^ 2 + y ^ 2 + z ^ 2) := by
      rw [show (k * x) ^ 2 + (k * y) ^ 2 + (k * z) ^ 2 = k ^ 2 * (x ^ 2 + y ^ 2 + z ^ 2) by ring, Real.sqrt_mul (by positivity), Real.sqrt_sq hk.le]
    rw [this]
    rw [mul_div_mul_left _ _ hk.ne', mul_div_mul_left _ _ hk.ne', mul_div_mul_left _ _ hk.ne']

/-- Rotation about the opposite axis is rotation by the opposite angle. -/
theorem rotation_opposite (x y z t : ℝ) : rotation (-x) (-y) (-z) t = rotation x y z (-t) := by
  simp only [rotation, neg_eq_zero]
  split
  · rfl
  · funext p
    simp only [rotationUnit, Real.sin_neg, Real.cos_neg, neg_sq, neg_div]
    ext <;> simp only [] <;> ring

theorem rotation_x {x t : ℝ} (hx : x ≠ 0) : rotation x 0 0 t = rotationX (if x < 0 then -t else t) := by
  rw [← rotation_one_zero_zero]
  split
  · rename_i h
    rw [← rotation_opposite, ← rotation_scale (k := -x) (x := -1) (by linarith)]; simp
  · rename_i h
    rw [← rotation_scale (k := x) (x := 1) (by rcases lt_or_gt_of_ne hx with h' | h' <;> [exact absurd h' h; exact h'])]; simp

theorem rotation_y {x t : ℝ} (hx : x ≠ 0) : rotation 0 x 0 t = rotationY (if x < 0 then -t else t) := by
  rw [← rotation_zero_one_zero]
  split
  · rename_i h
    rw [← rotation_opposite, ← rotation_scale (k := -x) (y := -1) (by linarith)]; simp
  · rename_i h
    rw [← rotation_scale (k := x) (y := 1) (by rcases lt_or_gt_of_ne hx with h' | h' <;> [exact absurd h' h; exact h'])]; simp

theorem rotation_z {x t : ℝ} (hx : x ≠ 0) : rotation 0 0 x t = rotationZ (if x < 0 then -t else t) := by
  rw [← rotation_zero_zero_one]
  split
  · rename_i h
    rw [← rotation_opposite, ← rotation_scale (k := -x) (z := -1) (by linarith)]; simp
  · rename_i h
    rw [← rotation_scale (k := x) (z := 1) (by rcases lt_or_gt_of_ne hx with h' | h' <;> [exact absurd h' h; exact h'])]; simp

theorem print_ang (a : Ang) : ∃ b, a.print = .ang b ∧ radians b = radians a := by
  have := radians_print (a := a)
  cases a <;> first | exact ⟨_, rfl, rfl⟩ | exact ⟨_, rfl, by simpa [Ang.print, angle] using this⟩

theorem rotate_print (x y z : ℝ) (a : Ang) : rotateProp (Rotate.xyz x y z a).print = some (some (rotation x y z (radians a))) := by
  have hneg : ∀ (c : Prop) [Decidable c], radians (if c then a.mul (-1) else a) = if c then -radians a else radians a := by
    intro c _; split
    · exact radians_neg a
    · rfl
  simp only [Rotate.print]
  split
  · rename_i h; obtain ⟨h1, h2, h3⟩ := h
    subst h1 h2
    obtain ⟨b, e, e2⟩ := print_ang (if x < 0 then a.mul (-1) else a)
    rw [e]; simp only [rotateProp, aboutAxis, e2, hneg, rotation_x h3]
  split
  · rename_i h; obtain ⟨h1, h2, h3⟩ := h
    subst h1 h2
    obtain ⟨b, e, e2⟩ := print_ang (if y < 0 then a.mul (-1) else a)
    rw [e]; simp only [rotateProp, aboutAxis, e2, hneg, rotation_y h3]
  split
  · rename_i h; obtain ⟨h1, h2, h3⟩ := h
    subst h1 h2
    obtain ⟨b, e, e2⟩ := print_ang (if z < 0 then a.mul (-1) else a)
    rw [e]; simp only [rotateProp, e2, hneg, rotation_z h3]
  · obtain ⟨b, e, e2⟩ := print_ang a
    rw [e]; simp only [rotateProp, e2]

/-- `rotate`: the same. A vector along an axis is printed as the keyword of the axis, with the opposite angle if it points backwards. -/
theorem C77_rotate (v : PVal) :
    ((rotateProp v).isSome → (Rotate.parse v).isSome) ∧
    ∀ t, Rotate.parse v = some t → ∀ f, rotateProp v = some f →
      rotateProp t.print = some f ∧ ∀ env m, callMap env (print m t.toTransform) = some (f.getD id) := by
  have key : ∀ f, rotateProp v = some f → ∃ t, Rotate.parse v = some t ∧ rotateProp t.print = some f ∧
      ∀ env, trMap env t.toTransform = f.getD id := by
    intro f h
    unfold rotateProp at h
    split at h
    · cases h
      refine ⟨.none, rfl, rfl, fun env => ?_⟩
      funext p
      simp [Rotate.toTransform, trMap, radians, rotation_zero_zero_one, rotationZ]
    · cases h
      refine ⟨.xyz 0 0 1 _, rfl, ?_, fun env => ?_⟩
      · rw [rotate_print, rotation_zero_zero_one]
      · simp [Rotate.toTransform, trMap, rotation_zero_zero_one]
    · rename_i k a
      cases h
      match k with
      | 0 => exact ⟨.xyz 1 0 0 a, rfl, by rw [rotate_print, rotation_one_zero_zero]; rfl, fun env => by simp [Rotate.toTransform, trMap, rotation_one_zero_zero, aboutAxis]⟩
      | 1 => exact ⟨.xyz 0 1 0 a, rfl, by rw [rotate_print, rotation_zero_one_zero]; rfl, fun env => by simp [Rotate.toTransform, trMap, rotation_zero_one_zero, aboutAxis]⟩
      | 2 => exact ⟨.xyz 0 0 1 a, rfl, by rw [rotate_print, rotation_zero_zero_one]; rfl, fun env => by simp [Rotate.toTransform, trMap, rotation_zero_zero_one, aboutAxis]⟩
    · rename_i a k
      cases h
      match k with
      | 0 => exact ⟨.xyz 1 0 0 a, rfl, by rw [rotate_print, rotation_one_zero_zero]; rfl, fun env => by simp [Rotate.toTransform, trMap, rotation_one_zero_zero, aboutAxis]⟩
      | 1 => exact ⟨.xyz 0 1 0 a, rfl, by rw [rotate_print, rotation_zero_one_zero]; rfl, fun env => by simp [Rotate.toTransform, trMap, rotation_zero_one_zero, aboutAxis]⟩
      | 2 => exact ⟨.xyz 0 0 1 a, rfl, by rw [rotate_print, rotation_zero_zero_one]; rfl, fun env => by simp [Rotate.toTransform, trMap, rotation_zero_zero_one, aboutAxis]⟩
    · cases h
      exact ⟨.xyz _ _ _ _, rfl, rotate_print _ _ _ _, fun env => rfl⟩
    · cases h
      exact ⟨.xyz _ _ _ _, rfl, rotate_print _ _ _ _, fun env => rfl⟩
    · cases h
  constructor
  · intro h
    obtain ⟨f, hf⟩ := Option.isSome_iff_exists.mp h
    obtain ⟨t, h1, _⟩ := key f hf
    simp [h1]
  · intro t ht f hf
    obtain ⟨t', h1, h2, h3⟩ := key f hf
    rw [ht] at h1; cases h1
    refine ⟨h2, fun env m => ?_⟩
    rw [print_map, h3]
    cases t <;> trivial

/-- `rotate: 0 -2 0 90deg` is printed as `y -90deg`. -/
example : (rotateProp (.args [.num 0, .num (-2), .num 0, .ang (.deg 90)])).isSome ∧
    (Rotate.parse (.args [.num 0, .num (-2), .num 0, .ang (.deg 90)])).map Rotate.print = some (.args [.axis 1, .ang (.deg (-90))]) := by
  constructor
  · simp [rotateProp]
  · simp [Rotate.parse, parseAxis, Rotate.print, Ang.mul, Ang.print]

end Verif.Transform
