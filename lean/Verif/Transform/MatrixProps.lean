import Verif.Transform.Props
/-! C79: the matrix operations. -/
namespace Verif.Transform

/-- The sixteen numbers as a matrix of Mathlib, in rows. -/
def toMat (m : Matrix3d) : _root_.Matrix (Fin 4) (Fin 4) ℝ :=
  !![m.m11, m.m12, m.m13, m.m14; m.m21, m.m22, m.m23, m.m24; m.m31, m.m32, m.m33, m.m34; m.m41, m.m42, m.m43, m.m44]

theorem toMat_inj {a b : Matrix3d} (h : toMat a = toMat b) : a = b := by
  have e : ∀ i j, toMat a i j = toMat b i j := fun i j => by rw [h]
  ext
  · exact e 0 0
  · exact e 0 1
  · exact e 0 2
  · exact e 0 3
  · exact e 1 0
  · exact e 1 1
  · exact e 1 2
  · exact e 1 3
  · exact e 2 0
  · exact e 2 1
  · exact e 2 2
  · exact e 2 3
  · exact e 3 0
  · exact e 3 1
  · exact e 3 2
  · exact e 3 3

/-- `multiply` is the product of matrices. -/
theorem C79_multiply (a b : Matrix3d) : toMat (a.multiply b) = toMat a * toMat b := by
  ext i j
  fin_cases i <;> fin_cases j <;> simp [toMat, Matrix3d.multiply, _root_.Matrix.mul_apply, Fin.sum_univ_four]

/-- `identity` is the unit matrix, `transpose` transposes, `scale_by_factor` multiplies by a number. -/
theorem C79_identity_transpose_factor (a : Matrix3d) (k : ℝ) :
    toMat .identity = 1 ∧ toMat a.transpose = (toMat a).transpose ∧ toMat (a.scaleByFactor k) = k • toMat a := by
  refine ⟨?_, ?_, ?_⟩
  · ext i j; fin_cases i <;> fin_cases j <;> simp [toMat, Matrix3d.identity]
  · ext i j; fin_cases i <;> fin_cases j <;> simp [toMat, Matrix3d.transpose]
  · ext i j; fin_cases i <;> fin_cases j <;> simp [toMat, Matrix3d.scaleByFactor, mul_comm]

/-- `determinant` is the determinant. -/
theorem C79_determinant (a : Matrix3d) : a.determinant = (toMat a).det := by
  simp [toMat, _root_.Matrix.det_succ_row_zero, Fin.sum_univ_succ, Fin.succAbove, Matrix3d.determinant]
  ring

/-- `multiply_vector` is the map of `matrix3d()`: a row vector times the matrix. -/
theorem C79_multiplyVector (a : Matrix3d) (p : Vec4) :
    a.multiplyVector p = projective a.m11 a.m12 a.m13 a.m14 a.m21 a.m22 a.m23 a.m24 a.m31 a.m32 a.m33 a.m34 a.m41 a.m42 a.m43 a.m44 p := by
  ext <;> simp only [Matrix3d.multiplyVector, projective] <;> ring

/-- Multiplication of matrices is composition of maps: the left factor is applied first. -/
theorem C79_compose (a b : Matrix3d) (p : Vec4) : (a.multiply b).multiplyVector p = b.multiplyVector (a.multiplyVector p) := by
  ext <;> simp only [Matrix3d.multiplyVector, Matrix3d.multiply] <;> ring

/-- `inverse` gives nothing exactly for singular matrices, and the inverse, on both sides, for the others. -/
theorem C79_inverse (a : Matrix3d) :
    (a.inverse = none ↔ (toMat a).det = 0) ∧
    ∀ b, a.inverse = some b → toMat a * toMat b = 1 ∧ toMat b * toMat a = 1 := by
  constructor
  · rw [← C79_determinant]
    simp only [Matrix3d.inverse]
    split <;> rename_i h <;> simp [h]
  · intro b hb
    simp only [Matrix3d.inverse] at hb
    split at hb
    · cases hb
    rename_i hdet
    simp only [Option.some.injEq] at hb
    have key : toMat a * toMat b = 1 := by
      rw [← C79_multiply, ← (C79_identity_transpose_factor a 0).1]
      have hr : 1 / a.determinant * a.determinant = 1 := by field_simp
      generalize 1 / a.determinant = r at hb hr
      simp only [Matrix3d.determinant] at hr
      congr 1
      subst hb
      ext <;> simp only [Matrix3d.multiply, Matrix3d.identity]
      · linear_combination hr
      · ring
      · ring
      · ring
      · ring
      · linear_combination hr
      · ring
      · ring
      · ring
      · ring
      · linear_combination hr
      · ring
      · ring
      · ring
      · ring
      · linear_combination hr
    exact ⟨key, mul_eq_one_comm.mp key⟩

example : (Matrix3d.inverse (.scale 2 4 1)) = some (.scale (1/2) (1/4) 1) ∧ (Matrix3d.inverse (.scale 2 0 1)) = none := by
  constructor
  · simp [Matrix3d.inverse, Matrix3d.determinant, Matrix3d.scale]; norm_num
  · simp [Matrix3d.inverse, Matrix3d.determinant, Matrix3d.scale]

/-- `to_matrix2d` gives the `matrix()` that is the same map, whenever there is one. -/
theorem C79_toMatrix2d (a : Matrix3d) (m : Matrix) :
    a.toMatrix2d = some m ↔ ∀ p, a.multiplyVector p = affine m.a m.b m.c m.d m.e m.f p := by
  constructor
  · intro h p
    simp only [Matrix3d.toMatrix2d] at h
    split at h
    · rename_i h2
      cases h
      simp only [Matrix3d.is2d, Bool.and_eq_true, decide_eq_true_eq] at h2
      obtain ⟨⟨⟨⟨⟨⟨⟨⟨⟨h1, h2⟩, h3⟩, h4⟩, h5⟩, h6⟩, h7⟩, h8⟩, h9⟩, h10⟩ := h2
      ext <;> simp only [Matrix3d.multiplyVector, affine, h1, h2, h3, h4, h5, h6, h7, h8, h9, h10] <;> ring
    · cases h
  · intro h
    have hx := h ⟨1, 0, 0, 0⟩
    have hy := h ⟨0, 1, 0, 0⟩
    have hz := h ⟨0, 0, 1, 0⟩
    have hw := h ⟨0, 0, 0, 1⟩
    simp [Matrix3d.multiplyVector, affine] at hx hy hz hw
    simp [Matrix3d.toMatrix2d, Matrix3d.is2d, hx, hy, hz, hw]

example : Matrix3d.toMatrix2d (.translate 3 4 0) = some ⟨1, 0, 0, 1, 3, 4⟩ ∧ Matrix3d.toMatrix2d (.translate 3 4 5) = none := by
  constructor <;> simp [Matrix3d.toMatrix2d, Matrix3d.is2d, Matrix3d.translate]

/-! ### Conversion of functions to matrices -/

theorem toRadians_eq (a : Ang) : a.toRadians = radians a := by
  cases a <;> simp [Ang.toRadians, radians] <;> ring

theorem safeRad_eq {a : Ang} {r : ℝ} (h : safeRad a = some r) : r = radians a := by
  simp only [safeRad] at h
  split at h
  · cases h
  · cases h; exact toRadians_eq a

theorem toPx_eq {env : Env} {v r : ℝ} {u : LUnit} (h : toPx v u = some r) : r = v * pixels env u := by
  cases u <;> simp [toPx] at h <;> subst h <;> simp [pixels] <;> norm_num

theorem lenPx_eq {env : Env} {l : Len} {r : ℝ} (h : l.toPx = some r) : r = lenVal env l := by
  cases l with
  | val v u => exact toPx_eq h
  | expr i => cases h

theorem rotate_map (x y z t : ℝ) (p : Vec4) : (Matrix3d.rotate x y z t).multiplyVector p = rotation x y z t p := by
  have hsum : x * x + y * y + z * z = x ^ 2 + y ^ 2 + z ^ 2 := by ring
  simp only [Matrix3d.rotate, rotation, hsum]
  have h0 : Real.sqrt (x ^ 2 + y ^ 2 + z ^ 2) = 0 ↔ (x = 0 ∧ y = 0 ∧ z = 0) := by
    rw [Real.sqrt_eq_zero (by positivity)]
    constructor
    · intro h
      have h1 := sq_nonneg x
      have h2 := sq_nonneg y
      have h3 := sq_nonneg z
      refine ⟨?_, ?_, ?_⟩ <;> (apply pow_eq_zero_iff (two_ne_zero) |>.mp; linarith)
    · rintro ⟨rfl, rfl, rfl⟩; simp
  simp only [h0]
  split
  · ext <;> simp [Matrix3d.multiplyVector, Matrix3d.identity]
  · rename_i hne
    have hn : Real.sqrt (x ^ 2 + y ^ 2 + z ^ 2) ≠ 0 := fun h => hne (h0.mp h)
    have hsq : Real.sqrt (x ^ 2 + y ^ 2 + z ^ 2) ^ 2 = x ^ 2 + y ^ 2 + z ^ 2 := Real.sq_sqrt (by positivity)
    generalize Real.sqrt (x ^ 2 + y ^ 2 + z ^ 2) = n at hn hsq
    have hu : (x / n) ^ 2 + (y / n) ^ 2 + (z / n) ^ 2 = 1 := by
      rw [div_pow, div_pow, div_pow, ← add_div, ← add_div, ← hsq]; field_simp
    generalize x / n = x at hu
    generalize y / n = y at hu
    generalize z / n = z at hu
    have hc : Real.cos t = 1 - 2 * (Real.sin (t / 2) * Real.sin (t / 2)) := by
      have h1 := Real.cos_two_mul (t / 2)
      have h2 := Real.sin_sq_add_cos_sq (t / 2)
      rw [show 2 * (t / 2) = t by ring] at h1
      rw [h1]; linarith
    have hs : Real.sin t = 2 * (Real.sin (t / 2) * Real.cos (t / 2)) := by
      have h1 := Real.sin_two_mul (t / 2)
      rw [show 2 * (t / 2) = t by ring] at h1
      rw [h1]; ring
    simp only [rotationUnit, hc, hs]
    generalize Real.sin (t / 2) * Real.sin (t / 2) = q
    generalize Real.sin (t / 2) * Real.cos (t / 2) = s
    ext <;> simp only [Matrix3d.multiplyVector]
    · linear_combination (-2 * q * p.x) * hu
    · linear_combination (-2 * q * p.y) * hu
    · linear_combination (-2 * q * p.z) * hu
    · ring

/-- Not a perspective from a constant distance below one pixel. -/
def Tr.farEnough (env : Env) : Tr → Prop
  | .perspective l => 1 ≤ lenVal env l
  | _ => True

theorem toMatrix_map (env : Env) (t : Tr) (m : Matrix3d) (h : t.toMatrix = some m) (hp : t.farEnough env) (p : Vec4) :
    m.multiplyVector p = trMap env t p := by
  unfold Tr.toMatrix at h
  split at h
  · lp1 h; obtain ⟨x, hx, y, hy, rfl⟩ := h
    ext <;> simp [Matrix3d.multiplyVector, Matrix3d.translate, trMap, translation, lpVal, ← toPx_eq (env := env) hx, ← toPx_eq (env := env) hy, mul_comm]
  · lp1 h; obtain ⟨x, hx, rfl⟩ := h
    ext <;> simp [Matrix3d.multiplyVector, Matrix3d.translate, trMap, translation, lpVal, ← toPx_eq (env := env) hx, mul_comm]
  · lp1 h; obtain ⟨x, hx, rfl⟩ := h
    ext <;> simp [Matrix3d.multiplyVector, Matrix3d.translate, trMap, translation, lpVal, ← toPx_eq (env := env) hx, mul_comm]
  · lp1 h; obtain ⟨x, hx, rfl⟩ := h
    ext <;> simp [Matrix3d.multiplyVector, Matrix3d.translate, trMap, translation, ← lenPx_eq (env := env) hx, mul_comm]
  · lp1 h; obtain ⟨x, hx, y, hy, z, hz, rfl⟩ := h
    ext <;> simp [Matrix3d.multiplyVector, Matrix3d.translate, trMap, translation, lpVal, ← toPx_eq (env := env) hx, ← toPx_eq (env := env) hy,
      ← lenPx_eq (env := env) hz, mul_comm]
  · cases h; ext <;> simp [Matrix3d.multiplyVector, Matrix3d.scale, trMap, scaling, mul_comm]
  · cases h; ext <;> simp [Matrix3d.multiplyVector, Matrix3d.scale, trMap, scaling, mul_comm]
  · cases h; ext <;> simp [Matrix3d.multiplyVector, Matrix3d.scale, trMap, scaling, mul_comm]
  · cases h; ext <;> simp [Matrix3d.multiplyVector, Matrix3d.scale, trMap, scaling, mul_comm]
  · cases h; ext <;> simp [Matrix3d.multiplyVector, Matrix3d.scale, trMap, scaling, mul_comm]
  · lp1 h; obtain ⟨r, hr, rfl⟩ := h
    rw [rotate_map, rotation_zero_zero_one, safeRad_eq hr]; rfl
  · lp1 h; obtain ⟨r, hr, rfl⟩ := h
    rw [rotate_map, rotation_zero_zero_one, safeRad_eq hr]; rfl
  · lp1 h; obtain ⟨r, hr, rfl⟩ := h
    rw [rotate_map, rotation_one_zero_zero, safeRad_eq hr]; rfl
  · lp1 h; obtain ⟨r, hr, rfl⟩ := h
    rw [rotate_map, rotation_zero_one_zero, safeRad_eq hr]; rfl
  · lp1 h; obtain ⟨r, hr, rfl⟩ := h
    rw [rotate_map, safeRad_eq hr]; rfl
  · lp1 h; obtain ⟨r, hr, s, hs, rfl⟩ := h
    ext <;> simp [Matrix3d.multiplyVector, Matrix3d.skew, trMap, skewing, safeRad_eq hr, safeRad_eq hs, mul_comm]
  · lp1 h; obtain ⟨r, hr, rfl⟩ := h
    ext <;> simp [Matrix3d.multiplyVector, Matrix3d.skew, trMap, skewing, safeRad_eq hr, mul_comm]
  · lp1 h; obtain ⟨r, hr, rfl⟩ := h
    ext <;> simp [Matrix3d.multiplyVector, Matrix3d.skew, trMap, skewing, safeRad_eq hr, mul_comm]
  · lp1 h; obtain ⟨r, hr, rfl⟩ := h
    simp only [Tr.farEnough] at hp
    have e := lenPx_eq (env := env) hr
    rw [← e] at hp
    ext <;> simp [Matrix3d.multiplyVector, Matrix3d.perspective, trMap, perspectiveMap, ← e, max_eq_left hp]
    ring
  · cases h; ext <;> simp [Matrix3d.multiplyVector, Matrix.toMatrix3d, trMap, affine, mul_comm]
  · cases h; ext <;> simp [Matrix3d.multiplyVector, trMap, projective, mul_comm]
  · cases h

theorem toMatrixFrom_map (env : Env) : ∀ (ts : List Tr) (acc m : Matrix3d), toMatrixFrom acc ts = some m → (∀ t ∈ ts, t.farEnough env) → ∀ p,
    m.multiplyVector p = acc.multiplyVector (compose (ts.map (trMap env)) p) := by
  intro ts
  induction ts with
  | nil => intro acc m h _ p; cases h; rfl
  | cons t ts ih =>
    intro acc m h hp p
    simp only [toMatrixFrom] at h
    split at h
    · rename_i m' hm'
      rw [ih _ _ h (fun t ht => hp t (List.mem_cons_of_mem _ ht)) p, C79_compose, toMatrix_map env t m' hm' (hp t List.mem_cons_self)]
      rfl
    · cases h

theorem parse_perspective {c : Call} {d : Len} (ht : parse c = some (.perspective d)) : ∃ a, c = ⟨.perspective, [a]⟩ ∧ parseLen a = some d := by
  unfold parse at ht
  split at ht
  · simp only [Option.bind_eq_bind, Option.bind_eq_some_iff, Option.some.injEq, reduceCtorEq, and_false, exists_false] at ht
  · rename_i a b c d e f g i j k l m n o p q
    generalize parseNum a = a at ht
    generalize parseNum b = b at ht
    generalize parseNum c = c at ht
    generalize parseNum d = d at ht
    generalize parseNum e = e at ht
    generalize parseNum f = f at ht
    generalize parseNum g = g at ht
    generalize parseNum i = i at ht
    generalize parseNum j = j at ht
    generalize parseNum k = k at ht
    generalize parseNum l = l at ht
    generalize parseNum m = m at ht
    generalize parseNum n = n at ht
    generalize parseNum o = o at ht
    generalize parseNum p = p at ht
    generalize parseNum q = q at ht
    cases a; · cases ht
    cases b; · cases ht
    cases c; · cases ht
    cases d; · cases ht
    cases e; · cases ht
    cases f; · cases ht
    cases g; · cases ht
    cases i; · cases ht
    cases j; · cases ht
    cases k; · cases ht
    cases l; · cases ht
    cases m; · cases ht
    cases n; · cases ht
    cases o; · cases ht
    cases p; · cases ht
    cases q; · cases ht
    cases ht
  all_goals try (simp only [Option.bind_eq_bind, Option.bind_eq_some_iff, Option.some.injEq, reduceCtorEq, and_false, exists_false] at ht)
  rename_i a
  obtain ⟨d', hd, e⟩ := ht
  cases e
  exact ⟨a, rfl, hd⟩

/-- If a valid `transform` is turned into one matrix, that matrix is the map of the whole value: of the composition of its functions.
Missing: perspectives from less than one pixel, where the matrix differs from what browsers use (`C80_small_perspective`). -/
theorem C80_toMatrix_partial (env : Env) (cs : List Call) (hne : cs ≠ []) (ts : List Tr) (f : Map) (m : Matrix3d)
    (hts : parseList (.calls cs) = some ts) (hf : valueMap env (.calls cs) = some (some f)) (hm : listToMatrix ts = some m)
    (hfar : ∀ v u, ⟨.perspective, [.len v u]⟩ ∈ cs → 1 ≤ v * pixels env u) (hzero : ∀ v, ⟨.perspective, [.num v]⟩ ∉ cs) (p : Vec4) :
    m.multiplyVector p = f p := by
  cases cs with
  | nil => exact absurd rfl hne
  | cons c cs =>
    simp only [valueMap, Option.map_eq_some_iff] at hf
    obtain ⟨fs, hfs, e⟩ := hf
    cases e
    simp only [parseList] at hts
    generalize c :: cs = l at *
    have key : ∀ (l : List Call) (fs : List Map) (ts : List Tr), l.mapM (callMap env) = some fs → l.mapM parse = some ts →
        (∀ t ∈ ts, t.toMatrix ≠ none) → (∀ v u, ⟨.perspective, [.len v u]⟩ ∈ l → 1 ≤ v * pixels env u) → (∀ v, ⟨.perspective, [.num v]⟩ ∉ l) →
        ts.map (trMap env) = fs ∧ ∀ t ∈ ts, t.farEnough env := by
      intro l
      induction l with
      | nil => intro fs ts h1 h2 _ _ _; cases h1; cases h2; simp
      | cons c l ih =>
        intro fs ts h1 h2 h3 h4 h5
        simp only [List.mapM_cons, Option.pure_def, Option.bind_eq_bind, Option.bind_eq_some_iff, Option.some.injEq] at h1 h2
        obtain ⟨f, hf, fs', hfs', rfl⟩ := h1
        obtain ⟨t, ht, ts', hts', rfl⟩ := h2
        obtain ⟨t', ht', e, _⟩ := parse_map env c f hf
        rw [ht] at ht'; cases ht'
        obtain ⟨i1, i2⟩ := ih fs' ts' hfs' hts' (fun t h => h3 t (List.mem_cons_of_mem _ h)) (fun v u h => h4 v u (List.mem_cons_of_mem _ h))
          (fun v h => h5 v (List.mem_cons_of_mem _ h))
        refine ⟨by simp [i1, e], ?_⟩
        intro s hs
        rcases List.mem_cons.mp hs with rfl | hs
        · have hmat := h3 s List.mem_cons_self
          cases s with
          | perspective d =>
            have hc : ∃ a, c = ⟨.perspective, [a]⟩ ∧ parseLen a = some d := by
              exact parse_perspective ht
            obtain ⟨a, rfl, ha⟩ := hc
            cases a with
            | len v u => cases ha; exact h4 v u List.mem_cons_self
            | num v => exact absurd List.mem_cons_self (h5 v)
            | lcalc i => cases ha; exact absurd rfl hmat
            | pct p => cases ha
            | ang a => cases ha
            | mcalc i => cases ha
            | axis i => cases ha
          | _ => trivial
        · exact i2 s hs
    have hall : ∀ (ts : List Tr) (acc : Matrix3d), toMatrixFrom acc ts = some m → ∀ t ∈ ts, t.toMatrix ≠ none := by
      intro ts
      induction ts with
      | nil => intro _ _ t ht; cases ht
      | cons t ts ih =>
        intro acc h s hs
        simp only [toMatrixFrom] at h
        split at h
        · rename_i m' hm'
          rcases List.mem_cons.mp hs with rfl | hs
          · simp [hm']
          · exact ih _ h s hs
        · cases h
    obtain ⟨k1, k2⟩ := key l fs ts hfs hts (hall ts _ hm) hfar hzero
    rw [toMatrixFrom_map env ts _ m hm k2 p, k1]
    ext <;> simp [Matrix3d.multiplyVector, Matrix3d.identity]

/-- `translate(1in) scale(2)` as one matrix: first scaled, then moved. -/
example : parseList (.calls [⟨.translate, [.len 1 .inch]⟩, ⟨.scale, [.num 2]⟩]) = some [.translate (.dim 1 .inch) .zero, .scale (.num 2) (.num 2)] ∧
    (valueMap exEnv (.calls [⟨.translate, [.len 1 .inch]⟩, ⟨.scale, [.num 2]⟩])).isSome ∧
    (listToMatrix [.translate (.dim 1 .inch) .zero, .scale (.num 2) (.num 2)]).map (fun m => m.multiplyVector ⟨1, 1, 0, 1⟩) = some ⟨98, 2, 0, 1⟩ := by
  refine ⟨by simp [parseList, parse, parseLP, parseLV, parseNP], by simp [valueMap, callMap, lengthPct, numberPct], ?_⟩
  simp [listToMatrix, toMatrixFrom, Tr.toMatrix, toPx, LP.zero, Matrix3d.multiply, Matrix3d.identity, Matrix3d.translate, Matrix3d.scale, Matrix3d.multiplyVector, NP.toNum]
  norm_num

/-- `perspective(0.5px)`: the matrix is that of half a pixel, browsers use one pixel. -/
theorem C80_small_perspective :
    (Tr.perspective (.val (1/2) .px)).toMatrix.map (fun m => m.multiplyVector ⟨0, 0, 1, 1⟩) = some ⟨0, 0, 1, -1⟩ ∧
    (callMap exEnv ⟨.perspective, [.len (1/2) .px]⟩).map (fun f => f ⟨0, 0, 1, 1⟩) = some ⟨0, 0, 1, 0⟩ := by
  constructor
  · simp [Tr.toMatrix, Len.toPx, toPx, Matrix3d.perspective, Matrix3d.multiplyVector]; norm_num
  · simp [callMap, distance, pixels, perspectiveMap]; norm_num

end Verif.Transform
