import Verif.MathFn.Examples
/-!
# Math functions: what is printed has the value that is stored (C58)
-/
set_option linter.unusedSectionVars false
namespace Verif.MathFn

variable {K : Type} [Field K] [LinearOrder K] [IsStrictOrderedRing K] [FloorRing K]
  {sqrt : K → K} {ρ : Env K}

/-! ### The shape of stored expressions -/

/-- A length or a percentage. -/
def Val.Lit : Val K → Prop
  | .dim _ _ | .pct _ => True
  | .calc _ => False

mutual
/-- A product has a function as its operand, and its factor is not zero; values are literals. -/
def Val.Shape : Val K → Prop
  | .dim _ _ | .pct _ => True
  | .calc c => c.Shape
/-- The same for an expression. -/
def Calc.Shape : Calc K → Prop
  | .value v => v.Lit
  | .number _ => True
  | .sum a b => a.Shape ∧ b.Shape
  | .product x (.func f) => x ≠ 0 ∧ f.Shape
  | .product _ _ => False
  | .func f => f.Shape
/-- The same for a function. -/
def Fn.Shape : Fn K → Prop
  | .calc c | .abs c | .sign c => c.Shape
  | .min l | .max l | .hypot l => ShapeArgs l
  | .clamp a b c => a.Shape ∧ b.Shape ∧ c.Shape
  | .round _ a b | .rem a b | .mod a b => a.Shape ∧ b.Shape
/-- The same for arguments. -/
def ShapeArgs : List (Calc K) → Prop
  | [] => True
  | c :: cs => c.Shape ∧ ShapeArgs cs
end

theorem Val.Lit.shape {v : Val K} (h : v.Lit) : v.Shape := by
  cases v <;> simp_all [Val.Lit, Val.Shape]

theorem Val.Lit.mul {v : Val K} (h : v.Lit) (k : K) : (v.mul k).Lit := by
  cases v <;> simp_all [Val.Lit, Val.mul]

theorem shape_product (x : K) (c : Calc K) (h : (Calc.product x c).Shape) :
    x ≠ 0 ∧ c.Shape ∧ ∃ f, c = .func f := by
  cases c with
  | func f => exact ⟨h.1, h.2, f, rfl⟩
  | _ => exact h.elim

theorem shapeArgs_iff (l : List (Calc K)) : ShapeArgs l ↔ ∀ c ∈ l, c.Shape := by
  induction l with
  | nil => simp [ShapeArgs]
  | cons c l ih => simp [ShapeArgs, ih]

/-! ### Reading -/

/-- Nothing, or `+` or `-` and more. -/
def Closed : List (Tok K) → Prop
  | [] => True
  | .plus :: _ | .minus :: _ => True
  | _ => False

theorem read_have (s p : K) (rest : List (Tok K)) (h : Closed rest) :
    readSum sqrt ρ s (.have p) rest = readSum sqrt ρ (s + p) (.have 0) rest := by
  unfold Closed at h
  split at h
  · simp only [readSum, add_zero]
  · simp only [readSum, add_zero]
  · simp only [readSum, add_zero]
  · exact h.elim

theorem clampTok_eval (noClamp : Bool) (a b c : List (Tok K)) (x y z : K)
    (ha : readSum sqrt ρ 0 (.sign 1) a = some x) (hb : readSum sqrt ρ 0 (.sign 1) b = some y)
    (hc : readSum sqrt ρ 0 (.sign 1) c = some z) :
    (clampTok noClamp a b c).eval sqrt ρ = some (max x (min y z)) := by
  cases noClamp with
  | false => simp [clampTok, Tok.eval, ha, hb, hc]
  | true =>
    simp [clampTok, Tok.eval, readArgs, ha, hb, hc, readSum, minOf, maxOf]

theorem read_nil (c : List (Tok K)) (x : K)
    (h : ∀ (s : K) (rest : List (Tok K)), Closed rest →
      readSum sqrt ρ s (.sign 1) (c ++ rest) = readSum sqrt ρ (s + x) (.have 0) rest) :
    readSum sqrt ρ 0 (.sign 1) c = some x := by
  have := h 0 [] trivial
  simpa [readSum] using this

theorem read_atom (t : Tok K) (x g s : K) (rest : List (Tok K)) (hr : Closed rest)
    (h : t.eval sqrt ρ = some x) :
    readSum sqrt ρ s (.sign g) ([t] ++ rest) = readSum sqrt ρ (s + g * x) (.have 0) rest := by
  rw [List.singleton_append, readSum, h, Option.bind_some, read_have _ _ _ hr]

theorem read_times (t : Tok K) (k x g s : K) (rest : List (Tok K)) (hr : Closed rest)
    (h : t.eval sqrt ρ = some x) :
    readSum sqrt ρ s (.sign g) ([.num k, .times, t] ++ rest) =
      readSum sqrt ρ (s + g * (k * x)) (.have 0) rest := by
  simp only [List.cons_append, List.nil_append]
  rw [readSum]
  simp only [Tok.eval, Option.bind_some]
  rw [readSum, readSum, h, Option.bind_some, read_have _ _ _ hr, mul_assoc]

theorem read_slash (t : Tok K) (k x g s : K) (hk : k ≠ 0) (rest : List (Tok K)) (hr : Closed rest)
    (h : t.eval sqrt ρ = some x) :
    readSum sqrt ρ s (.sign g) ([t, .slash, .num (1 / k)] ++ rest) =
      readSum sqrt ρ (s + g * (k * x)) (.have 0) rest := by
  simp only [List.cons_append, List.nil_append]
  rw [readSum, h, Option.bind_some, readSum, readSum]
  simp only [Tok.eval, Option.bind_some]
  rw [if_neg (by simpa using hk), read_have _ _ _ hr]
  congr 2
  field_simp

/-- A product as it is printed. -/
theorem read_product (f : Fn K) (t : Tok K) (b : Bool) (hp : f.print b = [t]) (x k g s : K) (hk : k ≠ 0)
    (rest : List (Tok K)) (hr : Closed rest) (h : t.eval sqrt ρ = some x) :
    readSum sqrt ρ s (.sign g) ((if |k| < 1 then
        (Calc.func f).print b ++ [.slash, if k = 0 then .inf else .num (1 / k)]
      else .num k :: .times :: (Calc.func f).print b) ++ rest) =
      readSum sqrt ρ (s + g * (k * x)) (.have 0) rest := by
  simp only [Calc.print, hp, if_neg hk]
  split
  · exact read_slash t k x g s hk rest hr h
  · exact read_times t k x g s rest hr h

/-- What is to be shown of an expression. -/
structure ReadsAs (sqrt : K → K) (ρ : Env K) (toks neg : List (Tok K)) (sign : Option K) (x : K) : Prop where
  pos : ∀ (s : K) (rest : List (Tok K)), Closed rest →
    readSum sqrt ρ s (.sign 1) (toks ++ rest) = readSum sqrt ρ (s + x) (.have 0) rest
  neg : sign.isSome → ∀ (g s : K) (rest : List (Tok K)), Closed rest →
    readSum sqrt ρ s (.sign g) (neg ++ rest) = readSum sqrt ρ (s - g * x) (.have 0) rest

theorem readsAs_fn (f : Fn K) (b : Bool) (t : Tok K) (x : K) (hp : f.print b = [t])
    (hn : f.printNeg b = [.num (-1), .times, t]) (h : t.eval sqrt ρ = some x) :
    ∃ t, f.print b = [t] ∧ t.eval sqrt ρ = some x ∧
      (f.trySign.isSome → ∀ (g s : K) (rest : List (Tok K)), Closed rest →
        readSum sqrt ρ s (.sign g) (f.printNeg b ++ rest) = readSum sqrt ρ (s - g * x) (.have 0) rest) := by
  refine ⟨t, hp, h, fun _ g s rest hr => ?_⟩
  rw [hn, read_times t _ x g s rest hr h]
  congr 1; ring

mutual
theorem Val.reads (b : Bool) : ∀ v : Val K, v.Shape →
    ReadsAs sqrt ρ (v.print b) (v.printNeg b) v.trySign (v.eval sqrt ρ)
  | .dim u x, _ => by
    refine ⟨fun s rest hr => ?_, fun _ g s rest hr => ?_⟩
    · rw [Val.print, read_atom _ _ 1 s rest hr (by simp only [Tok.eval]; rfl)]
      simp only [Val.eval, one_mul]
    · rw [Val.printNeg, read_atom _ _ g s rest hr (by simp only [Tok.eval]; rfl)]
      simp only [Val.eval]; congr 1; ring
  | .pct x, _ => by
    refine ⟨fun s rest hr => ?_, fun _ g s rest hr => ?_⟩
    · rw [Val.print, read_atom _ _ 1 s rest hr (by simp only [Tok.eval]; rfl)]
      simp only [Val.eval, one_mul]
    · rw [Val.printNeg, read_atom _ _ g s rest hr (by simp only [Tok.eval]; rfl)]
      simp only [Val.eval]; congr 1; ring
  | .calc c, h => by
    have := Calc.reads b c (by simpa only [Val.Shape] using h)
    simpa only [Val.print, Val.printNeg, Val.trySign, Val.eval] using this
theorem Calc.reads (b : Bool) : ∀ c : Calc K, c.Shape →
    ReadsAs sqrt ρ (c.print b) (c.printNeg b) c.trySign (c.eval sqrt ρ)
  | .value v, h => by
    have := Val.reads b v (Val.Lit.shape (by simpa only [Calc.Shape] using h))
    simpa only [Calc.print, Calc.printNeg, Calc.trySign, Calc.eval] using this
  | .number x, _ => by
    refine ⟨fun s rest hr => ?_, fun _ g s rest hr => ?_⟩
    · rw [Calc.print, read_atom _ _ 1 s rest hr (by simp only [Tok.eval]; rfl)]
      simp only [Calc.eval, one_mul]
    · rw [Calc.printNeg, read_atom _ _ g s rest hr (by simp only [Tok.eval]; rfl)]
      simp only [Calc.eval]; congr 1; ring
  | .sum p q, h => by
    simp only [Calc.Shape] at h
    have hp := Calc.reads b p h.1
    have hq := Calc.reads b q h.2
    refine ⟨fun s rest hr => ?_, fun hs => by simp [Calc.trySign] at hs⟩
    rw [Calc.print]
    split
    · rename_i hneg
      have hsome : q.trySign.isSome := by
        cases hq : q.trySign with
        | none => simp [isNeg, hq] at hneg
        | some _ => rfl
      rw [List.append_assoc, List.cons_append, hp.pos _ _ (by simp [Closed]), readSum]
      simp only [add_zero]
      rw [hq.neg hsome _ _ _ hr]
      simp only [Calc.eval]; congr 1; ring
    · rw [List.append_assoc, List.cons_append, hp.pos _ _ (by simp [Closed]), readSum]
      simp only [add_zero]
      rw [hq.pos _ _ hr]
      simp only [Calc.eval]; congr 1; ring
  | .product x (.func f), h => by
    simp only [Calc.Shape] at h
    obtain ⟨t, hp, ht, hn⟩ := Fn.reads b f h.2
    refine ⟨fun s rest hr => ?_, fun _ g s rest hr => ?_⟩
    · rw [Calc.print, read_product f t b hp _ x 1 s h.1 rest hr ht]
      simp only [Calc.eval, one_mul]
    · rw [Calc.printNeg]
      split
      · rename_i h1
        rw [Calc.print, hp, read_atom _ _ g s rest hr ht]
        simp only [Calc.eval]
        congr 1
        have : x = -1 := by linarith
        rw [this]; ring
      · have hx : x * -1 ≠ 0 := by simpa using h.1
        rw [read_product f t b hp _ (x * -1) g s hx rest hr ht]
        simp only [Calc.eval]; congr 1; ring
  | .func f, h => by
    simp only [Calc.Shape] at h
    obtain ⟨t, hp, ht, hn⟩ := Fn.reads b f h
    refine ⟨fun s rest hr => ?_, ?_⟩
    · rw [Calc.print, hp, read_atom _ _ 1 s rest hr ht]
      simp only [Calc.eval, one_mul]
    · simpa only [Calc.printNeg, Calc.trySign, Calc.eval] using hn
theorem Fn.reads (b : Bool) : ∀ f : Fn K, f.Shape →
    ∃ t, f.print b = [t] ∧ t.eval sqrt ρ = some (f.eval sqrt ρ) ∧
      (f.trySign.isSome → ∀ (g s : K) (rest : List (Tok K)), Closed rest →
        readSum sqrt ρ s (.sign g) (f.printNeg b ++ rest) =
          readSum sqrt ρ (s - g * f.eval sqrt ρ) (.have 0) rest)
  | .calc c, h => by
    simp only [Fn.Shape] at h
    have hc := Calc.reads b c h
    refine ⟨.calc (c.print b), by simp only [Fn.print], ?_, fun hs g s rest hr => ?_⟩
    · simp only [Tok.eval, Fn.eval]; exact read_nil _ _ hc.pos
    · simp only [Fn.trySign] at hs
      have hn : readSum sqrt ρ 0 (.sign 1) (c.printNeg b) = some (-(c.eval sqrt ρ)) := by
        have := hc.neg hs 1 0 [] trivial
        simpa [readSum] using this
      rw [Fn.printNeg, read_atom _ (-(c.eval sqrt ρ)) g s rest hr (by simp only [Tok.eval]; exact hn)]
      simp only [Fn.eval]; congr 1; ring
  | .min l, h => by
    simp only [Fn.Shape] at h
    have hl := args_read b l h
    exact readsAs_fn _ b (.min (printArgs b l)) _ (by simp only [Fn.print]) (by simp only [Fn.printNeg])
      (by simp only [Tok.eval, hl, Option.map_some, Fn.eval])
  | .max l, h => by
    simp only [Fn.Shape] at h
    have hl := args_read b l h
    exact readsAs_fn _ b (.max (printArgs b l)) _ (by simp only [Fn.print]) (by simp only [Fn.printNeg])
      (by simp only [Tok.eval, hl, Option.map_some, Fn.eval])
  | .clamp p q r, h => by
    simp only [Fn.Shape] at h
    have hp := read_nil _ _ (Calc.reads b p h.1).pos
    have hq := read_nil _ _ (Calc.reads b q h.2.1).pos
    have hr := read_nil _ _ (Calc.reads b r h.2.2).pos
    exact readsAs_fn _ b (clampTok b (p.print b) (q.print b) (r.print b)) _ (by simp only [Fn.print]) (by simp only [Fn.printNeg])
      (by simp only [Fn.eval]; exact clampTok_eval b _ _ _ _ _ _ hp hq hr)
  | .round st p q, h => by
    simp only [Fn.Shape] at h
    have hp := read_nil _ _ (Calc.reads b p h.1).pos
    have hq := read_nil _ _ (Calc.reads b q h.2).pos
    exact readsAs_fn _ b (.round (if st = .nearest then none else some st) (p.print b) (q.print b)) _ (by simp only [Fn.print]) (by simp only [Fn.printNeg])
      (by
        simp only [Tok.eval, hp, hq, Fn.eval, Option.bind_eq_bind, Option.bind_some]
        split
        · rename_i hs; simp only [hs, Option.getD_none]
        · simp only [Option.getD_some])
  | .rem p q, h => by
    simp only [Fn.Shape] at h
    have hp := read_nil _ _ (Calc.reads b p h.1).pos
    have hq := read_nil _ _ (Calc.reads b q h.2).pos
    exact readsAs_fn _ b (.rem (p.print b) (q.print b)) _ (by simp only [Fn.print]) (by simp only [Fn.printNeg])
      (by simp only [Tok.eval, hp, hq, Fn.eval, Option.bind_eq_bind, Option.bind_some])
  | .mod p q, h => by
    simp only [Fn.Shape] at h
    have hp := read_nil _ _ (Calc.reads b p h.1).pos
    have hq := read_nil _ _ (Calc.reads b q h.2).pos
    exact readsAs_fn _ b (.mod (p.print b) (q.print b)) _ (by simp only [Fn.print]) (by simp only [Fn.printNeg])
      (by simp only [Tok.eval, hp, hq, Fn.eval, Option.bind_eq_bind, Option.bind_some])
  | .abs c, h => by
    simp only [Fn.Shape] at h
    have hc := read_nil _ _ (Calc.reads b c h).pos
    exact readsAs_fn _ b (.abs (c.print b)) _ (by simp only [Fn.print]) (by simp only [Fn.printNeg])
      (by simp only [Tok.eval, hc, Fn.eval, Option.map_some])
  | .sign c, h => by
    simp only [Fn.Shape] at h
    have hc := read_nil _ _ (Calc.reads b c h).pos
    exact readsAs_fn _ b (.sign (c.print b)) _ (by simp only [Fn.print]) (by simp only [Fn.printNeg])
      (by simp only [Tok.eval, hc, Fn.eval, Option.map_some])
  | .hypot l, h => by
    simp only [Fn.Shape] at h
    have hl := args_read b l h
    exact readsAs_fn _ b (.hypot (printArgs b l)) _ (by simp only [Fn.print]) (by simp only [Fn.printNeg])
      (by simp only [Tok.eval, hl, Option.map_some, Fn.eval])
theorem args_read (b : Bool) : ∀ l : List (Calc K), ShapeArgs l →
    readArgs sqrt ρ (printArgs b l) = some (evalCalcs sqrt ρ l)
  | [], _ => by simp only [printArgs, readArgs, evalCalcs]
  | c :: l, h => by
    simp only [ShapeArgs] at h
    have hc := read_nil _ _ (Calc.reads b c h.1).pos
    have hl := args_read b l h.2
    simp only [printArgs, readArgs, hc, hl, evalCalcs, Option.bind_eq_bind, Option.bind_some]
end

/-! ### The model of the negated operand -/

mutual
theorem Val.printNeg_eq (b : Bool) : ∀ v : Val K, v.trySign.isSome → v.printNeg b = (v.mul (-1)).print b
  | .dim u x, _ => by simp only [Val.printNeg, Val.mul, Val.print]
  | .pct x, _ => by simp only [Val.printNeg, Val.mul, Val.print]
  | .calc c, h => by
    simp only [Val.trySign] at h
    simp only [Val.printNeg, Val.mul, Val.print, Calc.printNeg_eq b c h]
/-- `printNeg` is the text of `b * -1`, as in the code. -/
theorem Calc.printNeg_eq (b : Bool) : ∀ c : Calc K, c.trySign.isSome → c.printNeg b = (c.mul (-1)).print b
  | .value v, h => by
    simp only [Calc.trySign] at h
    have hn : ¬ (-1 : K) = 1 := by linarith
    simp only [Calc.printNeg, Calc.mul, if_neg hn, Calc.print, Val.printNeg_eq b v h]
  | .number x, _ => by
    have hn : ¬ (-1 : K) = 1 := by linarith
    simp only [Calc.printNeg, Calc.mul, if_neg hn, Calc.print]
  | .sum _ _, h => by simp [Calc.trySign] at h
  | .product x c, _ => by
    have hn : ¬ (-1 : K) = 1 := by linarith
    simp only [Calc.printNeg, Calc.mul, if_neg hn]
    split
    · rfl
    · simp only [Calc.print]
  | .func f, h => by
    simp only [Calc.trySign] at h
    simp only [Calc.printNeg, Fn.printNeg_eq b f h]
theorem Fn.printNeg_eq (b : Bool) : ∀ f : Fn K, f.trySign.isSome →
    f.printNeg b = ((Calc.func f).mul (-1)).print b
  | .calc c, h => by
    simp only [Fn.trySign] at h
    have hn : ¬ (-1 : K) = 1 := by linarith
    simp only [Fn.printNeg, Calc.mul, if_neg hn, Calc.print, Fn.print, Calc.printNeg_eq b c h]
  | .min _, _ | .max _, _ | .clamp _ _ _, _ | .round _ _ _, _ | .rem _ _, _ | .mod _ _, _ | .abs _, _
  | .sign _, _ | .hypot _, _ => by
    have hn : ¬ (-1 : K) = 1 := by linarith
    have hl : ¬ |(-1 : K)| < 1 := by simp
    simp only [Fn.printNeg, Calc.mul, if_neg hn, Calc.print, if_neg hl, Fn.print]
end

/-! ### The shape is kept -/

mutual
theorem Val.mul_shape (k : K) (hk : k ≠ 0) : ∀ v : Val K, v.Shape → (v.mul k).Shape
  | .dim u x, _ => by simp only [Val.mul, Val.Shape]
  | .pct x, _ => by simp only [Val.mul, Val.Shape]
  | .calc c, h => by
    simp only [Val.Shape] at h
    simp only [Val.mul, Val.Shape, Calc.mul_shape k hk c h]
theorem Calc.mul_shape (k : K) (hk : k ≠ 0) : ∀ c : Calc K, c.Shape → (c.mul k).Shape
  | .value v, h => by
    have := Val.Lit.mul (v := v) (by simpa only [Calc.Shape] using h) k
    simp only [Calc.mul]
    split
    · exact h
    · simpa only [Calc.Shape] using this
  | .number x, h => by
    simp only [Calc.mul]
    split <;> simp only [Calc.Shape]
  | .sum a b, h => by
    simp only [Calc.Shape] at h
    have ha := Calc.mul_shape k hk a h.1
    have hb := Calc.mul_shape k hk b h.2
    simp only [Calc.mul]
    split
    · simp only [Calc.Shape, h, and_self]
    · simp only [Calc.Shape, ha, hb, and_self]
  | .product x c, h => by
    obtain ⟨h0, hc, f, rfl⟩ := shape_product x c h
    simp only [Calc.Shape] at hc
    simp only [Calc.mul]
    split
    · exact h
    · split
      · simpa only [Calc.Shape] using hc
      · simp only [Calc.Shape, hc, and_true]; exact mul_ne_zero h0 hk
  | .func (.calc c), h => by
    simp only [Calc.Shape, Fn.Shape] at h
    have := Calc.mul_shape k hk c h
    simp only [Calc.mul]
    split <;> simp only [Calc.Shape, Fn.Shape, h, this]
  | .func (.min _), h | .func (.max _), h | .func (.clamp _ _ _), h | .func (.round _ _ _), h
  | .func (.rem _ _), h | .func (.mod _ _), h | .func (.abs _), h | .func (.sign _), h
  | .func (.hypot _), h => by
    simp only [Calc.mul]
    split
    · exact h
    · simp only [Calc.Shape] at h ⊢
      exact ⟨hk, h⟩
end

theorem toCalc_shape (v : Val K) (h : v.Shape) : v.toCalc.Shape := by
  cases v <;> simp_all [Val.toCalc, Calc.Shape, Val.Shape, Val.Lit]

theorem lvTryAdd_shape (u v : Unit) (x y : K) (r : Val K) (h : lvTryAdd u x v y = some r) : r.Shape := by
  unfold lvTryAdd at h
  split at h
  · simp only [Option.some.injEq] at h; subst h; simp only [Val.Shape]
  · split at h
    · simp only [Option.some.injEq] at h; subst h; simp only [Val.Shape]
    · cases h

/-- The four functions of addition keep the shape. -/
def AddShape (K : Type) [Field K] [LinearOrder K] [FloorRing K] (n : Nat) : Prop :=
  (∀ a b r : Val K, a.Shape → b.Shape → addInternal n a b = some r → r.Shape) ∧
  (∀ a b r : Val K, a.Shape → b.Shape → addRec n a b = some (some r) → r.Shape) ∧
  (∀ a b r : Val K, a.Shape → b.Shape → addInh n a b = some r → r.Shape) ∧
  (∀ a b r : Calc K, a.Shape → b.Shape → calcAdd n a b = some r → r.Shape)

theorem add_shape (n : Nat) : AddShape K n := by
  induction n with
  | zero => refine ⟨?_, ?_, ?_, ?_⟩ <;> intros <;> simp_all [addInternal, addRec, addInh, calcAdd]
  | succ n ih =>
    obtain ⟨hA, hR, hI, hC⟩ := ih
    refine ⟨?_, ?_, ?_, ?_⟩
    · intro a b r ha hb h
      simp only [addInternal, Option.bind_eq_bind, Option.bind_eq_some_iff] at h
      obtain ⟨o, ho, h⟩ := h
      cases o with
      | some r' =>
        simp only [Option.some.injEq] at h
        subst h
        exact hR _ _ _ ha hb ho
      | none => exact hI _ _ _ ha hb h
    · intro a b r ha hb h
      rw [addRec.eq_def] at h
      simp only at h
      split at h
      · simp only [Option.some.injEq] at h
        exact lvTryAdd_shape _ _ _ _ _ h
      · simp only [Option.some.injEq] at h
        subst h
        simp only [Val.Shape]
      · simp only [Val.Shape, Calc.Shape] at ha
        exact hR _ _ _ ha.shape hb h
      · simp only [Val.Shape, Calc.Shape] at ha
        simp only [Option.bind_eq_bind, Option.bind_eq_some_iff] at h
        obtain ⟨o, ho, h⟩ := h
        cases o with
        | some res =>
          simp only [Option.bind_eq_some_iff, Option.some.injEq] at h
          obtain ⟨r', hr, rfl⟩ := h
          have h1 := hR _ _ _ (by simpa only [Val.Shape] using ha.1) hb ho
          exact hI _ _ _ h1 (by simpa only [Val.Shape] using ha.2) hr
        | none =>
          simp only [Option.bind_eq_some_iff] at h
          obtain ⟨o, ho', h⟩ := h
          cases o with
          | some res =>
            simp only [Option.bind_eq_some_iff, Option.some.injEq] at h
            obtain ⟨r', hr, rfl⟩ := h
            have h1 := hR _ _ _ (by simpa only [Val.Shape] using ha.2) hb ho'
            exact hI _ _ _ (by simpa only [Val.Shape] using ha.1) h1 hr
          | none => simp at h
      · simp at h
      · simp only [Val.Shape, Calc.Shape] at hb
        exact hR _ _ _ ha hb.shape h
      · simp only [Val.Shape, Calc.Shape] at hb
        simp only [Option.bind_eq_bind, Option.bind_eq_some_iff] at h
        obtain ⟨o, ho, h⟩ := h
        cases o with
        | some res =>
          simp only [Option.bind_eq_some_iff, Option.some.injEq] at h
          obtain ⟨r', hr, rfl⟩ := h
          have h1 := hR _ _ _ ha (by simpa only [Val.Shape] using hb.1) ho
          exact hI _ _ _ h1 (by simpa only [Val.Shape] using hb.2) hr
        | none =>
          simp only [Option.bind_eq_some_iff] at h
          obtain ⟨o, ho', h⟩ := h
          cases o with
          | some res =>
            simp only [Option.bind_eq_some_iff, Option.some.injEq] at h
            obtain ⟨r', hr, rfl⟩ := h
            have h1 := hR _ _ _ ha (by simpa only [Val.Shape] using hb.2) ho'
            exact hI _ _ _ (by simpa only [Val.Shape] using hb.1) h1 hr
          | none => simp at h
      · simp at h
    · intro a b r ha hb h
      rw [addInh.eq_def] at h
      simp only at h
      split at h
      · simp only [Option.some.injEq] at h
        exact h ▸ hb
      · split at h
        · simp only [Option.some.injEq] at h
          exact h ▸ ha
        · have key : ∀ x y : Val K, x.Shape → y.Shape → (match (x, y) with
              | (.calc a, .calc b) => do some (Val.calc (← calcAdd n a b))
              | (.calc (.value a), b) => addInh n a b
              | (.calc c, b) => some (.calc (.sum c b.toCalc))
              | (a, .calc (.value b)) => addInh n a b
              | (a, .calc c) => some (.calc (.sum a.toCalc c))
              | (a, b) => some (.calc (.sum a.toCalc b.toCalc))) = some r → r.Shape := by
            intro x y hx hy h
            split at h <;> rename_i heq <;> simp only [Prod.mk.injEq] at heq <;> obtain ⟨rfl, rfl⟩ := heq
            · simp only [Option.bind_eq_bind, Option.bind_eq_some_iff, Option.some.injEq] at h
              obtain ⟨c, hc, rfl⟩ := h
              simp only [Val.Shape] at hx hy ⊢
              exact hC _ _ _ hx hy hc
            · simp only [Val.Shape, Calc.Shape] at hx
              exact hI _ _ _ hx.shape hy h
            · simp only [Option.some.injEq] at h
              subst h
              simp only [Val.Shape, Calc.Shape] at hx ⊢
              exact ⟨hx, toCalc_shape _ hy⟩
            · simp only [Val.Shape, Calc.Shape] at hy
              exact hI _ _ _ hx hy.shape h
            · simp only [Option.some.injEq] at h
              subst h
              simp only [Val.Shape, Calc.Shape] at hy ⊢
              exact ⟨toCalc_shape _ hx, hy⟩
            · simp only [Option.some.injEq] at h
              subst h
              simp only [Val.Shape, Calc.Shape]
              exact ⟨toCalc_shape _ hx, toCalc_shape _ hy⟩
          by_cases hs : (isNeg a.trySign && isPos b.trySign) = true
          · rw [if_pos hs] at h
            exact key _ _ hb ha h
          · rw [if_neg hs] at h
            exact key _ _ ha hb h
    · intro a b r ha hb h
      rw [calcAdd.eq_def] at h
      simp only at h
      split at h
      case h_1 =>
        simp only [Option.bind_eq_bind, Option.bind_eq_some_iff, Option.some.injEq] at h
        obtain ⟨v, hv, rfl⟩ := h
        simp only [Calc.Shape] at ha hb
        exact toCalc_shape _ (hA _ _ _ ha.shape hb.shape hv)
      case h_2 =>
        simp only [Option.some.injEq] at h
        subst h
        simp only [Calc.Shape]
      case h_3 =>
        simp only [Calc.Shape] at ha
        split at h <;> simp only [Option.some.injEq] at h <;> subst h <;> simp_all [Calc.Shape]
      case h_4 =>
        simp only [Calc.Shape] at hb
        split at h <;> simp only [Option.some.injEq] at h <;> subst h <;> simp_all [Calc.Shape]
      case h_11 =>
        simp only [Option.bind_eq_bind, Option.bind_eq_some_iff, Option.some.injEq] at h
        obtain ⟨v, hv, rfl⟩ := h
        simp only [Calc.Shape] at ha
        exact toCalc_shape _ (hA _ _ _ ha.shape (by simpa only [Val.Shape] using hb) hv)
      case h_12 =>
        simp only [Option.bind_eq_bind, Option.bind_eq_some_iff, Option.some.injEq] at h
        obtain ⟨v, hv, rfl⟩ := h
        simp only [Calc.Shape] at hb
        exact toCalc_shape _ (hA _ _ _ (by simpa only [Val.Shape] using ha) hb.shape hv)
      case h_13 =>
        simp only [Option.bind_eq_bind, Option.bind_eq_some_iff, Option.some.injEq] at h
        obtain ⟨v, hv, rfl⟩ := h
        exact toCalc_shape _ (hA _ _ _ (by simpa only [Val.Shape] using ha)
          (by simpa only [Val.Shape] using hb) hv)
      all_goals
        simp only [Option.some.injEq] at h
        subst h
        rw [Calc.Shape]
        exact ⟨ha, hb⟩

theorem reduceInto_mem (cmp : Ordering) (arg : Calc K) (l : List (Calc K)) (c : Calc K)
    (h : c ∈ reduceInto cmp arg l) : c = arg ∨ c ∈ l := by
  induction l with
  | nil => simpa [reduceInto] using h
  | cons b l ih =>
    rw [reduceInto] at h
    split at h
    · split at h <;> simp only [List.mem_cons] at h ⊢ <;> tauto
    · simp only [List.mem_cons] at h ⊢
      rcases h with h | h
      · tauto
      · rcases ih h with h | h <;> tauto

theorem reduceArgs_mem (cmp : Ordering) (l : List (Calc K)) (c : Calc K) (h : c ∈ reduceArgs cmp l) :
    c ∈ l := by
  have key : ∀ (l acc : List (Calc K)), c ∈ l.foldl (fun r a => reduceInto cmp a r) acc →
      c ∈ l ∨ c ∈ acc := by
    intro l
    induction l with
    | nil => intro acc h; exact .inr h
    | cons a l ih =>
      intro acc h
      rw [List.foldl_cons] at h
      rcases ih _ h with h | h
      · simp [h]
      · rcases reduceInto_mem _ _ _ _ h with h | h <;> simp [h]
  simpa using key l [] h

theorem mkMinMax_shape (f : List (Calc K) → Fn K) (hf : ∀ l, ShapeArgs l → (f l).Shape) (cmp : Ordering)
    (l : List (Calc K)) (h : ShapeArgs l) : (mkMinMax f cmp l).Shape := by
  have hr : ShapeArgs (reduceArgs cmp l) :=
    (shapeArgs_iff _).2 fun c hc => (shapeArgs_iff _).1 h c (reduceArgs_mem cmp l c hc)
  unfold mkMinMax
  split
  · rename_i c hc
    rw [hc] at hr
    exact hr.1
  · rw [Calc.Shape]; exact hf _ hr

theorem mkClamp_shape (a b c : Calc K) (ha : a.Shape) (hb : b.Shape) (hc : c.Shape) :
    (mkClamp a b c).Shape := by
  unfold mkClamp
  cases argCmp b c with
  | none => simp [Calc.Shape, Fn.Shape, ha, hb, hc]
  | some o =>
    cases o <;> simp only [Option.isSome_some, if_true]
    · cases argCmp b a with
      | none => simp [Calc.Shape, Fn.Shape, ShapeArgs, ha, hb]
      | some o => cases o <;> simp [ha, hb]
    · cases argCmp b a with
      | none => simp [Calc.Shape, Fn.Shape, ShapeArgs, ha, hb]
      | some o => cases o <;> simp [ha, hb]
    · cases argCmp c a with
      | none => simp [Calc.Shape, Fn.Shape, ShapeArgs, ha, hc]
      | some o => cases o <;> simp [ha, hc]

/-- A length, a percentage or a number. -/
def Calc.Leaf : Calc K → Prop
  | .value (.dim _ _) | .value (.pct _) | .number _ => True
  | _ => False

theorem Calc.Leaf.shape {c : Calc K} (h : c.Leaf) : c.Shape := by
  unfold Calc.Leaf at h
  split at h <;> simp_all [Calc.Shape, Val.Shape, Val.Lit]

theorem applyOp_leaf (op : K → K → K) (a b c : Calc K) (h : applyOp op a b = some c) : c.Leaf := by
  unfold applyOp at h
  split at h
  · simp only [Option.map_eq_some_iff] at h
    obtain ⟨v, hv, rfl⟩ := h
    unfold Val.tryOp at hv
    split at hv
    · split at hv
      · simp only [Option.some.injEq] at hv; subst hv; trivial
      · split at hv
        · simp only [Option.some.injEq] at hv; subst hv; trivial
        · cases hv
    · simp only [Option.some.injEq] at hv; subst hv; trivial
    · cases hv
  · simp only [Option.some.injEq] at h; subst h; trivial
  · cases h

theorem applyMap_leaf (op : K → K) (a c : Calc K) (h : applyMap op a = some c) : c.Leaf := by
  unfold applyMap at h
  split at h
  · simp only [Option.some.injEq] at h; subst h; trivial
  · simp only [Option.map_eq_some_iff] at h
    obtain ⟨v, hv, rfl⟩ := h
    unfold Val.tryMap at hv
    split at hv
    · simp only [Option.some.injEq] at hv; subst hv; trivial
    · cases hv
  · cases h

theorem parseHypot_leaf (l : List (Calc K)) (c : Calc K) (h : parseHypot sqrt l = some c) :
    l = [c] ∨ c.Leaf := by
  unfold parseHypot at h
  split at h
  · simp only [Option.some.injEq] at h; subst h; exact .inl rfl
  · exact .inr (applyOp_leaf _ _ _ _ h)
  · cases h
  · simp only [Option.bind_eq_bind, Option.bind_eq_some_iff] at h
    obtain ⟨_, _, _, _, h⟩ := h
    exact .inr (applyMap_leaf _ _ _ h)

mutual
/-- No operand of `*` has the value zero. -/
def Src.NonzeroFactors (sqrt : K → K) (ρ : Env K) : Src K → Prop
  | .num _ | .dim _ _ | .pct _ => True
  | .mul a b => (a.eval sqrt ρ ≠ 0 ∧ b.eval sqrt ρ ≠ 0) ∧ a.NonzeroFactors sqrt ρ ∧ b.NonzeroFactors sqrt ρ
  | .add a b | .sub a b | .div a b | .rem a b | .mod a b | .round _ a b =>
      a.NonzeroFactors sqrt ρ ∧ b.NonzeroFactors sqrt ρ
  | .calc a | .abs a | .sign a => a.NonzeroFactors sqrt ρ
  | .min l | .max l | .hypot l => NonzeroArgs sqrt ρ l
  | .clamp a b c => a.NonzeroFactors sqrt ρ ∧ b.NonzeroFactors sqrt ρ ∧ c.NonzeroFactors sqrt ρ
/-- The same for arguments. -/
def NonzeroArgs (sqrt : K → K) (ρ : Env K) : List (Src K) → Prop
  | [] => True
  | a :: l => a.NonzeroFactors sqrt ρ ∧ NonzeroArgs sqrt ρ l
end

mutual
theorem parse_shape (hs : SqrtLaws sqrt) (hb : 0 ≤ ρ.base) (n : Nat) : ∀ (s : Src K) (c : Calc K),
    s.Fine sqrt ρ → s.NonzeroFactors sqrt ρ → s.parse sqrt n = .ok c → c.Shape
  | .num x, c, _, _, h => by
    simp only [Src.parse, Res.ok.injEq] at h; subst h; simp only [Calc.Shape]
  | .dim u x, c, _, _, h => by
    simp only [Src.parse, Res.ok.injEq] at h; subst h; simp only [Calc.Shape, Val.Lit]
  | .pct x, c, _, _, h => by
    simp only [Src.parse, Res.ok.injEq] at h; subst h; simp only [Calc.Shape, Val.Lit]
  | .add a b, c, hf, hz, h => by
    simp only [Src.parse] at h
    simp only [Src.Fine] at hf
    simp only [Src.NonzeroFactors] at hz
    obtain ⟨x, hx, h⟩ := Res.bind_ok h
    obtain ⟨y, hy, h⟩ := Res.bind_ok h
    exact (add_shape n).2.2.2 _ _ _ (parse_shape hs hb n a x hf.1 hz.1 hx)
      (parse_shape hs hb n b y hf.2 hz.2 hy) (Res.ofFuel_ok h)
  | .sub a b, c, hf, hz, h => by
    simp only [Src.parse] at h
    simp only [Src.Fine] at hf
    simp only [Src.NonzeroFactors] at hz
    obtain ⟨x, hx, h⟩ := Res.bind_ok h
    obtain ⟨y, hy, h⟩ := Res.bind_ok h
    exact (add_shape n).2.2.2 _ _ _ (parse_shape hs hb n a x hf.1 hz.1 hx)
      (Calc.mul_shape _ (by simp) _ (parse_shape hs hb n b y hf.2 hz.2 hy)) (Res.ofFuel_ok h)
  | .mul a b, c, hf, hz, h => by
    simp only [Src.parse] at h
    simp only [Src.Fine] at hf
    simp only [Src.NonzeroFactors] at hz
    obtain ⟨x, hx, h⟩ := Res.bind_ok h
    obtain ⟨y, hy, h⟩ := Res.bind_ok h
    have h1 := parse_shape hs hb n a x hf.1 hz.2.1 hx
    have h2 := parse_shape hs hb n b y hf.2 hz.2.2 hy
    have e1 := parse_value_partial hs hb n a x hf.1 hx
    have e2 := parse_value_partial hs hb n b y hf.2 hy
    unfold mkMul at h
    split at h
    · simp only [Calc.eval] at e2
      simp only [Res.ok.injEq] at h; subst h
      exact Calc.mul_shape _ (by rw [e2]; exact hz.1.2) _ h1
    · split at h
      · simp only [Calc.eval] at e1
        simp only [Res.ok.injEq] at h; subst h
        exact Calc.mul_shape _ (by rw [e1]; exact hz.1.1) _ h2
      · cases h
  | .div a b, c, hf, hz, h => by
    simp only [Src.parse] at h
    simp only [Src.Fine] at hf
    simp only [Src.NonzeroFactors] at hz
    obtain ⟨x, hx, h⟩ := Res.bind_ok h
    obtain ⟨y, hy, h⟩ := Res.bind_ok h
    have h1 := parse_shape hs hb n a x hf.1 hz.1 hx
    unfold mkDiv at h
    split at h
    · split at h
      · cases h
      · rename_i k hk
        simp only [Res.ok.injEq] at h; subst h
        exact Calc.mul_shape _ (one_div_ne_zero hk) _ h1
    · cases h
  | .calc a, c, hf, hz, h => by
    simp only [Src.parse] at h
    simp only [Src.Fine] at hf
    simp only [Src.NonzeroFactors] at hz
    exact parse_shape hs hb n a c hf hz h
  | .min l, c, hf, hz, h => by
    simp only [Src.parse] at h
    simp only [Src.Fine] at hf
    simp only [Src.NonzeroFactors] at hz
    obtain ⟨x, hx, h⟩ := Res.bind_ok h
    simp only [Res.ok.injEq] at h; subst h
    exact mkMinMax_shape _ (fun l h => by simpa only [Fn.Shape] using h) _ _ (parseArgs_shape hs hb n l x hf hz hx)
  | .max l, c, hf, hz, h => by
    simp only [Src.parse] at h
    simp only [Src.Fine] at hf
    simp only [Src.NonzeroFactors] at hz
    obtain ⟨x, hx, h⟩ := Res.bind_ok h
    simp only [Res.ok.injEq] at h; subst h
    exact mkMinMax_shape _ (fun l h => by simpa only [Fn.Shape] using h) _ _ (parseArgs_shape hs hb n l x hf hz hx)
  | .clamp a b d, c, hf, hz, h => by
    simp only [Src.parse] at h
    simp only [Src.Fine] at hf
    simp only [Src.NonzeroFactors] at hz
    obtain ⟨x, hx, h⟩ := Res.bind_ok h
    obtain ⟨y, hy, h⟩ := Res.bind_ok h
    obtain ⟨z, hz', h⟩ := Res.bind_ok h
    simp only [Res.ok.injEq] at h; subst h
    exact mkClamp_shape _ _ _ (parse_shape hs hb n a x hf.1 hz.1 hx)
      (parse_shape hs hb n b y hf.2.1 hz.2.1 hy) (parse_shape hs hb n d z hf.2.2 hz.2.2 hz')
  | .round st a b, c, hf, hz, h => by
    simp only [Src.parse] at h
    simp only [Src.Fine] at hf
    simp only [Src.NonzeroFactors] at hz
    obtain ⟨x, hx, h⟩ := Res.bind_ok h
    obtain ⟨y, hy, h⟩ := Res.bind_ok h
    simp only [Res.ok.injEq] at h; subst h
    have h1 := parse_shape hs hb n a x hf.1.1 hz.1 hx
    have h2 := parse_shape hs hb n b y hf.1.2 hz.2 hy
    cases ho : applyOp (round st) x y with
    | some r => exact (applyOp_leaf _ _ _ _ ho).shape
    | none => simp only [Option.getD_none, Calc.Shape, Fn.Shape, h1, h2, and_self]
  | .rem a b, c, hf, hz, h => by
    simp only [Src.parse] at h
    simp only [Src.Fine] at hf
    simp only [Src.NonzeroFactors] at hz
    obtain ⟨x, hx, h⟩ := Res.bind_ok h
    obtain ⟨y, hy, h⟩ := Res.bind_ok h
    simp only [Res.ok.injEq] at h; subst h
    have h1 := parse_shape hs hb n a x hf.1 hz.1 hx
    have h2 := parse_shape hs hb n b y hf.2 hz.2 hy
    cases ho : applyOp frem x y with
    | some r => exact (applyOp_leaf _ _ _ _ ho).shape
    | none => simp only [Option.getD_none, Calc.Shape, Fn.Shape, h1, h2, and_self]
  | .mod a b, c, hf, hz, h => by
    simp only [Src.parse] at h
    simp only [Src.Fine] at hf
    simp only [Src.NonzeroFactors] at hz
    obtain ⟨x, hx, h⟩ := Res.bind_ok h
    obtain ⟨y, hy, h⟩ := Res.bind_ok h
    simp only [Res.ok.injEq] at h; subst h
    have h1 := parse_shape hs hb n a x hf.1 hz.1 hx
    have h2 := parse_shape hs hb n b y hf.2 hz.2 hy
    cases ho : applyOp modulo x y with
    | some r => exact (applyOp_leaf _ _ _ _ ho).shape
    | none => simp only [Option.getD_none, Calc.Shape, Fn.Shape, h1, h2, and_self]
  | .abs a, c, hf, hz, h => by
    simp only [Src.parse] at h
    simp only [Src.Fine] at hf
    simp only [Src.NonzeroFactors] at hz
    obtain ⟨x, hx, h⟩ := Res.bind_ok h
    simp only [Res.ok.injEq] at h; subst h
    have h1 := parse_shape hs hb n a x hf hz hx
    cases ho : applyMap (fun x => |x|) x with
    | some r => exact (applyMap_leaf _ _ _ ho).shape
    | none => simp only [Option.getD_none, Calc.Shape, Fn.Shape, h1]
  | .sign a, c, hf, hz, h => by
    simp only [Src.parse] at h
    simp only [Src.Fine] at hf
    simp only [Src.NonzeroFactors] at hz
    obtain ⟨x, hx, h⟩ := Res.bind_ok h
    simp only [Res.ok.injEq] at h; subst h
    have h1 := parse_shape hs hb n a x hf hz hx
    unfold mkSign
    split
    · simp only [Calc.Shape]
    · simp only [Calc.Shape]
    · simp only [Calc.Shape, Fn.Shape, h1]
  | .hypot l, c, hf, hz, h => by
    simp only [Src.parse] at h
    simp only [Src.Fine] at hf
    simp only [Src.NonzeroFactors] at hz
    obtain ⟨x, hx, h⟩ := Res.bind_ok h
    simp only [Res.ok.injEq] at h; subst h
    have h1 := parseArgs_shape hs hb n l x hf.1 hz hx
    unfold mkHypot
    cases ho : parseHypot sqrt x with
    | some r =>
      rcases parseHypot_leaf _ _ ho with h | h
      · subst h; exact h1.1
      · exact h.shape
    | none => simp only [Option.getD_none, Calc.Shape, Fn.Shape, h1]
theorem parseArgs_shape (hs : SqrtLaws sqrt) (hb : 0 ≤ ρ.base) (n : Nat) :
    ∀ (l : List (Src K)) (x : List (Calc K)), FineArgs sqrt ρ l → NonzeroArgs sqrt ρ l →
      parseArgs sqrt n l = .ok x → ShapeArgs x
  | [], x, _, _, h => by
    simp only [parseArgs, Res.ok.injEq] at h; subst h; simp only [ShapeArgs]
  | a :: l, x, hf, hz, h => by
    simp only [parseArgs] at h
    simp only [FineArgs] at hf
    simp only [NonzeroArgs] at hz
    obtain ⟨y, hy, h⟩ := Res.bind_ok h
    obtain ⟨z, hz', h⟩ := Res.bind_ok h
    simp only [Res.ok.injEq] at h; subst h
    simp only [ShapeArgs]
    exact ⟨parse_shape hs hb n a y hf.1 hz.1 hy, parseArgs_shape hs hb n l z hf.2 hz.2 hz'⟩
end

/-! ### Property values -/

/-- A value that may stand alone. -/
def Val.Single : Val K → Prop
  | .dim _ _ | .pct _ | .calc (.number _) | .calc (.func _) => True
  | _ => False

/-- **C58** What is printed for a stored value reads back to its value, with or without `clamp()`, if
products have a function and a factor that is not zero, and the value is a single token. -/
theorem print_value (b : Bool) (v : Val K) (h : v.Shape) (h1 : v.Single) :
    readValue sqrt ρ (v.printTop b) = some (v.eval sqrt ρ) := by
  cases v with
  | dim u x =>
    simp only [Val.printTop]
    split
    · rename_i h0; simp [readValue, Tok.eval, Val.eval, h0]
    · simp only [readValue, Tok.eval, Val.eval]
  | pct x => simp only [Val.printTop, readValue, Tok.eval, Val.eval]
  | «calc» c =>
    cases c with
    | number x => simp only [Val.printTop, Calc.print, readValue, Tok.eval, Val.eval, Calc.eval]
    | func f =>
      obtain ⟨t, hp, ht, _⟩ := Fn.reads (sqrt := sqrt) (ρ := ρ) b f
        (by simpa only [Val.Shape, Calc.Shape] using h)
      simp only [Val.printTop, Calc.print, hp, readValue, ht, Val.eval, Calc.eval]
    | value _ => exact h1.elim
    | sum _ _ => exact h1.elim
    | product _ _ => exact h1.elim

/-- A single token. -/
def Calc.One : Calc K → Prop
  | .value (.dim _ _) | .value (.pct _) | .number _ | .func _ => True
  | _ => False

theorem Calc.Leaf.one {c : Calc K} (h : c.Leaf) : c.One := by
  unfold Calc.Leaf at h
  split at h <;> simp_all [Calc.One]

theorem argCmp_leaf (a b : Calc K) (o : Ordering) (h : argCmp a b = some o) : a.Leaf ∧ b.Leaf := by
  unfold argCmp at h
  split at h
  · unfold Val.partialCmp at h
    split at h
    · exact ⟨trivial, trivial⟩
    · exact ⟨trivial, trivial⟩
    · cases h
  · exact ⟨trivial, trivial⟩
  · cases h

theorem reduceInto_length (cmp : Ordering) (arg : Calc K) (l : List (Calc K)) :
    l.length ≤ (reduceInto cmp arg l).length := by
  induction l with
  | nil => simp
  | cons b l ih =>
    rw [reduceInto]
    split
    · split <;> simp
    · simpa using ih

theorem mkMinMax_one (f : List (Calc K) → Fn K) (cmp : Ordering) (l : List (Calc K)) (h : l.length ≠ 1) :
    (mkMinMax f cmp l).One := by
  have step : ∀ (arg : Calc K) (acc : List (Calc K)), acc ≠ [] →
      2 ≤ (reduceInto cmp arg acc).length ∨ ∃ c, reduceInto cmp arg acc = [c] ∧ c.Leaf := by
    intro arg acc hacc
    match acc, hacc with
    | [b], _ =>
      rw [reduceInto]
      split
      · rename_i o ho
        have := argCmp_leaf _ _ _ ho
        split
        · exact .inr ⟨_, rfl, this.1⟩
        · exact .inr ⟨_, rfl, this.2⟩
      · left; simp [reduceInto]
    | a :: b :: l, _ =>
      left
      have := reduceInto_length cmp arg (a :: b :: l)
      simp only [List.length_cons] at this
      omega
  have key : ∀ (l acc : List (Calc K)), (2 ≤ acc.length ∨ ∃ c, acc = [c] ∧ c.Leaf) →
      (2 ≤ (l.foldl (fun r a => reduceInto cmp a r) acc).length ∨
        ∃ c, l.foldl (fun r a => reduceInto cmp a r) acc = [c] ∧ c.Leaf) := by
    intro l
    induction l with
    | nil => intro acc h; exact h
    | cons a l ih =>
      intro acc h
      rw [List.foldl_cons]
      apply ih
      apply step
      rcases h with h | ⟨c, rfl, _⟩
      · intro he; simp [he] at h
      · simp
  match l, h with
  | [], _ => simp [mkMinMax, reduceArgs, Calc.One]
  | [a], h => exact absurd rfl h
  | a :: b :: l, _ =>
    have hk := key l (reduceInto cmp b [a]) (step b [a] (by simp))
    unfold mkMinMax
    have hr : reduceArgs cmp (a :: b :: l) = l.foldl (fun r a => reduceInto cmp a r) (reduceInto cmp b [a]) := by
      simp [reduceArgs, reduceInto]
    rw [hr]
    split
    · rename_i c hc
      rcases hk with hk | ⟨d, hd, hl⟩
      · rw [hc] at hk; simp at hk
      · rw [hc] at hd
        simp only [List.cons.injEq, and_true] at hd
        exact hd ▸ hl.one
    · trivial

/-- `min()`, `max()` or `hypot()` with one argument. -/
def Src.OneArg : Src K → Prop
  | .min [_] | .max [_] | .hypot [_] => True
  | _ => False

theorem parseArgs_length (n : Nat) (l : List (Src K)) (x : List (Calc K)) (h : parseArgs sqrt n l = .ok x) :
    x.length = l.length := by
  induction l generalizing x with
  | nil => simp only [parseArgs, Res.ok.injEq] at h; subst h; rfl
  | cons a l ih =>
    simp only [parseArgs] at h
    obtain ⟨y, hy, h⟩ := Res.bind_ok h
    obtain ⟨z, hz, h⟩ := Res.bind_ok h
    simp only [Res.ok.injEq] at h; subst h
    simp [ih z hz]

theorem mkClamp_one (a b c : Calc K) : (mkClamp a b c).One := by
  unfold mkClamp
  cases h : argCmp b c with
  | none => trivial
  | some o =>
    have hl := argCmp_leaf _ _ _ h
    cases o <;> simp only [Option.isSome_some, if_true]
    · cases h2 : argCmp b a with
      | none => trivial
      | some o => have := argCmp_leaf _ _ _ h2; cases o <;> simp [this.1.one, this.2.one]
    · cases h2 : argCmp b a with
      | none => trivial
      | some o => have := argCmp_leaf _ _ _ h2; cases o <;> simp [this.1.one, this.2.one]
    · cases h2 : argCmp c a with
      | none => trivial
      | some o => have := argCmp_leaf _ _ _ h2; cases o <;> simp [this.1.one, this.2.one]

theorem parse_one (n : Nat) (s : Src K) (c : Calc K) (hf : s.isFn = true) (hc : ∀ a, s ≠ .calc a)
    (h1 : ¬ s.OneArg) (h : s.parse sqrt n = .ok c) : c.One := by
  cases s with
  | num _ => cases hf
  | dim _ _ => cases hf
  | pct _ => cases hf
  | add _ _ => cases hf
  | sub _ _ => cases hf
  | mul _ _ => cases hf
  | div _ _ => cases hf
  | «calc» a => exact absurd rfl (hc a)
  | min l =>
    simp only [Src.parse] at h
    obtain ⟨x, hx, h⟩ := Res.bind_ok h
    simp only [Res.ok.injEq] at h; subst h
    apply mkMinMax_one
    rw [parseArgs_length n l x hx]
    intro hl
    match l, hl with
    | [_], _ => exact h1 trivial
  | max l =>
    simp only [Src.parse] at h
    obtain ⟨x, hx, h⟩ := Res.bind_ok h
    simp only [Res.ok.injEq] at h; subst h
    apply mkMinMax_one
    rw [parseArgs_length n l x hx]
    intro hl
    match l, hl with
    | [_], _ => exact h1 trivial
  | hypot l =>
    simp only [Src.parse] at h
    obtain ⟨x, hx, h⟩ := Res.bind_ok h
    simp only [Res.ok.injEq] at h; subst h
    unfold mkHypot
    cases ho : parseHypot sqrt x with
    | some r =>
      rcases parseHypot_leaf _ _ ho with hr | hr
      · exfalso
        have hlen := parseArgs_length n l x hx
        rw [hr] at hlen
        match l, hlen with
        | [_], _ => exact h1 trivial
      · exact hr.one
    | none => trivial
  | clamp a b d =>
    simp only [Src.parse] at h
    obtain ⟨x, hx, h⟩ := Res.bind_ok h
    obtain ⟨y, hy, h⟩ := Res.bind_ok h
    obtain ⟨z, hz, h⟩ := Res.bind_ok h
    simp only [Res.ok.injEq] at h; subst h
    exact mkClamp_one _ _ _
  | round st a b =>
    simp only [Src.parse] at h
    obtain ⟨x, hx, h⟩ := Res.bind_ok h
    obtain ⟨y, hy, h⟩ := Res.bind_ok h
    simp only [Res.ok.injEq] at h; subst h
    cases ho : applyOp (round st) x y with
    | some r => exact (applyOp_leaf _ _ _ _ ho).one
    | none => trivial
  | rem a b =>
    simp only [Src.parse] at h
    obtain ⟨x, hx, h⟩ := Res.bind_ok h
    obtain ⟨y, hy, h⟩ := Res.bind_ok h
    simp only [Res.ok.injEq] at h; subst h
    cases ho : applyOp frem x y with
    | some r => exact (applyOp_leaf _ _ _ _ ho).one
    | none => trivial
  | mod a b =>
    simp only [Src.parse] at h
    obtain ⟨x, hx, h⟩ := Res.bind_ok h
    obtain ⟨y, hy, h⟩ := Res.bind_ok h
    simp only [Res.ok.injEq] at h; subst h
    cases ho : applyOp modulo x y with
    | some r => exact (applyOp_leaf _ _ _ _ ho).one
    | none => trivial
  | abs a =>
    simp only [Src.parse] at h
    obtain ⟨x, hx, h⟩ := Res.bind_ok h
    simp only [Res.ok.injEq] at h; subst h
    cases ho : applyMap (fun x => |x|) x with
    | some r => exact (applyMap_leaf _ _ _ ho).one
    | none => trivial
  | sign a =>
    simp only [Src.parse] at h
    obtain ⟨x, hx, h⟩ := Res.bind_ok h
    simp only [Res.ok.injEq] at h; subst h
    unfold mkSign
    split <;> trivial

theorem one_single (c : Calc K) (h : c.One) (v : Val K)
    (hv : (match c with | .value v => Res.ok v | c => .ok (.calc c)) = .ok v) : v.Single := by
  unfold Calc.One at h
  split at h
  · simp only [Res.ok.injEq] at hv; subst hv; trivial
  · simp only [Res.ok.injEq] at hv; subst hv; trivial
  · simp only [Res.ok.injEq] at hv; subst hv; trivial
  · simp only [Res.ok.injEq] at hv; subst hv; trivial
  · exact h.elim

theorem out_shape (c : Calc K) (h : c.Shape) (v : Val K)
    (hv : (match c with | .value v => Res.ok v | c => .ok (.calc c)) = .ok v) : v.Shape := by
  split at hv
  · simp only [Res.ok.injEq] at hv; subst hv
    simp only [Calc.Shape] at h
    exact h.shape
  · simp only [Res.ok.injEq] at hv; subst hv
    simpa only [Val.Shape] using h

theorem wrapTop_one (c : Calc K) (h : c.Shape) : (wrapTop c).One ∧ (wrapTop c).Shape := by
  cases c with
  | value v =>
    simp only [Calc.Shape] at h
    cases v <;> simp_all [Val.Lit, wrapTop, Calc.One, Calc.Shape]
  | number x => exact ⟨trivial, h⟩
  | _ => exact ⟨trivial, by simpa only [wrapTop, Calc.Shape, Fn.Shape] using h⟩

/-- **C58** A `<length-percentage>` that is parsed and printed again is a valid value, and it has the value
of its source, whatever the units and 100% stand for. Missing: the cases in which C40 fails, products
with a zero factor, and `min()`, `max()` and `hypot()` with one argument, for which the code prints
something else (see below). -/
theorem roundtrip_partial (hs : SqrtLaws sqrt) (hb : 0 ≤ ρ.base) (n : Nat) (s : Src K) (v : Val K)
    (hf : s.Fine sqrt ρ) (hz : s.NonzeroFactors sqrt ρ) (h1 : ¬ s.OneArg)
    (h : s.parseVal sqrt n = .ok v) (noClamp : Bool) :
    readValue sqrt ρ (v.printTop noClamp) = some (s.eval sqrt ρ) := by
  rw [← parseVal_value_partial hs hb n s v hf h]
  have fin : ∀ c : Calc K, c.Shape → c.One →
      (match c with | .value v => Res.ok v | c => .ok (.calc c)) = .ok v →
      readValue sqrt ρ (v.printTop noClamp) = some (v.eval sqrt ρ) := fun c hc ho hv =>
    print_value noClamp v (out_shape c hc v hv) (one_single c ho v hv)
  unfold Src.parseVal at h
  split at h
  · simp only [Res.ok.injEq] at h; subst h; exact print_value _ _ (by simp only [Val.Shape]) trivial
  · simp only [Res.ok.injEq] at h; subst h; exact print_value _ _ (by simp only [Val.Shape]) trivial
  · simp only [Res.ok.injEq] at h; subst h; exact print_value _ _ (by simp only [Val.Shape]) trivial
  · split at h
    · rename_i hfn
      obtain ⟨c, hc, h⟩ := Res.bind_ok h
      unfold Src.parseFn at hc
      split at hc
      · obtain ⟨d, hd, hc⟩ := Res.bind_ok hc
        simp only [Res.ok.injEq] at hc; subst hc
        simp only [Src.Fine] at hf
        simp only [Src.NonzeroFactors] at hz
        have := wrapTop_one d (parse_shape hs hb n _ d hf hz hd)
        exact fin _ this.2 this.1 h
      · rename_i hne
        exact fin c (parse_shape hs hb n _ c hf hz hc) (parse_one n _ c hfn hne h1 hc) h
    · cases h

/-- The hypotheses are met by `exSrc`. -/
example : exSrc.NonzeroFactors Real.sqrt (exEnv 100) ∧ ¬ exSrc.OneArg := by
  constructor
  · simp [exSrc, Src.NonzeroFactors, NonzeroArgs, Src.eval, exEnv]
  · simp [exSrc, Src.OneArg]

/-- What is printed for `min(1em, 2px, 1in, 3em, 10%)`: `min(1em, 2px, 10%)`. -/
example : (match exMin.parseVal id 10 with
    | .ok v => match v.printTop false with
      | [.min [[.dim (.rel 0) x], [.dim (.abs .px) y], [.pct z]]] => decide (x = 1 ∧ y = 2 ∧ z = 1 / 10)
      | _ => false
    | _ => false) = true := by decide +kernel

/-- A test of a result. -/
theorem Res.of_test {α : Type} (r : Res α) (p : α → Bool)
    (h : (match r with | .ok v => p v | _ => false) = true) : ∃ v, r = .ok v ∧ p v = true := by
  cases r with
  | ok v => exact ⟨v, rfl, h⟩
  | err => cases h
  | loops => cases h

/-- **C58** is false for `min()`, `max()` and `hypot()` with one argument that is a sum: `min(1px + 1em)`
is printed as `1px + 1em`, which is no value. -/
theorem one_argument_printed_bare :
    (∃ v, (Src.min [.add (px 1) (.dim (.rel 0) 1)]).parseVal id 10 = .ok v ∧
      (readValue id (exEnv 100) (v.printTop false)).isNone = true) ∧
    (∃ v, (Src.max [.add (px 1) (.dim (.rel 0) 1)]).parseVal id 10 = .ok v ∧
      (readValue id (exEnv 100) (v.printTop false)).isNone = true) ∧
    (∃ v, (Src.hypot [.add (px 1) (.dim (.rel 0) 1)]).parseVal id 10 = .ok v ∧
      (readValue id (exEnv 100) (v.printTop false)).isNone = true) :=
  ⟨Res.of_test _ _ (by decide +kernel), Res.of_test _ _ (by decide +kernel),
    Res.of_test _ _ (by decide +kernel)⟩

/-- **C58** is false for products with zero: `calc(0 * min(1px, 1em))` is printed as
`calc(min(1px, 1em) / inf)`, which is no value. -/
theorem zero_product_printed :
    ∃ v, (Src.calc (.mul (.num 0) (.min [px 1, .dim (.rel 0) 1]))).parseVal id 10 = .ok v ∧
      (readValue id (exEnv 100) (v.printTop false)).isNone = true :=
  Res.of_test _ _ (by decide +kernel)

end Verif.MathFn
