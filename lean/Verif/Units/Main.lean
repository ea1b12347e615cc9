import Verif.Units.Parse
import Verif.MathFn.Examples
/-!
# Times, angles, percentages and numbers: theorems (C45, C60)
-/
namespace Verif.Units
open Verif.MathFn (Strategy cssRound cssMod cssRem cssSign minOf maxOf cmpK sgn Homogeneous SqrtLaws)

variable {K : Type} [Field K] [LinearOrder K] [IsStrictOrderedRing K] [FloorRing K] {F : Fns K}

theorem noTie (v : K) (h : v < 0 → ∀ n : ℤ, v ≠ n + 1 / 2) : MathFn.NoNegTie v := by
  intro hv e
  exact h hv ⌊v⌋ (by rw [← e]; ring)

mutual
/-- **C45** What the parser makes of an expression is its value by the specification, and an
expression is kept as a single value or number exactly if its types fit. Partial: without what `Fine`
leaves out (see the counterexamples below). -/
theorem parse_sem_partial (hpi : 0 < F.pi) (hs : SqrtLaws F.sqrt) (t : Kind) : ∀ s : Src K, s.Only t →
    s.Fine F t → (s.parse F t).bind (semOf F) = s.sem F
  | .num x, _, _ => rfl
  | .lit v, ho, _ => by
    simp only [Src.Only] at ho
    simp [Src.parse, Src.sem, ho, semOf_value]
  | .add a b, ho, hf => by
    simp only [Src.Only] at ho; simp only [Src.Fine] at hf
    simp only [Src.parse, Src.sem]
    exact bind2 (parse_sem_partial hpi hs t a ho.1 hf.1) (parse_sem_partial hpi hs t b ho.2 hf.2) _ _
      fun x y hx hy => semOf_add hpi t x y (parse_Of t a x hx) (parse_Of t b y hy)
  | .sub a b, ho, hf => by
    simp only [Src.Only] at ho; simp only [Src.Fine] at hf
    simp only [Src.parse, Src.sem]
    exact bind2 (parse_sem_partial hpi hs t a ho.1 hf.1) (parse_sem_partial hpi hs t b ho.2 hf.2) _ _
      fun x y hx hy => semOf_sub hpi t x y (parse_Of t a x hx) (parse_Of t b y hy)
  | .mul a b, ho, hf => by
    simp only [Src.Only] at ho; simp only [Src.Fine] at hf
    simp only [Src.parse, Src.sem]
    exact bind2 (parse_sem_partial hpi hs t a ho.1 hf.1) (parse_sem_partial hpi hs t b ho.2 hf.2) _ _
      fun x y hx hy => semOf_mkMul x y
  | .div a b, ho, hf => by
    simp only [Src.Only] at ho; simp only [Src.Fine] at hf
    simp only [Src.parse, Src.sem]
    exact bind2 (parse_sem_partial hpi hs t a ho.1 hf.1) (parse_sem_partial hpi hs t b ho.2 hf.2) _ _
      fun x y hx hy => semOf_mkDiv x y
  | .calc a, ho, hf => by
    simp only [Src.Only] at ho; simp only [Src.Fine] at hf
    simp only [Src.parse, Src.sem]
    exact parse_sem_partial hpi hs t a ho hf
  | .min l, ho, hf => by
    simp only [Src.Only] at ho; simp only [Src.Fine] at hf
    simp only [Src.parse, Src.sem]
    rw [← parseArgs_sem hpi hs t l ho hf.2]
    cases h : parseArgs F t l with
    | none => rfl
    | some x =>
      simp only [Option.bind_some]
      exact (semOf_mkMin t x (parseArgs_Of t l x h)).1
  | .max l, ho, hf => by
    simp only [Src.Only] at ho; simp only [Src.Fine] at hf
    simp only [Src.parse, Src.sem]
    rw [← parseArgs_sem hpi hs t l ho hf.2]
    cases h : parseArgs F t l with
    | none => rfl
    | some x =>
      simp only [Option.bind_some]
      exact (semOf_mkMax t x (parseArgs_Of t l x h)).1
  | .clamp a b c, ho, hf => by
    simp only [Src.Only] at ho; simp only [Src.Fine] at hf
    have ha := parse_sem_partial hpi hs t a ho.1 hf.1
    have hb := parse_sem_partial hpi hs t b ho.2.1 hf.2.1
    have hc := parse_sem_partial hpi hs t c ho.2.2 hf.2.2
    simp only [Src.parse, Src.sem]
    rw [← ha, ← hb, ← hc]
    cases pa : a.parse F t with
    | none => rfl
    | some x =>
      cases pb : b.parse F t with
      | none => simp only [Option.bind_some, Option.bind_none]; cases semOf F x <;> rfl
      | some y =>
        cases pc : c.parse F t with
        | none => simp only [Option.bind_some, Option.bind_none]; cases semOf F x <;> cases semOf F y <;> rfl
        | some z =>
          simp only [Option.bind_some]
          exact semOf_mkClamp t x y z (parse_Of t a x pa) (parse_Of t b y pb) (parse_Of t c z pc)
  | .round s a b, ho, hf => by
    simp only [Src.Only] at ho; simp only [Src.Fine] at hf
    have ha := parse_sem_partial hpi hs t a ho.1 hf.1
    have hb := parse_sem_partial hpi hs t b ho.2 hf.2.1
    simp only [Src.parse, Src.sem]
    refine bind2 ha hb _ _ fun x y hx hy => ?_
    rw [Option.bind_some, semOf_applyOp hpi t _ (MathFn.round_homogeneous s) x y (parse_Of t a x hx)
      (parse_Of t b y hy)]
    rw [hx, Option.bind_some] at ha
    rw [hy, Option.bind_some] at hb
    rw [ha, hb]
    cases h1 : a.sem F with
    | none => rfl
    | some p =>
      cases h2 : b.sem F with
      | none => rfl
      | some q =>
        obtain ⟨h0, h⟩ := hf.2.2 p q h1 h2
        simp only [Option.bind_some, same2]
        rw [MathFn.round_correct s p.x q.x h0 fun e => noTie _ (h e)]
  | .rem a b, ho, hf => by
    simp only [Src.Only] at ho; simp only [Src.Fine] at hf
    simp only [Src.parse, Src.sem]
    refine bind2 (parse_sem_partial hpi hs t a ho.1 hf.1) (parse_sem_partial hpi hs t b ho.2 hf.2) _ _
      fun x y hx hy => ?_
    rw [Option.bind_some, semOf_applyOp hpi t _ MathFn.frem_homogeneous x y (parse_Of t a x hx)
      (parse_Of t b y hy)]
    simp only [same2, MathFn.frem_eq]
  | .mod a b, ho, hf => by
    simp only [Src.Only] at ho; simp only [Src.Fine] at hf
    simp only [Src.parse, Src.sem]
    refine bind2 (parse_sem_partial hpi hs t a ho.1 hf.1) (parse_sem_partial hpi hs t b ho.2 hf.2) _ _
      fun x y hx hy => ?_
    rw [Option.bind_some, semOf_applyOp hpi t _ MathFn.modulo_homogeneous x y (parse_Of t a x hx)
      (parse_Of t b y hy)]
    simp only [same2, MathFn.modulo_eq]
  | .abs a, ho, hf => by
    simp only [Src.Only] at ho; simp only [Src.Fine] at hf
    have ha := parse_sem_partial hpi hs t a ho hf.1
    simp only [Src.parse, Src.sem]
    refine bind1 ha _ _ fun x hx => ?_
    rw [hx, Option.bind_some] at ha
    rw [Option.bind_some]
    exact semOf_abs hpi x (by rw [ha]; exact hf.2)
  | .sign a, ho, hf => by
    simp only [Src.Only] at ho; simp only [Src.Fine] at hf
    have ha := parse_sem_partial hpi hs t a ho hf.1
    simp only [Src.parse, Src.sem]
    refine bind1 ha _ _ fun x hx => ?_
    rw [hx, Option.bind_some] at ha
    rw [Option.bind_some]
    exact semOf_sign hpi x (by rw [ha]; exact hf.2)
  | .hypot l, ho, hf => by
    simp only [Src.Only] at ho; simp only [Src.Fine] at hf
    have hl := parseArgs_sem hpi hs t l ho hf.1
    simp only [Src.parse, Src.sem]
    rw [← hl]
    cases h : parseArgs F t l with
    | none => rfl
    | some x =>
      simp only [Option.bind_some]
      refine semOf_hypot hpi hs t x (parseArgs_Of t l x h) ?_
      have hlen := parseArgs_length t l x h
      rcases hf.2 with h2 | ⟨a, rfl, h0⟩ | ⟨h3, h'⟩
      · exact .inl (hlen.trans h2)
      · right; left
        simp only [parseArgs, Option.bind_eq_some_iff, Option.some.injEq] at h
        obtain ⟨y, hy, z, rfl, rfl⟩ := h
        refine ⟨y, rfl, ?_⟩
        intro s hs'
        simp only [OnlyArgs] at ho
        simp only [FineArgs] at hf
        have := parse_sem_partial hpi hs t a ho.1 hf.1.1
        rw [hy, Option.bind_some, hs'] at this
        exact h0 s this.symm
      · right; right
        refine ⟨hlen.symm ▸ h3, ?_⟩
        rcases h' with h' | h' | ⟨rfl, y, l', rfl⟩
        · exact .inl h'
        · exact .inr (.inl h')
        · right; right
          simp only [parseArgs, Src.parse, Val.kind, if_true, Option.bind_some, Option.bind_eq_some_iff, Option.some.injEq] at h
          obtain ⟨z, hz, rfl⟩ := h
          exact ⟨rfl, y, z, rfl⟩
  | .trig f a, ho, hf => by
    simp only [Src.Only] at ho; simp only [Src.Fine] at hf
    simp only [Src.parse, Src.sem]
    refine bind1 (parse_sem_partial hpi hs .angle a ho hf) _ _ fun x hx => ?_
    have hof := parse_Of .angle a x hx
    cases x with
    | value v =>
      simp only [Calc.Of] at hof
      simp only [mkTrig, Option.bind_some, semOf_number, semOf_value, hof, toRadians_amount hpi v hof,
        if_true, reduceCtorEq, if_false]
      cases f <;> rfl
    | number y => simp only [mkTrig, Option.bind_some, semOf_number, if_true]; cases f <;> rfl
    | sum => rfl
    | func => rfl
  | .arc f a, ho, hf => by
    simp only [Src.Only] at ho; simp only [Src.Fine] at hf
    simp only [Src.parse, Src.sem]
    refine bind1 (parse_sem_partial hpi hs .angle a ho.2 hf) _ _ fun x hx => ?_
    have hn := kind_ne_num (K := K)
    cases x with
    | number y =>
      simp only [asNumber, Option.bind_some, mkArc, ho.1, if_true, semOf_number, semOf_value, Val.kind, amount]
      cases f <;> rfl
    | value v => simp [asNumber, semOf_value, hn]
    | sum => rfl
    | func => rfl
  | .fn1 f a, ho, hf => by
    simp only [Src.Only] at ho; simp only [Src.Fine] at hf
    simp only [Src.parse, Src.sem]
    refine bind1 (parse_sem_partial hpi hs .num a ho hf) _ _ fun x hx => ?_
    have hn := kind_ne_num (K := K)
    cases x with
    | number y =>
      simp only [asNumber, Option.bind_some, if_true, semOf_number]
      cases f <;> rfl
    | value v => simp [asNumber, semOf_value, hn]
    | sum => rfl
    | func => rfl
  | .fn2 f a b, ho, hf => by
    simp only [Src.Only] at ho; simp only [Src.Fine] at hf
    have ha := parse_sem_partial hpi hs .num a ho.1 hf.1
    have hb := parse_sem_partial hpi hs .num b ho.2 hf.2
    have hn := kind_ne_num (K := K)
    simp only [Src.parse, Src.sem]
    rw [← ha, ← hb]
    cases a.parse F .num with
    | none => rfl
    | some x =>
      cases b.parse F .num with
      | none => cases x <;> simp [asNumber, semOf_value, semOf_number, semOf_sum, semOf_func]
      | some y =>
        cases x <;> cases y <;> simp [asNumber, semOf_value, semOf_number, semOf_sum, semOf_func, hn]
        cases f <;> rfl
/-- The arguments of a function. -/
theorem parseArgs_sem (hpi : 0 < F.pi) (hs : SqrtLaws F.sqrt) (t : Kind) : ∀ l : List (Src K), OnlyArgs t l →
    FineArgs F t l → (parseArgs F t l).bind (semList F) = semArgs F l
  | [], _, _ => rfl
  | a :: l, ho, hf => by
    simp only [OnlyArgs] at ho; simp only [FineArgs] at hf
    have ha := parse_sem_partial hpi hs t a ho.1 hf.1
    have hl := parseArgs_sem hpi hs t l ho.2 hf.2
    simp only [parseArgs, semArgs]
    rw [← ha, ← hl]
    cases a.parse F t with
    | none => rfl
    | some x =>
      cases parseArgs F t l with
      | none => simp only [Option.bind_some, Option.bind_none]; cases semOf F x <;> rfl
      | some y => simp only [Option.bind_some, semList]
end

/-- **C45** `Time::parse` and `Angle::parse`: a math function of the right type gives the amount that
the specification gives it, and any other math function is an error. -/
theorem time_angle_parse_partial (hpi : 0 < F.pi) (hs : SqrtLaws F.sqrt) (t : Kind) (ht : t = .time ∨ t = .angle)
    (s : Src K) (hfn : s.isFn = true) (ho : s.Only t) (hf : s.Fine F t) :
    match s.sem F with
    | some r => if r.ty = t then ∃ v, s.parseVal F t = .ok v ∧ v.kind = t ∧ amount F v = r.x
        else s.parseVal F t = .err
    | none => s.parseVal F t = .err := by
  have h := parse_sem_partial hpi hs t s ho hf
  have hp : t ≠ .pct := by rcases ht with rfl | rfl <;> simp
  have hnum : t ≠ .num := by rcases ht with rfl | rfl <;> simp
  have e : s.parseVal F t = match s.parse F t with
      | some (.value v) => .ok v
      | some _ => .err
      | none => .err := by
    cases s <;> simp only [Src.isFn, Bool.false_eq_true] at hfn <;>
      simp only [Src.parseVal, Src.isFn, if_true, hp, if_false] <;> (split <;> simp_all)
  rw [← h, e]
  cases hp : s.parse F t with
  | none => simp
  | some c =>
    have hof := parse_Of t s c hp
    cases c with
    | value v => simp only [Calc.Of] at hof; simp [semOf_value, hof]
    | number x => simp [semOf_number, hnum.symm]
    | sum => simp [semOf_sum]
    | func => simp [semOf_func]

/-- **C60** `Percentage::parse`: a math function that is a percentage by the specification gives its
amount and does not panic. Partial: `abs()`, `sign()` and `hypot()` of three or more percentages panic
(see below). -/
theorem percentage_parse_partial (hpi : 0 < F.pi) (hs : SqrtLaws F.sqrt) (s : Src K) (hfn : s.isFn = true)
    (ho : s.Only .pct) (hf : s.Fine F .pct) (x : K) (hx : s.sem F = some ⟨.pct, x⟩) :
    s.parseVal F .pct = .ok (.pct x) := by
  have h := parse_sem_partial hpi hs .pct s ho hf
  have e : s.parseVal F .pct = match s.parse F .pct with
      | some (.value v) => .ok v
      | some _ => .panic
      | none => .err := by
    cases s <;> simp only [Src.isFn, Bool.false_eq_true] at hfn <;>
      simp only [Src.parseVal, Src.isFn, if_true] <;> (split <;> simp_all)
  rw [hx] at h
  rw [e]
  cases hp : s.parse F .pct with
  | none => rw [hp] at h; simp at h
  | some c =>
    rw [hp, Option.bind_some] at h
    have hof := parse_Of .pct s c hp
    cases c with
    | value v =>
      simp only [Calc.Of] at hof
      cases v <;> simp only [Val.kind, reduceCtorEq] at hof
      simp only [semOf_value, Val.kind, amount, Option.some.injEq, Sem.mk.injEq, true_and] at h
      simp [h]
    | number x => simp [semOf_number] at h
    | sum => simp [semOf_sum] at h
    | func => simp [semOf_func] at h

/-- **C45** `CSSNumber::parse`: a math function of numbers gives its value. -/
theorem number_parse_partial (hpi : 0 < F.pi) (hs : SqrtLaws F.sqrt) (s : Src K) (hfn : s.isFn = true)
    (ho : s.Only .num) (hf : s.Fine F .num) :
    s.parseNum F = match s.sem F with
      | some r => .ok r.x
      | none => .err := by
  have h := parse_sem_partial hpi hs .num s ho hf
  have e : s.parseNum F = match s.parse F .num with
      | some (.number x) => .ok x
      | _ => .err := by
    cases s <;> simp only [Src.isFn, Bool.false_eq_true] at hfn <;>
      simp only [Src.parseNum, Src.isFn, if_true] <;> (split <;> simp_all)
  rw [← h, e]
  cases hp : s.parse F .num with
  | none => rfl
  | some c =>
    have hof := parse_Of .num s c hp
    cases c with
    | value v => exact absurd hof (kind_ne_num v)
    | number x => rfl
    | sum => rfl
    | func => rfl

/-! ### Printing -/

theorem trunc_int (n : ℤ) : MathFn.trunc (n : K) = n := by
  unfold MathFn.trunc; split <;> simp

theorem roundHalf_int (x : K) : ∃ n : ℤ, MathFn.roundHalf x = n := by
  unfold MathFn.roundHalf; split <;> exact ⟨_, rfl⟩

/-- **C45** A printed time, angle or percentage is read back as a value of the same type and amount. -/
theorem print_read (v : Val K) : ∃ s w, (v.toCss F).read = some s ∧ s.parseVal F v.kind = .ok w ∧
    w.kind = v.kind ∧ amount F w = amount F v := by
  have hd : ("deg" : String) ≠ "s" ∧ ("deg" : String) ≠ "ms" := by decide
  cases v with
  | sec x =>
    simp only [Val.toCss]
    split
    · exact ⟨_, .ms (x * 1000), rfl, rfl, rfl, rfl⟩
    · exact ⟨_, .sec x, rfl, rfl, rfl, rfl⟩
  | ms x =>
    simp only [Val.toCss]
    split
    · exact ⟨_, .sec (x / 1000), rfl, rfl, rfl, by simp only [amount]; ring⟩
    · exact ⟨_, .ms x, rfl, rfl, rfl, rfl⟩
  | deg x => exact ⟨_, .deg x, rfl, rfl, rfl, rfl⟩
  | grad x => exact ⟨_, .grad x, rfl, rfl, rfl, rfl⟩
  | turn x => exact ⟨_, .turn x, rfl, rfl, rfl, rfl⟩
  | pct x => exact ⟨_, .pct x, rfl, rfl, rfl, rfl⟩
  | rad x =>
    simp only [Val.toCss]
    split
    · exact ⟨_, .deg (toDegrees F (.rad x)), rfl, rfl, rfl, toDegrees_amount (.rad x) rfl⟩
    · exact ⟨_, .rad x, rfl, rfl, rfl, rfl⟩

/-- **C45** An angle printed where a unitless zero is allowed is read back there with the same amount. -/
theorem print_read_unitless_zero (v : Val K) (hv : v.kind = .angle) : ∃ s w, (v.toCss0 F).read = some s ∧
    s.parseAngle0 F = .ok w ∧ w.kind = .angle ∧ amount F w = amount F v := by
  unfold Val.toCss0
  split
  · rename_i h
    refine ⟨.num 0, .deg 0, rfl, by simp [Src.parseAngle0], rfl, ?_⟩
    cases v <;> simp_all [Val.isZero, amount, Val.kind]
  · obtain ⟨s, w, h1, h2, h3, h4⟩ := print_read (F := F) v
    refine ⟨s, w, h1, ?_, h3.trans hv, h4⟩
    rw [← h2, hv]
    cases s with
    | num x =>
      exfalso
      cases v <;> simp only [Val.toCss] at h1 <;> (try split at h1) <;> simp [Tok.read] at h1
    | _ => rfl

/-- The test whether radians can be printed as degrees without loss always succeeds: a rounded number is
always an integer. All radians are printed as degrees. -/
theorem radians_always_degrees (x : K) : (Val.rad x).toCss F = .dim (x * (180 / F.pi)) "deg" := by
  obtain ⟨n, hn⟩ := roundHalf_int (toDegrees F (.rad x) * 100000)
  simp only [toDegrees] at hn
  simp only [Val.toCss, toDegrees, hn, trunc_int, sub_self, if_true]

/-! ### Comparison and arithmetic of values -/

/-- **C45** Comparing two times or angles compares their amounts. -/
theorem compare_amounts (v w : Val K) (h : v.kind = w.kind) :
    (v.cmp F w = .lt ↔ amount F v < amount F w) ∧ (v.cmp F w = .eq ↔ amount F v = amount F w) ∧
      (v.cmp F w = .gt ↔ amount F w < amount F v) := by
  rw [cmp_amount v w h]
  rcases cmpK_cases (amount F v) (amount F w) with ⟨e, h⟩ | ⟨e, h⟩ | ⟨e, h⟩
  · simp [e, h, h.ne, h.le]
  · rw [e, h]; simp
  · simp [e, h, h.ne', h.le]

/-- **C45** Adding two times or angles adds their amounts. -/
theorem add_amounts (hpi : 0 < F.pi) (v w : Val K) (h : v.kind = w.kind) :
    (v.op F (· + ·) w).kind = v.kind ∧ amount F (v.op F (· + ·) w) = amount F v + amount F w :=
  ⟨op_kind _ _ _ h, op_amount hpi _ homogeneous_add _ _ h⟩

/-! ### Examples and counterexamples -/

/-- Real numbers with the square root; the other functions are arbitrary. -/
noncomputable def realFns : Fns ℝ where
  pi := 3
  sin x := x
  cos x := 1 - x * x
  tan x := x
  asin x := x
  acos x := 3 / 2 - x
  atan x := x
  sqrt := Real.sqrt
  exp x := 1 + x
  ln x := x - 1
  pow x y := x * y
  log x y := x / y

/-- `calc(max(1s, 200ms) * sin(asin(0.5)) - hypot(3s, 4000ms, 0s) / 2)` -/
noncomputable def exTime : Src ℝ :=
  .calc (.sub (.mul (.max [.lit (.sec 1), .lit (.ms 200)]) (.trig .sin (.arc .asin (.num (1 / 2)))))
    (.div (.hypot [.lit (.sec 3), .lit (.ms 4000), .lit (.sec 0)]) (.num 2)))

/-- It meets the hypotheses, and its amount is -2000ms. -/
example : (0 < realFns.pi) ∧ SqrtLaws realFns.sqrt ∧ exTime.isFn = true ∧ exTime.Only .time ∧
    exTime.Fine realFns .time ∧ exTime.sem realFns = some ⟨.time, -2000⟩ := by
  refine ⟨by norm_num [realFns], MathFn.real_sqrt_laws, rfl, ?_, ?_, ?_⟩
  · simp [exTime, Src.Only, OnlyArgs, Val.kind]
  · simp [exTime, Src.Fine, FineArgs, HypotFine]
  · simp only [exTime, Src.sem, semArgs, Val.kind, amount, Option.bind_some, sameAll, MathFn.cssHypot,
      maxOf, realFns, List.map_cons, List.map_nil, List.sum_cons, List.sum_nil]
    have : √(25000000 : ℝ) = 5000 := by
      rw [show (25000000 : ℝ) = 5000 * 5000 by norm_num]
      exact Real.sqrt_mul_self (by norm_num)
    norm_num [this, same2]
    simp
    norm_num

/-- `calc(min(10%, 2 * 30%) + 5%)` meets the hypotheses of `percentage_parse_partial`. -/
example : ∃ s : Src ℚ, ∀ F : Fns ℚ, s.isFn = true ∧ s.Only .pct ∧ s.Fine F .pct ∧
    s.sem F = some ⟨.pct, 3 / 20⟩ := by
  refine ⟨.calc (.add (.min [.lit (.pct (1 / 10)), .mul (.num 2) (.lit (.pct (3 / 10)))]) (.lit (.pct (1 / 20)))),
    fun F => ⟨rfl, ?_, ?_, ?_⟩⟩
  · simp [Src.Only, OnlyArgs, Val.kind]
  · simp [Src.Fine, FineArgs]
  · simp [Src.sem, semArgs, Val.kind, amount, sameAll, minOf, same2]
    norm_num

/-- **C60** `font-stretch: calc(5)`, `calc(10% + 5)`, `abs(10%)`, `min(10%, 5)` and
`hypot(1%, 1%, 1%)` panic. -/
theorem percentage_panics (F : Fns K) :
    (Src.calc (.num 5)).parseVal F .pct = .panic ∧
    (Src.calc (.add (.lit (.pct (1 / 10))) (.num 5))).parseVal F .pct = .panic ∧
    (Src.abs (.lit (.pct (1 / 10)))).parseVal F .pct = .panic ∧
    (Src.min [.lit (.pct (1 / 10)), .num 5]).parseVal F .pct = .panic ∧
    (Src.hypot [.lit (.pct (1 / 100)), .lit (.pct (1 / 100)), .lit (.pct (1 / 100))]).parseVal F .pct = .panic := by
  refine ⟨?_, ?_, ?_, ?_, ?_⟩ <;>
    simp [Src.parseVal, Src.isFn, Src.parse, parseArgs, Val.kind, Calc.add, applyMap, Val.tryMap, mkMinMax,
      reduceInto, argCmp, parseHypot]

/-- **C45** `hypot(1turn, 0turn, 0deg)` is 360deg, but the square of the first argument is converted to
degrees as if it were an angle. -/
theorem hypot_mixed_angles (F : Fns K) :
    (Src.hypot [.lit (.turn 1), .lit (.turn 0), .lit (.deg 0)]).parseVal F .angle = .ok (.deg (F.sqrt 360)) := by
  simp [Src.parseVal, Src.isFn, Src.parse, parseArgs, Val.kind, applyMap, Val.tryMap, parseHypot, applyOp, Val.op,
    toDegrees]

theorem hypot_mixed_angles_wrong : ∃ r, (Src.hypot [.lit (.turn 1), .lit (.turn 0), .lit (.deg 0)]).sem realFns =
    some ⟨.angle, r⟩ ∧ amount realFns (.deg (realFns.sqrt 360)) ≠ r := by
  refine ⟨360, ?_, ?_⟩
  · simp only [Src.sem, semArgs, Val.kind, amount, Option.bind_some, sameAll, MathFn.cssHypot, realFns,
      List.map_cons, List.map_nil, List.sum_cons, List.sum_nil]
    have : √((360 : ℝ) * 360) = 360 := Real.sqrt_mul_self (by norm_num)
    simp [this]
  · simp only [amount, realFns]
    intro h
    have := Real.mul_self_sqrt (show (0 : ℝ) ≤ 360 by norm_num)
    rw [h] at this
    norm_num at this

/-- **C45** `hypot(-1s)` is 1s, but the argument is kept. -/
theorem hypot_one_negative (F : Fns K) :
    (Src.hypot [.lit (.sec (-1))]).parseVal F .time = .ok (.sec (-1)) := by
  simp [Src.parseVal, Src.isFn, Src.parse, parseArgs, Val.kind, parseHypot]

end Verif.Units
