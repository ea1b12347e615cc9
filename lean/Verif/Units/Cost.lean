import Verif.Units.Main
/-!
# Times, angles, percentages and numbers: the work of the parser (C61)
-/
namespace Verif.Units

section
variable {K : Type} [Field K] [LinearOrder K] [FloorRing K] (F : Fns K)

mutual
/-- How often `parse_value` or `V::parse` looks at a token or function while `Calc::<V>::parse_sum` reads
a tree (src/values/calc.rs:540-656). An error ends the reading of what follows. After an error in a
function, `parse_value` calls `V::parse` (src/values/calc.rs:654), and this reads the function again
(src/values/time.rs:61, src/values/angle.rs:62, src/values/percentage.rs:27, src/values/number.rs:19). -/
def Src.cost (t : Kind) : Src K → Nat
  | .num _ | .lit _ => 1
  | .add a b | .sub a b | .mul a b | .div a b =>
      a.cost t + if (a.parse F t).isSome then b.cost t else 0
  | .calc a => again (Src.parse F t (.calc a)).isSome (a.cost t)
  | .min l => again (Src.parse F t (.min l)).isSome (costArgs t l)
  | .max l => again (Src.parse F t (.max l)).isSome (costArgs t l)
  | .clamp a b c => again (Src.parse F t (.clamp a b c)).isSome
      (a.cost t + if (a.parse F t).isSome then b.cost t + (if (b.parse F t).isSome then c.cost t else 0) else 0)
  | .round s a b => again (Src.parse F t (.round s a b)).isSome
      (a.cost t + if (a.parse F t).isSome then b.cost t else 0)
  | .rem a b => again (Src.parse F t (.rem a b)).isSome
      (a.cost t + if (a.parse F t).isSome then b.cost t else 0)
  | .mod a b => again (Src.parse F t (.mod a b)).isSome
      (a.cost t + if (a.parse F t).isSome then b.cost t else 0)
  | .abs a => again (Src.parse F t (.abs a)).isSome (a.cost t)
  | .sign a => again (Src.parse F t (.sign a)).isSome (a.cost t)
  | .hypot l => again (Src.parse F t (.hypot l)).isSome (costArgs t l)
  | .trig f a => again (Src.parse F t (.trig f a)).isSome (a.cost .angle)
  | .arc f a => again (Src.parse F t (.arc f a)).isSome (a.cost .angle)
  | .fn1 f a => again (Src.parse F t (.fn1 f a)).isSome (a.cost .num)
  | .fn2 f a b => again (Src.parse F t (.fn2 f a b)).isSome
      (a.cost .num + if ((a.parse F .num).bind asNumber).isSome then b.cost .num else 0)
/-- The arguments of a function. -/
def costArgs (t : Kind) : List (Src K) → Nat
  | [] => 0
  | a :: l => a.cost t + if (a.parse F t).isSome then costArgs t l else 0
/-- A function is read once, or twice after an error. -/
def again (ok : Bool) (n : Nat) : Nat := if ok then 1 + n else (1 + n) + (1 + n)
end

mutual
/-- The number of tokens and functions in a source. -/
def Src.size : Src K → Nat
  | .num _ | .lit _ => 1
  | .add a b | .sub a b | .mul a b | .div a b => a.size + b.size
  | .calc a | .abs a | .sign a | .trig _ a | .arc _ a | .fn1 _ a => 1 + a.size
  | .min l | .max l | .hypot l => 1 + sizeArgs l
  | .clamp a b c => 1 + (a.size + (b.size + c.size))
  | .round _ a b | .rem a b | .mod a b | .fn2 _ a b => 1 + (a.size + b.size)
/-- The arguments of a function. -/
def sizeArgs : List (Src K) → Nat
  | [] => 0
  | a :: l => a.size + sizeArgs l
end

/-- `calc(calc(… calc(x) …))` -/
def nest (x : Src K) : Nat → Src K
  | 0 => x
  | n + 1 => .calc (nest x n)
end

variable {K : Type} [Field K] [LinearOrder K] [FloorRing K] {F : Fns K}

mutual
/-- **C61** An expression that is accepted is read in linear time: every token and function once.
Partial: not so for one that is rejected (`nested_error_cost`). -/
theorem cost_valid_partial (t : Kind) : ∀ s : Src K, (s.parse F t).isSome = true → s.cost F t = s.size
  | .num _, _ | .lit _, _ => by simp only [Src.cost, Src.size]
  | .add a b, h | .sub a b, h | .mul a b, h | .div a b, h => by
    simp only [Src.parse, Option.isSome_iff_exists, Option.bind_eq_some_iff] at h
    obtain ⟨r, x, hx, y, hy, h⟩ := h
    have ha := cost_valid_partial t a (by simp [hx])
    have hb := cost_valid_partial t b (by simp [hy])
    simp [Src.cost, Src.size, hx, ha, hb]
  | .calc a, h => by
    have ha := cost_valid_partial t a (by simpa only [Src.parse] using h)
    simp [Src.cost, Src.size, again, h, ha]
  | .min l, h => by
    have h' := h
    simp only [Src.parse, Option.isSome_iff_exists, Option.bind_eq_some_iff] at h'
    obtain ⟨r, x, hx, _⟩ := h'
    simp [Src.cost, Src.size, again, h, costArgs_valid t l (by simp [hx])]
  | .max l, h => by
    have h' := h
    simp only [Src.parse, Option.isSome_iff_exists, Option.bind_eq_some_iff] at h'
    obtain ⟨r, x, hx, _⟩ := h'
    simp [Src.cost, Src.size, again, h, costArgs_valid t l (by simp [hx])]
  | .hypot l, h => by
    have h' := h
    simp only [Src.parse, Option.isSome_iff_exists, Option.bind_eq_some_iff] at h'
    obtain ⟨r, x, hx, _⟩ := h'
    simp [Src.cost, Src.size, again, h, costArgs_valid t l (by simp [hx])]
  | .clamp a b c, h => by
    have h' := h
    simp only [Src.parse, Option.isSome_iff_exists, Option.bind_eq_some_iff] at h'
    obtain ⟨r, x, hx, y, hy, z, hz, _⟩ := h'
    have ha := cost_valid_partial t a (by simp [hx])
    have hb := cost_valid_partial t b (by simp [hy])
    have hc := cost_valid_partial t c (by simp [hz])
    simp [Src.cost, Src.size, again, h, hx, hy, ha, hb, hc]
  | .round s a b, h => by
    have h' := h
    simp only [Src.parse, Option.isSome_iff_exists, Option.bind_eq_some_iff] at h'
    obtain ⟨r, x, hx, y, hy, _⟩ := h'
    have ha := cost_valid_partial t a (by simp [hx])
    have hb := cost_valid_partial t b (by simp [hy])
    simp [Src.cost, Src.size, again, h, hx, ha, hb]
  | .rem a b, h => by
    have h' := h
    simp only [Src.parse, Option.isSome_iff_exists, Option.bind_eq_some_iff] at h'
    obtain ⟨r, x, hx, y, hy, _⟩ := h'
    have ha := cost_valid_partial t a (by simp [hx])
    have hb := cost_valid_partial t b (by simp [hy])
    simp [Src.cost, Src.size, again, h, hx, ha, hb]
  | .mod a b, h => by
    have h' := h
    simp only [Src.parse, Option.isSome_iff_exists, Option.bind_eq_some_iff] at h'
    obtain ⟨r, x, hx, y, hy, _⟩ := h'
    have ha := cost_valid_partial t a (by simp [hx])
    have hb := cost_valid_partial t b (by simp [hy])
    simp [Src.cost, Src.size, again, h, hx, ha, hb]
  | .abs a, h => by
    have h' := h
    simp only [Src.parse, Option.isSome_iff_exists, Option.bind_eq_some_iff] at h'
    obtain ⟨r, x, hx, _⟩ := h'
    simp [Src.cost, Src.size, again, h, cost_valid_partial t a (by simp [hx])]
  | .sign a, h => by
    have h' := h
    simp only [Src.parse, Option.isSome_iff_exists, Option.bind_eq_some_iff] at h'
    obtain ⟨r, x, hx, _⟩ := h'
    simp [Src.cost, Src.size, again, h, cost_valid_partial t a (by simp [hx])]
  | .trig f a, h => by
    have h' := h
    simp only [Src.parse, Option.isSome_iff_exists, Option.bind_eq_some_iff] at h'
    obtain ⟨r, x, hx, _⟩ := h'
    simp [Src.cost, Src.size, again, h, cost_valid_partial .angle a (by simp [hx])]
  | .arc f a, h => by
    have h' := h
    simp only [Src.parse, Option.isSome_iff_exists, Option.bind_eq_some_iff] at h'
    obtain ⟨r, x, hx, _⟩ := h'
    simp [Src.cost, Src.size, again, h, cost_valid_partial .angle a (by simp [hx])]
  | .fn1 f a, h => by
    have h' := h
    simp only [Src.parse, Option.isSome_iff_exists, Option.bind_eq_some_iff] at h'
    obtain ⟨r, x, hx, _⟩ := h'
    simp [Src.cost, Src.size, again, h, cost_valid_partial .num a (by simp [hx])]
  | .fn2 f a b, h => by
    have h' := h
    simp only [Src.parse, Option.isSome_iff_exists, Option.bind_eq_some_iff] at h'
    obtain ⟨r, x, hx, y, hy, z, hz, _⟩ := h'
    simp [Src.cost, Src.size, again, h, hx, hy, cost_valid_partial .num a (by simp [hx]),
      cost_valid_partial .num b (by simp [hz])]
/-- The arguments of a function. -/
theorem costArgs_valid (t : Kind) : ∀ l : List (Src K), (parseArgs F t l).isSome = true →
    costArgs F t l = sizeArgs l
  | [], _ => by simp only [costArgs, sizeArgs]
  | a :: l, h => by
    simp only [parseArgs, Option.isSome_iff_exists, Option.bind_eq_some_iff] at h
    obtain ⟨r, x, hx, y, hy, _⟩ := h
    simp [costArgs, sizeArgs, hx, cost_valid_partial t a (by simp [hx]), costArgs_valid t l (by simp [hy])]
end

/-- `max(1s, calc(2s + 3s))` is accepted and has 5 tokens and functions. -/
example (F : Fns ℚ) : ((Src.max [.lit (.sec 1), .calc (.add (.lit (.sec 2)) (.lit (.sec 3)))]).parse F .time).isSome = true ∧
    (Src.max [.lit (.sec 1), .calc (.add (.lit (.sec 2)) (.lit (.sec 3)))] : Src ℚ).size = 5 := by
  simp [Src.parse, parseArgs, Val.kind, Calc.add, Src.size, sizeArgs]

theorem nest_err (t : Kind) (x : Src K) (hx : x.parse F t = none) (n : Nat) : (nest x n).parse F t = none := by
  induction n with
  | zero => exact hx
  | succ n ih => simpa only [nest, Src.parse] using ih

theorem nest_size (x : Src K) (n : Nat) : (nest x n).size = x.size + n := by
  induction n with
  | zero => rfl
  | succ n ih => simp only [nest, Src.size, ih]; omega

/-- **C61** An error inside of `n` nested functions makes the parser read it `2 ^ n` times: the work is
exponential in the length of the input. -/
theorem nested_error_cost (t : Kind) (v : Val K) (hv : v.kind ≠ t) (n : Nat) :
    2 ^ n ≤ (nest (.lit v) n).cost F t ∧ (nest (.lit v) n).size = n + 1 := by
  have he : (Src.lit v).parse F t = none := by simp [Src.parse, hv]
  refine ⟨?_, by rw [nest_size]; simp only [Src.size]; omega⟩
  induction n with
  | zero => simp [nest, Src.cost]
  | succ n ih =>
    have := nest_err t _ he (n + 1)
    simp only [nest] at this
    simp only [nest, Src.cost, this, Option.isSome_none, again, Bool.false_eq_true, if_false]
    rw [pow_succ]
    omega

end Verif.Units
