import Verif.Transform.Spec
import Mathlib.Tactic.Ring
import Mathlib.Tactic.FieldSimp
import Mathlib.Tactic.NormNum
import Mathlib.Tactic.Linarith
/-! Meaning of the values the model works with, and lemmas. -/
namespace Verif.Transform

/-- A length. -/
noncomputable def lenVal (env : Env) : Len → ℝ
  | .val v u => v * pixels env u
  | .expr i => env.lcalc i

/-- A length or percentage. -/
noncomputable def lpVal (env : Env) (base : ℝ) : LP → ℝ
  | .dim v u => v * pixels env u
  | .pct p => p * base
  | .expr i => env.mcalc i base

/-- The map of a transform function. -/
noncomputable def trMap (env : Env) : Tr → Map
  | .translate x y => translation (lpVal env env.width x) (lpVal env env.height y) 0
  | .translateX x => translation (lpVal env env.width x) 0 0
  | .translateY y => translation 0 (lpVal env env.height y) 0
  | .translateZ z => translation 0 0 (lenVal env z)
  | .translate3d x y z => translation (lpVal env env.width x) (lpVal env env.height y) (lenVal env z)
  | .scale x y => scaling x.toNum y.toNum 1
  | .scaleX x => scaling x.toNum 1 1
  | .scaleY y => scaling 1 y.toNum 1
  | .scaleZ z => scaling 1 1 z.toNum
  | .scale3d x y z => scaling x.toNum y.toNum z.toNum
  | .rotate a => rotationZ (radians a)
  | .rotateX a => rotationX (radians a)
  | .rotateY a => rotationY (radians a)
  | .rotateZ a => rotationZ (radians a)
  | .rotate3d x y z a => rotation x y z (radians a)
  | .skew x y => skewing (radians x) (radians y)
  | .skewX a => skewing (radians a) 0
  | .skewY a => skewing 0 (radians a)
  | .perspective l => perspectiveMap (lenVal env l)
  | .matrix m => affine m.a m.b m.c m.d m.e m.f
  | .matrix3d m => projective m.m11 m.m12 m.m13 m.m14 m.m21 m.m22 m.m23 m.m24 m.m31 m.m32 m.m33 m.m34 m.m41 m.m42 m.m43 m.m44

/-- Not a perspective from a negative constant distance. -/
def okay : Tr → Prop
  | .perspective (.val v _) => 0 ≤ v
  | _ => True

theorem length_print (env : Env) (l : Len) : length env l.print = some (lenVal env l) := by
  cases l with
  | val v u => simp only [Len.print, printLV]; split <;> rename_i h <;> simp [length, lenVal, h]
  | expr i => rfl

theorem lp_print (env : Env) (b : ℝ) (l : LP) : lengthPct env b l.print = some (lpVal env b l) := by
  cases l with
  | dim v u => simp only [LP.print, printLV]; split <;> rename_i h <;> simp [lengthPct, lpVal, h]
  | pct p => rfl
  | expr i => rfl

theorem np_print (l : NP) : numberPct l.print = some l.toNum := by cases l <;> rfl

theorem radians_zero {a : Ang} (h : a.isZero = true) : radians a = 0 := by
  cases a <;> simp [Ang.isZero] at h <;> simp [radians, h]

theorem radians_print {a : Ang} : angle a.print = some (radians a) := by
  cases a <;> simp [Ang.print, angle, radians]
  have := Real.pi_ne_zero
  field_simp
  ring

theorem angle_print0 (a : Ang) : angle a.print0 = some (radians a) := by
  simp only [Ang.print0]
  split
  · rename_i h; simp [angle, radians_zero h]
  · exact radians_print

theorem lp_zero {env : Env} {b : ℝ} {l : LP} (h : l.isZero = true) : lpVal env b l = 0 := by
  cases l <;> simp [LP.isZero] at h <;> simp [lpVal, h]

theorem len_zero {env : Env} {l : Len} (h : l.isZero = true) : lenVal env l = 0 := by
  cases l <;> simp [Len.isZero] at h <;> simp [lenVal, h]

theorem distance_print (env : Env) (l : Len) (h : okay (.perspective l)) : distance env l.print = some (lenVal env l) := by
  cases l with
  | val v u =>
    simp only [okay] at h
    simp only [Len.print, printLV]
    split <;> rename_i h0
    · simp [distance, lenVal, h0]
    · simp [distance, lenVal, not_lt.mpr h]
  | expr i => rfl

theorem rotation_one_zero_zero (t : ℝ) : rotation 1 0 0 t = rotationX t := by
  funext p; simp [rotation, rotationUnit, rotationX]; refine ⟨by ring, by ring, by ring⟩
theorem rotation_zero_one_zero (t : ℝ) : rotation 0 1 0 t = rotationY t := by
  funext p; simp [rotation, rotationUnit, rotationY]; refine ⟨by ring, by ring, by ring⟩
theorem rotation_zero_zero_one (t : ℝ) : rotation 0 0 1 t = rotationZ t := by
  funext p; simp [rotation, rotationUnit, rotationZ]; refine ⟨by ring, by ring, by ring⟩

/-- What is printed means what the value means. -/
theorem print_map (env : Env) (m : Bool) (t : Tr) (h : okay t) : callMap env (print m t) = some (trMap env t) := by
  cases t with
  | translate x y =>
    simp only [print]
    split
    · rename_i e; simp only [Bool.and_eq_true] at e
      simp [callMap, trMap, lp_print, lp_zero e.1.2]
    · cases e : y.isZero
      · simp [callMap, trMap, lp_print]
      · simp [callMap, trMap, lp_print, lp_zero e]
  | translateX x => cases m <;> simp [print, callMap, trMap, lp_print]
  | translateY y => simp [print, callMap, trMap, lp_print]
  | translateZ z => simp [print, callMap, trMap, length_print]
  | translate3d x y z =>
    simp only [print]
    split
    · rename_i e; simp only [Bool.and_eq_true] at e
      simp [callMap, trMap, lp_print, lp_zero e.1.2, len_zero e.2]
    split
    · rename_i e; simp only [Bool.and_eq_true] at e
      simp [callMap, trMap, lp_print, lp_zero e.1.1.2, len_zero e.2]
    split
    · rename_i e; simp only [Bool.and_eq_true] at e
      simp [callMap, trMap, length_print, lp_zero e.1.1.2, lp_zero e.1.2]
    split
    · rename_i e; simp only [Bool.and_eq_true] at e
      simp [callMap, trMap, lp_print, len_zero e.2]
    · simp [callMap, trMap, lp_print, length_print]
  | scale x y =>
    simp only [print]
    split
    · rename_i e; simp at e; simp [callMap, trMap, numberPct, e.1.2]
    split
    · rename_i e; simp at e; simp [callMap, trMap, numberPct, e.2]
    · split
      · simp [callMap, trMap, numberPct]
      · rename_i e; simp at e; simp [callMap, trMap, numberPct, e]
  | scaleX x => simp [print, callMap, trMap, np_print]
  | scaleY y => simp [print, callMap, trMap, np_print]
  | scaleZ z => simp [print, callMap, trMap, np_print]
  | scale3d x y z =>
    simp only [print]
    split
    · rename_i e; simp at e; simp [callMap, trMap, numberPct, e.1.2, e.2]
    split
    · rename_i e; simp at e; simp [callMap, trMap, numberPct, e.1.2, e.2]
    split
    · rename_i e; simp at e; simp [callMap, trMap, numberPct, e.1.1.2, e.2]
    split
    · rename_i e; simp at e; simp [callMap, trMap, numberPct, e.1.1.2, e.1.2]
    split
    · rename_i e; simp at e; simp [callMap, trMap, numberPct, e.2]
    · simp [callMap, trMap, numberPct]
  | rotate a => simp [print, callMap, trMap, angle_print0]
  | rotateX a => simp [print, callMap, trMap, angle_print0]
  | rotateY a => simp [print, callMap, trMap, angle_print0]
  | rotateZ a => cases m <;> simp [print, callMap, trMap, angle_print0]
  | rotate3d x y z a =>
    simp only [print]
    split
    · rename_i e; simp at e; simp [callMap, trMap, angle_print0, e.1.1.2, e.1.2, e.2, rotation_one_zero_zero]
    split
    · rename_i e; simp at e; simp [callMap, trMap, angle_print0, e.1.1.2, e.1.2, e.2, rotation_zero_one_zero]
    split
    · rename_i e; simp at e; simp [callMap, trMap, angle_print0, e.1.1.2, e.1.2, e.2, rotation_zero_zero_one]
    · simp [callMap, trMap, angle_print0, number]
  | skew x y =>
    simp only [print]
    split
    · rename_i e; simp only [Bool.and_eq_true] at e
      simp [callMap, trMap, angle_print0, radians_zero e.1.2]
    · cases e : y.isZero
      · simp [callMap, trMap, angle_print0, radians_print]
      · simp [callMap, trMap, radians_print, radians_zero e]
  | skewX a => cases m <;> simp [print, callMap, trMap, angle_print0]
  | skewY a => simp [print, callMap, trMap, angle_print0]
  | perspective l => simp [print, callMap, trMap, distance_print env l h]
  | matrix n => simp [print, callMap, trMap, number]
  | matrix3d n => simp [print, callMap, trMap, number]

theorem lp_parse {env : Env} {b : ℝ} {a : Arg} {v : ℝ} (h : lengthPct env b a = some v) : ∃ l, parseLP a = some l ∧ ∀ b', lengthPct env b' a = some (lpVal env b' l) := by
  cases a with
  | num w =>
    simp only [lengthPct] at h
    split at h
    · rename_i e; subst e
      exact ⟨.dim 0 .px, rfl, fun b' => by simp [lengthPct, lpVal]⟩
    · cases h
  | pct p => exact ⟨.pct p, rfl, fun _ => rfl⟩
  | len w u => exact ⟨.dim w u, rfl, fun _ => rfl⟩
  | mcalc i => exact ⟨.expr i, rfl, fun _ => rfl⟩
  | ang a => cases h
  | lcalc i => cases h
  | axis i => cases h

theorem len_parse {env : Env} {a : Arg} {v : ℝ} (h : length env a = some v) : ∃ l, parseLen a = some l ∧ v = lenVal env l := by
  cases a with
  | num w =>
    simp only [length] at h
    split at h
    · rename_i e; subst e
      exact ⟨.val 0 .px, rfl, by simp [lenVal] at h ⊢; exact h.symm⟩
    · cases h
  | len w u => exact ⟨.val w u, rfl, by cases h; rfl⟩
  | lcalc i => exact ⟨.expr i, rfl, by cases h; rfl⟩
  | pct p => cases h
  | ang a => cases h
  | mcalc i => cases h
  | axis i => cases h

theorem dist_parse {env : Env} {a : Arg} {v : ℝ} (h : distance env a = some v) : ∃ l, parseLen a = some l ∧ v = lenVal env l ∧ okay (.perspective l) := by
  cases a with
  | num w =>
    simp only [distance] at h
    split at h
    · rename_i e; subst e
      exact ⟨.val 0 .px, rfl, by simp [lenVal] at h ⊢; exact h.symm, le_refl _⟩
    · cases h
  | len w u =>
    simp only [distance] at h
    split at h
    · cases h
    · rename_i e; exact ⟨.val w u, rfl, by cases h; rfl, not_lt.mp e⟩
  | lcalc i => exact ⟨.expr i, rfl, by cases h; rfl, trivial⟩
  | pct p => cases h
  | ang a => cases h
  | mcalc i => cases h
  | axis i => cases h

theorem np_parse {a : Arg} {v : ℝ} (h : numberPct a = some v) : ∃ l, parseNP a = some l ∧ v = l.toNum := by
  cases a <;> cases h <;> exact ⟨_, rfl, rfl⟩

theorem num_parse {a : Arg} {v : ℝ} (h : number a = some v) : parseNum a = some v := by
  cases a <;> cases h; rfl

theorem ang_parse {a : Arg} {v : ℝ} (h : angle a = some v) : ∃ l, parseAng0 a = some l ∧ v = radians l := by
  cases a with
  | num w =>
    simp only [angle] at h
    split at h
    · rename_i e; subst e
      exact ⟨.deg 0, by simp [parseAng0], by simp [radians] at h ⊢; exact h.symm⟩
    · cases h
  | ang a => exact ⟨a, rfl, by cases h; rfl⟩
  | len w u => cases h
  | lcalc i => cases h
  | pct p => cases h
  | mcalc i => cases h
  | axis i => cases h

theorem num_eq : parseNum = number := by funext a; cases a <;> rfl

macro "lp1" h:ident : tactic => `(tactic| (
  simp only [Option.bind_eq_bind, Option.bind_eq_some_iff, Option.some.injEq] at $h:ident))

/-- A valid call is read as a value that means the same. -/
theorem parse_map (env : Env) (c : Call) (f : Map) (h : callMap env c = some f) : ∃ t, parse c = some t ∧ trMap env t = f ∧ okay t := by
  unfold callMap at h
  split at h
  · lp1 h; obtain ⟨v, hv, rfl⟩ := h
    obtain ⟨l, e, e2⟩ := lp_parse hv
    rw [e2] at hv; cases hv
    exact ⟨.translate l .zero, by simp [parse, e], by simp [trMap, LP.zero, lpVal], trivial⟩
  · lp1 h; obtain ⟨v, hv, w, hw, rfl⟩ := h
    obtain ⟨l, e, e2⟩ := lp_parse hv
    obtain ⟨k, e', e2'⟩ := lp_parse hw
    rw [e2] at hv; cases hv
    rw [e2'] at hw; cases hw
    exact ⟨.translate l k, by simp [parse, e, e'], rfl, trivial⟩
  · lp1 h; obtain ⟨v, hv, rfl⟩ := h
    obtain ⟨l, e, e2⟩ := lp_parse hv
    rw [e2] at hv; cases hv
    exact ⟨.translateX l, by simp [parse, e], rfl, trivial⟩
  · lp1 h; obtain ⟨v, hv, rfl⟩ := h
    obtain ⟨l, e, e2⟩ := lp_parse hv
    rw [e2] at hv; cases hv
    exact ⟨.translateY l, by simp [parse, e], rfl, trivial⟩
  · lp1 h; obtain ⟨v, hv, rfl⟩ := h
    obtain ⟨l, e, rfl⟩ := len_parse hv
    exact ⟨.translateZ l, by simp [parse, e], rfl, trivial⟩
  · lp1 h; obtain ⟨v, hv, w, hw, u, hu, rfl⟩ := h
    obtain ⟨l, e, e2⟩ := lp_parse hv
    obtain ⟨k, e', e2'⟩ := lp_parse hw
    obtain ⟨j, e'', rfl⟩ := len_parse hu
    rw [e2] at hv; cases hv
    rw [e2'] at hw; cases hw
    exact ⟨.translate3d l k j, by simp [parse, e, e', e''], rfl, trivial⟩
  · lp1 h; obtain ⟨v, hv, w, hw, rfl⟩ := h
    rw [hv] at hw; cases hw
    obtain ⟨l, e, rfl⟩ := np_parse hv
    exact ⟨.scale l l, by simp [parse, e], rfl, trivial⟩
  · lp1 h; obtain ⟨v, hv, w, hw, rfl⟩ := h
    obtain ⟨l, e, rfl⟩ := np_parse hv
    obtain ⟨k, e', rfl⟩ := np_parse hw
    exact ⟨.scale l k, by simp [parse, e, e'], rfl, trivial⟩
  · lp1 h; obtain ⟨v, hv, rfl⟩ := h
    obtain ⟨l, e, rfl⟩ := np_parse hv
    exact ⟨.scaleX l, by simp [parse, e], rfl, trivial⟩
  · lp1 h; obtain ⟨v, hv, rfl⟩ := h
    obtain ⟨l, e, rfl⟩ := np_parse hv
    exact ⟨.scaleY l, by simp [parse, e], rfl, trivial⟩
  · lp1 h; obtain ⟨v, hv, rfl⟩ := h
    obtain ⟨l, e, rfl⟩ := np_parse hv
    exact ⟨.scaleZ l, by simp [parse, e], rfl, trivial⟩
  · lp1 h; obtain ⟨v, hv, w, hw, u, hu, rfl⟩ := h
    obtain ⟨l, e, rfl⟩ := np_parse hv
    obtain ⟨k, e', rfl⟩ := np_parse hw
    obtain ⟨j, e'', rfl⟩ := np_parse hu
    exact ⟨.scale3d l k j, by simp [parse, e, e', e''], rfl, trivial⟩
  · lp1 h; obtain ⟨v, hv, rfl⟩ := h
    obtain ⟨l, e, rfl⟩ := ang_parse hv
    exact ⟨.rotate l, by simp [parse, e], rfl, trivial⟩
  · lp1 h; obtain ⟨v, hv, rfl⟩ := h
    obtain ⟨l, e, rfl⟩ := ang_parse hv
    exact ⟨.rotateX l, by simp [parse, e], rfl, trivial⟩
  · lp1 h; obtain ⟨v, hv, rfl⟩ := h
    obtain ⟨l, e, rfl⟩ := ang_parse hv
    exact ⟨.rotateY l, by simp [parse, e], rfl, trivial⟩
  · lp1 h; obtain ⟨v, hv, rfl⟩ := h
    obtain ⟨l, e, rfl⟩ := ang_parse hv
    exact ⟨.rotateZ l, by simp [parse, e], rfl, trivial⟩
  · lp1 h; obtain ⟨x, hx, y, hy, z, hz, v, hv, rfl⟩ := h
    obtain ⟨l, e, rfl⟩ := ang_parse hv
    exact ⟨.rotate3d x y z l, by simp [parse, e, num_parse hx, num_parse hy, num_parse hz], rfl, trivial⟩
  · lp1 h; obtain ⟨v, hv, rfl⟩ := h
    obtain ⟨l, e, rfl⟩ := ang_parse hv
    exact ⟨.skew l (.deg 0), by simp [parse, e], by simp [trMap, radians], trivial⟩
  · lp1 h; obtain ⟨v, hv, w, hw, rfl⟩ := h
    obtain ⟨l, e, rfl⟩ := ang_parse hv
    obtain ⟨k, e', rfl⟩ := ang_parse hw
    exact ⟨.skew l k, by simp [parse, e, e'], rfl, trivial⟩
  · lp1 h; obtain ⟨v, hv, rfl⟩ := h
    obtain ⟨l, e, rfl⟩ := ang_parse hv
    exact ⟨.skewX l, by simp [parse, e], rfl, trivial⟩
  · lp1 h; obtain ⟨v, hv, rfl⟩ := h
    obtain ⟨l, e, rfl⟩ := ang_parse hv
    exact ⟨.skewY l, by simp [parse, e], rfl, trivial⟩
  · lp1 h; obtain ⟨v, hv, rfl⟩ := h
    obtain ⟨l, e, rfl, e2⟩ := dist_parse hv
    exact ⟨.perspective l, by simp [parse, e], rfl, e2⟩
  · simp only [parse, num_eq]
    rename_i a b c d e f
    generalize number a = a at h ⊢; generalize number b = b at h ⊢; generalize number c = c at h ⊢
    generalize number d = d at h ⊢; generalize number e = e at h ⊢; generalize number f = f at h ⊢
    cases a; · cases h
    cases b; · cases h
    cases c; · cases h
    cases d; · cases h
    cases e; · cases h
    cases f; · cases h
    cases h
    exact ⟨_, rfl, rfl, trivial⟩
  · simp only [parse, num_eq]
    rename_i a b c d e f g i j k l m n o p q
    generalize number a = a at h ⊢; generalize number b = b at h ⊢; generalize number c = c at h ⊢
    generalize number d = d at h ⊢; generalize number e = e at h ⊢; generalize number f = f at h ⊢
    generalize number g = g at h ⊢; generalize number i = i at h ⊢; generalize number j = j at h ⊢
    generalize number k = k at h ⊢; generalize number l = l at h ⊢; generalize number m = m at h ⊢
    generalize number n = n at h ⊢; generalize number o = o at h ⊢; generalize number p = p at h ⊢
    generalize number q = q at h ⊢
    cases a; · cases h
    cases b; · cases h
    cases c; · cases h
    cases d; · cases h
    cases e; · cases h
    cases f; · cases h
    cases g; · cases h
    cases i; · cases h
    cases j; · cases h
    cases k; · cases h
    cases l; · cases h
    cases m; · cases h
    cases n; · cases h
    cases o; · cases h
    cases p; · cases h
    cases q; · cases h
    cases h
    exact ⟨_, rfl, rfl, trivial⟩
  · cases h

end Verif.Transform
