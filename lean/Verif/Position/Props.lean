import Verif.Position.Spec
import Verif.Transform.Lemmas
/-! Properties of positions. -/
namespace Verif.Position
open Transform (Env LP Arg lengthPct lpVal parseLP lp_print lp_parse)

/-- The distance a component stands for. -/
noncomputable def compX (env : Env) : Comp HSide → ℝ
  | .center => env.width / 2
  | .length l => lpVal env env.width l
  | .side .left none => 0
  | .side .right none => env.width
  | .side .left (some l) => lpVal env env.width l
  | .side .right (some l) => env.width - lpVal env env.width l

/-- The distance a component stands for. -/
noncomputable def compY (env : Env) : Comp VSide → ℝ
  | .center => env.height / 2
  | .length l => lpVal env env.height l
  | .side .top none => 0
  | .side .bottom none => env.height
  | .side .top (some l) => lpVal env env.height l
  | .side .bottom (some l) => env.height - lpVal env env.height l

theorem isLP_tok (env : Env) (b : ℝ) (l : LP) : IsLP env b (lpTok l) (lpVal env b l) := lp_print env b l

theorem hLP (env : Env) (l : LP) : HVal env (lpTok l) (lpVal env env.width l) := .inr (.inr (.inr (isLP_tok env _ l)))
theorem vLP (env : Env) (l : LP) : VVal env (lpTok l) (lpVal env env.height l) := .inr (.inr (.inr (isLP_tok env _ l)))

theorem zeroed_val (env : Env) (b : ℝ) (l : LP) : lpVal env b (zeroed l) = lpVal env b l := by
  unfold zeroed; split
  · rename_i h; rw [Transform.lp_zero h]; simp [LP.zero, lpVal]
  · rfl

theorem hside_val (env : Env) (s : HSide) : lpVal env env.width s.toLP = compX env (.side s none) := by
  cases s <;> simp [HSide.toLP, LP.zero, lpVal, compX]

theorem vside_val (env : Env) (s : VSide) : lpVal env env.height s.toLP = compY env (.side s none) := by
  cases s <;> simp [VSide.toLP, LP.zero, lpVal, compY]

theorem xLen_val {env : Env} {x : Comp HSide} {l : LP} (h : xLen x = some l) : lpVal env env.width l = compX env x := by
  rcases x with _ | a | ⟨s, o⟩
  · cases h; simp [lpVal, compX]; ring
  · cases h; exact zeroed_val env _ a
  · cases s <;> cases o <;> simp only [xLen, Option.some.injEq] at h <;> cases h
    · simp [lpVal, compX, LP.zero]
    · exact zeroed_val env _ _

theorem yLen_val {env : Env} {x : Comp VSide} {l : LP} (h : yLen x = some l) : lpVal env env.height l = compY env x := by
  rcases x with _ | a | ⟨s, o⟩
  · cases h; simp [lpVal, compY]; ring
  · cases h; exact zeroed_val env _ a
  · cases s <;> cases o <;> simp only [yLen, Option.some.injEq] at h <;> cases h
    · simp [lpVal, compY, LP.zero]
    · exact zeroed_val env _ _

theorem hgroup (env : Env) (m : Bool) (s : HSide) (o : Option LP) : HGroup env ((Comp.side s o).print m HSide.tok) (compX env (.side s o)) := by
  cases s <;> cases o
  · exact .left
  · exact .fromLeft (isLP_tok env _ _)
  · exact .right
  · exact .fromRight (isLP_tok env _ _)

theorem vgroup (env : Env) (m : Bool) (s : VSide) (o : Option LP) : VGroup env ((Comp.side s o).print m VSide.tok) (compY env (.side s o)) := by
  cases s <;> cases o
  · exact .top
  · exact .fromTop (isLP_tok env _ _)
  · exact .bottom
  · exact .fromBottom (isLP_tok env _ _)

theorem center_x {env : Env} {c : Comp HSide} (h : c.isCenter = true) : compX env c = env.width / 2 := by
  rcases c with _ | (_ | p | _) | _ <;> simp_all [Comp.isCenter, compX, lpVal] <;> ring

theorem center_y {env : Env} {c : Comp VSide} (h : c.isCenter = true) : compY env c = env.height / 2 := by
  rcases c with _ | (_ | p | _) | _ <;> simp_all [Comp.isCenter, compY, lpVal] <;> ring

theorem two_lp (env : Env) (a b : LP) : IsPos env [lpTok a, lpTok b] (lpVal env env.width a) (lpVal env env.height b) :=
  .two (hLP env a) (vLP env b)

theorem rest_pos {env : Env} {m : Bool} {p : Pos} {a b : LP} (ha : xLen p.x = some a) (hb : yLen p.y = some b) :
    IsPos env (printRest m p) (compX env p.x) (compY env p.y) := by
  rw [← xLen_val ha, ← yLen_val hb]
  simp only [printRest, ha, hb]
  exact two_lp env a b

theorem isPos_cast {env : Env} {ts : List Tok} {x y x' y' : ℝ} (h : IsPos env ts x' y') (hx : x' = x) (hy : y' = y) : IsPos env ts x y := by
  subst hx hy; exact h

/-- What is printed is a position at the same point. -/
theorem print_pos (env : Env) (m : Bool) (p : Pos) : IsPos env (print m p) (compX env p.x) (compY env p.y) := by
  obtain ⟨x, y⟩ := p
  by_cases hy : y.isCenter = true
  · -- the vertical component is centered
    rw [center_y hy]
    have hy' : ∀ s o, y ≠ .side s o := by rintro s o rfl; cases hy
    rcases x with _ | a | ⟨s, o⟩
    · have : print m ⟨.center, y⟩ = Comp.center.print m HSide.tok := by
        simp only [print, hy, if_true]; simp [printCentered, Comp.isCenter]
      rw [this]
      refine .one ?_
      cases m
      · exact .inr (.inl ⟨rfl, rfl⟩)
      · exact .inr (.inr (.inr (by simp [IsLP, lengthPct, compX]; ring)))
    · have : print m ⟨.length a, y⟩ = [lpTok a] := by
        rcases y with _ | b | ⟨s, o⟩
        · simp [print, hy, printCentered, Comp.print]
        · simp [print, hy, printCentered, Comp.print]
        · exact absurd rfl (hy' s o)
      rw [this]
      exact .one (hLP env a)
    · cases o with
      | none =>
        have : print m ⟨.side s none, y⟩ = [lpTok s.toLP] := by
          cases s <;> simp only [print, hy, if_true] <;> simp [printCentered, Comp.isCenter]
        rw [this, ← hside_val]
        exact .one (hLP env _)
      | some l =>
        cases s with
        | left =>
          have : print m ⟨.side .left (some l), y⟩ = [lpTok l] := by simp only [print, hy, if_true]; simp [printCentered, Comp.isCenter]
          rw [this]
          exact .one (hLP env _)
        | right =>
          rcases y with _ | b | ⟨s, o⟩
          · simp only [print, hy, if_true]
            exact .hv (.fromRight (isLP_tok env _ l)) .center
          · rw [← center_y (env := env) hy]
            exact .hv (.fromRight (isLP_tok env _ l)) (.fromTop (isLP_tok env _ b))
          · exact absurd rfl (hy' s o)
  · -- it is not
    have hy1 : y.isCenter = false := by simpa using hy
    rcases y with _ | b | ⟨v, o⟩
    · exact absurd rfl hy
    · have key : print m ⟨x, .length b⟩ = printRest m ⟨x, .length b⟩ ∨ ∃ l, x = .side .right (some l) := by
        rcases x with _ | a | ⟨s, o⟩
        · exact .inl (by simp [print, hy1, printTail])
        · exact .inl (by simp [print, hy1, printTail])
        · rcases s with _ | _ <;> cases o
          · exact .inl (by simp [print, hy1, printTail])
          · exact .inl (by simp [print, hy1, printTail])
          · exact .inl (by simp [print, hy1, printTail])
          · exact .inr ⟨_, rfl⟩
      rcases key with e | ⟨l, rfl⟩
      · rw [e]
        rcases x with _ | a | ⟨s, o⟩
        · exact rest_pos rfl rfl
        · exact rest_pos rfl rfl
        · rcases s with _ | _ <;> cases o
          · exact rest_pos rfl rfl
          · exact rest_pos rfl rfl
          · exact .two (.inr (.inr (.inl ⟨rfl, rfl⟩))) (vLP env b)
          · simp [print] at e; simp [printRest, xLen, Comp.print] at e
      · exact .hv (.fromRight (isLP_tok env _ l)) (.fromTop (isLP_tok env _ b))
    · rcases x with _ | a | ⟨s, k⟩
      · cases o with
        | none =>
          have : print m ⟨.center, .side v none⟩ = [v.tok] := by simp [print, hy1, printTail, Comp.isCenter]
          rw [this]
          cases v
          · exact .oneTop
          · exact .oneBottom
        | some l =>
          cases v with
          | top =>
            have : print m ⟨.center, .side .top (some l)⟩ = printRest m ⟨.center, .side .top (some l)⟩ := by simp [print, hy1, printTail]
            rw [this]; exact rest_pos rfl rfl
          | bottom =>
            have : print m ⟨.center, .side .bottom (some l)⟩ = [.kw .center, .kw .bottom, lpTok l] := by simp [print, hy1, printTail]
            rw [this]
            exact .hv .center (.fromBottom (isLP_tok env _ l))
      · cases o with
        | none =>
          by_cases hx : (Comp.length (S := HSide) a).isCenter = true
          · have : print m ⟨.length a, .side v none⟩ = [v.tok] := by simp [print, hy1, printTail, hx]
            rw [this, center_x hx]
            cases v
            · exact .oneTop
            · exact .oneBottom
          · have : print m ⟨.length a, .side v none⟩ = printRest m ⟨.length a, .side v none⟩ := by simp [print, hy1, printTail, hx]
            rw [this]
            cases v
            · exact rest_pos rfl rfl
            · exact .two (hLP env a) (.inr (.inr (.inl ⟨rfl, rfl⟩)))
        | some l =>
          cases v with
          | top =>
            have : print m ⟨.length a, .side .top (some l)⟩ = printRest m ⟨.length a, .side .top (some l)⟩ := by simp [print, hy1, printTail]
            rw [this]; exact rest_pos rfl rfl
          | bottom => exact .hv (.fromLeft (isLP_tok env _ a)) (.fromBottom (isLP_tok env _ l))
      · have key : print m ⟨.side s k, .side v o⟩ = printRest m ⟨.side s k, .side v o⟩ ∨
            (k = none ∧ o = none ∧ print m ⟨.side s k, .side v o⟩ = [lpTok s.toLP, lpTok v.toLP]) := by
          cases s <;> cases k <;> cases o <;> simp [print, hy1, printTail, Comp.isCenter]
        rcases key with e | ⟨rfl, rfl, e⟩
        · rw [e]
          by_cases hb : ∃ a b, xLen (.side s k) = some a ∧ yLen (.side v o) = some b
          · obtain ⟨a, b, h1, h2⟩ := hb
            exact rest_pos h1 h2
          · have : printRest m ⟨.side s k, .side v o⟩ = (Comp.side s k).print m HSide.tok ++ (Comp.side v o).print m VSide.tok := by
              simp only [printRest]
              split
              · rename_i h1 h2; exact absurd ⟨_, _, h1, h2⟩ hb
              · rfl
            rw [this]
            exact .hv (hgroup env m s k) (vgroup env m v o)
        · rw [e]
          exact isPos_cast (two_lp env _ _) (hside_val env s) (vside_val env v)

/-- What follows a position does not continue it. -/
def Stops (rest : List Tok) : Prop := ∀ t r, rest = t :: r → ∃ n, t = .other n

theorem lp_tok {env : Env} {b : ℝ} {t : Tok} {v : ℝ} (h : IsLP env b t v) :
    ∃ a l, t = .arg a ∧ parseLP a = some l ∧ ∀ b', lengthPct env b' a = some (lpVal env b' l) := by
  cases t with
  | arg a => obtain ⟨l, h1, h2⟩ := lp_parse h; exact ⟨a, l, rfl, h1, h2⟩
  | kw k => cases h
  | other n => cases h

theorem stops_lp {r : List Tok} (h : Stops r) : lp r = none := by
  cases r with
  | nil => rfl
  | cons t r => obtain ⟨n, rfl⟩ := h t r rfl; rfl
theorem stops_center {r : List Tok} (h : Stops r) : centerKw r = none := by
  cases r with
  | nil => rfl
  | cons t r => obtain ⟨n, rfl⟩ := h t r rfl; rfl
theorem stops_h {r : List Tok} (h : Stops r) : hKw r = none := by
  cases r with
  | nil => rfl
  | cons t r => obtain ⟨n, rfl⟩ := h t r rfl; rfl
theorem stops_v {r : List Tok} (h : Stops r) : vKw r = none := by
  cases r with
  | nil => rfl
  | cons t r => obtain ⟨n, rfl⟩ := h t r rfl; rfl

@[simp] theorem lp_kw (k : Kw) (r : List Tok) : lp (.kw k :: r) = none := rfl
@[simp] theorem lp_arg (a : Arg) (r : List Tok) : lp (.arg a :: r) = (parseLP a).map fun l => (l, r) := rfl
@[simp] theorem lp_h (s : HSide) (r : List Tok) : lp (s.tok :: r) = none := by cases s <;> rfl
@[simp] theorem lp_v (s : VSide) (r : List Tok) : lp (s.tok :: r) = none := by cases s <;> rfl
@[simp] theorem center_kw (r : List Tok) : centerKw (.kw .center :: r) = some ((), r) := rfl
@[simp] theorem center_l (r : List Tok) : centerKw (.kw .left :: r) = none := rfl
@[simp] theorem center_r (r : List Tok) : centerKw (.kw .right :: r) = none := rfl
@[simp] theorem center_t (r : List Tok) : centerKw (.kw .top :: r) = none := rfl
@[simp] theorem center_b (r : List Tok) : centerKw (.kw .bottom :: r) = none := rfl
@[simp] theorem center_arg (a : Arg) (r : List Tok) : centerKw (.arg a :: r) = none := rfl
@[simp] theorem center_h (s : HSide) (r : List Tok) : centerKw (s.tok :: r) = none := by cases s <;> rfl
@[simp] theorem center_v (s : VSide) (r : List Tok) : centerKw (s.tok :: r) = none := by cases s <;> rfl
@[simp] theorem h_arg (a : Arg) (r : List Tok) : hKw (.arg a :: r) = none := rfl
@[simp] theorem h_l (r : List Tok) : hKw (.kw .left :: r) = some (.left, r) := rfl
@[simp] theorem h_r (r : List Tok) : hKw (.kw .right :: r) = some (.right, r) := rfl
@[simp] theorem h_t (r : List Tok) : hKw (.kw .top :: r) = none := rfl
@[simp] theorem h_b (r : List Tok) : hKw (.kw .bottom :: r) = none := rfl
@[simp] theorem h_c (r : List Tok) : hKw (.kw .center :: r) = none := rfl
@[simp] theorem h_h (s : HSide) (r : List Tok) : hKw (s.tok :: r) = some (s, r) := by cases s <;> rfl
@[simp] theorem h_v (s : VSide) (r : List Tok) : hKw (s.tok :: r) = none := by cases s <;> rfl
@[simp] theorem v_arg (a : Arg) (r : List Tok) : vKw (.arg a :: r) = none := rfl
@[simp] theorem v_l (r : List Tok) : vKw (.kw .left :: r) = none := rfl
@[simp] theorem v_r (r : List Tok) : vKw (.kw .right :: r) = none := rfl
@[simp] theorem v_t (r : List Tok) : vKw (.kw .top :: r) = some (.top, r) := rfl
@[simp] theorem v_b (r : List Tok) : vKw (.kw .bottom :: r) = some (.bottom, r) := rfl
@[simp] theorem v_c (r : List Tok) : vKw (.kw .center :: r) = none := rfl
@[simp] theorem v_h (s : HSide) (r : List Tok) : vKw (s.tok :: r) = none := by cases s <;> rfl
@[simp] theorem v_v (s : VSide) (r : List Tok) : vKw (s.tok :: r) = some (s, r) := by cases s <;> rfl

theorem hgroup_form {env : Env} {ts : List Tok} {x : ℝ} (h : HGroup env ts x) :
    (ts = [.kw .center] ∧ x = compX env .center) ∨ (∃ s : HSide, ts = [s.tok] ∧ x = compX env (.side s none)) ∨
      ∃ s a l, ts = [HSide.tok s, .arg a] ∧ parseLP a = some l ∧ x = compX env (.side s (some l)) := by
  have lpv : ∀ {b : ℝ} {t : Tok} {v : ℝ}, IsLP env b t v → ∃ a l, t = .arg a ∧ parseLP a = some l ∧ v = lpVal env b l := by
    intro b t v h
    obtain ⟨a, l, rfl, e1, e2⟩ := lp_tok h
    refine ⟨a, l, rfl, e1, ?_⟩
    have := e2 b
    simp only [IsLP] at h
    rw [this] at h; exact (Option.some.inj h).symm
  cases h with
  | center => exact .inl ⟨rfl, rfl⟩
  | left => exact .inr (.inl ⟨.left, rfl, rfl⟩)
  | right => exact .inr (.inl ⟨.right, rfl, rfl⟩)
  | fromLeft h => obtain ⟨a, l, rfl, e1, rfl⟩ := lpv h; exact .inr (.inr ⟨.left, a, l, rfl, e1, rfl⟩)
  | fromRight h => obtain ⟨a, l, rfl, e1, rfl⟩ := lpv h; exact .inr (.inr ⟨.right, a, l, rfl, e1, rfl⟩)

theorem vgroup_form {env : Env} {ts : List Tok} {x : ℝ} (h : VGroup env ts x) :
    (ts = [.kw .center] ∧ x = compY env .center) ∨ (∃ s : VSide, ts = [s.tok] ∧ x = compY env (.side s none)) ∨
      ∃ s a l, ts = [VSide.tok s, .arg a] ∧ parseLP a = some l ∧ x = compY env (.side s (some l)) := by
  have lpv : ∀ {b : ℝ} {t : Tok} {v : ℝ}, IsLP env b t v → ∃ a l, t = .arg a ∧ parseLP a = some l ∧ v = lpVal env b l := by
    intro b t v h
    obtain ⟨a, l, rfl, e1, e2⟩ := lp_tok h
    refine ⟨a, l, rfl, e1, ?_⟩
    have := e2 b
    simp only [IsLP] at h
    rw [this] at h; exact (Option.some.inj h).symm
  cases h with
  | center => exact .inl ⟨rfl, rfl⟩
  | top => exact .inr (.inl ⟨.top, rfl, rfl⟩)
  | bottom => exact .inr (.inl ⟨.bottom, rfl, rfl⟩)
  | fromTop h => obtain ⟨a, l, rfl, e1, rfl⟩ := lpv h; exact .inr (.inr ⟨.top, a, l, rfl, e1, rfl⟩)
  | fromBottom h => obtain ⟨a, l, rfl, e1, rfl⟩ := lpv h; exact .inr (.inr ⟨.bottom, a, l, rfl, e1, rfl⟩)

/-- Every position is parsed, with its meaning, and what follows is left. -/
theorem parse_pos {env : Env} {ts : List Tok} {x y : ℝ} (h : IsPos env ts x y) :
    ∃ p, (∀ rest, Stops rest → parse (ts ++ rest) = some (p, rest)) ∧ compX env p.x = x ∧ compY env p.y = y := by
  have lpv : ∀ {b : ℝ} {t : Tok} {v : ℝ}, IsLP env b t v → ∃ a l, t = .arg a ∧ parseLP a = some l ∧ lpVal env b l = v := by
    intro b t v h
    obtain ⟨a, l, rfl, e1, e2⟩ := lp_tok h
    refine ⟨a, l, rfl, e1, ?_⟩
    have := e2 b
    simp only [IsLP] at h
    rw [this] at h; exact Option.some.inj h
  cases h with
  | one h =>
    rcases h with ⟨rfl, rfl⟩ | ⟨rfl, rfl⟩ | ⟨rfl, rfl⟩ | h
    · exact ⟨⟨.side .left none, .center⟩, fun rest hr => by simp [parse, component, optional, stops_lp hr, stops_center hr, stops_h hr, stops_v hr], rfl, rfl⟩
    · exact ⟨⟨.center, .center⟩, fun rest hr => by simp [parse, component, optional, stops_lp hr, stops_center hr, stops_h hr, stops_v hr], rfl, rfl⟩
    · exact ⟨⟨.side .right none, .center⟩, fun rest hr => by simp [parse, component, optional, stops_lp hr, stops_center hr, stops_h hr, stops_v hr], rfl, rfl⟩
    · obtain ⟨a, l, rfl, e1, e2⟩ := lpv h
      exact ⟨⟨.length l, .center⟩, fun rest hr => by simp [parse, component, optional, stops_lp hr, stops_center hr, stops_h hr, stops_v hr, e1], e2, rfl⟩
  | oneTop => exact ⟨⟨.center, .side .top none⟩, fun rest hr => by simp [parse, component, optional, offsetThenX, stops_lp hr, stops_center hr, stops_h hr, stops_v hr], rfl, rfl⟩
  | oneBottom => exact ⟨⟨.center, .side .bottom none⟩, fun rest hr => by simp [parse, component, optional, offsetThenX, stops_lp hr, stops_center hr, stops_h hr, stops_v hr], rfl, rfl⟩
  | two h k =>
    rcases h with ⟨rfl, rfl⟩ | ⟨rfl, rfl⟩ | ⟨rfl, rfl⟩ | h
    · rcases k with ⟨rfl, rfl⟩ | ⟨rfl, rfl⟩ | ⟨rfl, rfl⟩ | k
      · exact ⟨⟨.side .left none, .side .top none⟩, fun rest hr => by simp [parse, component, optional, stops_lp hr, stops_center hr, stops_h hr, stops_v hr], rfl, rfl⟩
      · exact ⟨⟨.side .left none, .center⟩, fun rest hr => by simp [parse, component, optional, stops_lp hr, stops_center hr, stops_h hr, stops_v hr], rfl, rfl⟩
      · exact ⟨⟨.side .left none, .side .bottom none⟩, fun rest hr => by simp [parse, component, optional, stops_lp hr, stops_center hr, stops_h hr, stops_v hr], rfl, rfl⟩
      · obtain ⟨a, l, rfl, e1, e2⟩ := lpv k
        exact ⟨⟨.side .left none, .length l⟩, fun rest hr => by simp [parse, component, optional, stops_lp hr, stops_center hr, stops_h hr, stops_v hr, e1], rfl, e2⟩
    · rcases k with ⟨rfl, rfl⟩ | ⟨rfl, rfl⟩ | ⟨rfl, rfl⟩ | k
      · exact ⟨⟨.center, .side .top none⟩, fun rest hr => by simp [parse, component, optional, stops_lp hr, stops_center hr, stops_h hr, stops_v hr], rfl, rfl⟩
      · exact ⟨⟨.center, .center⟩, fun rest hr => by simp [parse, component, optional, stops_lp hr, stops_center hr, stops_h hr, stops_v hr], rfl, rfl⟩
      · exact ⟨⟨.center, .side .bottom none⟩, fun rest hr => by simp [parse, component, optional, stops_lp hr, stops_center hr, stops_h hr, stops_v hr], rfl, rfl⟩
      · obtain ⟨a, l, rfl, e1, e2⟩ := lpv k
        exact ⟨⟨.center, .length l⟩, fun rest hr => by simp [parse, component, optional, stops_lp hr, stops_center hr, stops_h hr, stops_v hr, e1], rfl, e2⟩
    · rcases k with ⟨rfl, rfl⟩ | ⟨rfl, rfl⟩ | ⟨rfl, rfl⟩ | k
      · exact ⟨⟨.side .right none, .side .top none⟩, fun rest hr => by simp [parse, component, optional, stops_lp hr, stops_center hr, stops_h hr, stops_v hr], rfl, rfl⟩
      · exact ⟨⟨.side .right none, .center⟩, fun rest hr => by simp [parse, component, optional, stops_lp hr, stops_center hr, stops_h hr, stops_v hr], rfl, rfl⟩
      · exact ⟨⟨.side .right none, .side .bottom none⟩, fun rest hr => by simp [parse, component, optional, stops_lp hr, stops_center hr, stops_h hr, stops_v hr], rfl, rfl⟩
      · obtain ⟨a, l, rfl, e1, e2⟩ := lpv k
        exact ⟨⟨.side .right none, .length l⟩, fun rest hr => by simp [parse, component, optional, stops_lp hr, stops_center hr, stops_h hr, stops_v hr, e1], rfl, e2⟩
    · obtain ⟨a, l, rfl, e1, e2⟩ := lpv h
      rcases k with ⟨rfl, rfl⟩ | ⟨rfl, rfl⟩ | ⟨rfl, rfl⟩ | k
      · exact ⟨⟨.length l, .side .top none⟩, fun rest hr => by simp [parse, component, optional, stops_lp hr, stops_center hr, stops_h hr, stops_v hr, e1], e2, rfl⟩
      · exact ⟨⟨.length l, .center⟩, fun rest hr => by simp [parse, component, optional, stops_lp hr, stops_center hr, stops_h hr, stops_v hr, e1], e2, rfl⟩
      · exact ⟨⟨.length l, .side .bottom none⟩, fun rest hr => by simp [parse, component, optional, stops_lp hr, stops_center hr, stops_h hr, stops_v hr, e1], e2, rfl⟩
      · obtain ⟨b, q, rfl, e3, e4⟩ := lpv k
        exact ⟨⟨.length l, .length q⟩, fun rest hr => by simp [parse, component, optional, stops_lp hr, stops_center hr, stops_h hr, stops_v hr, e1, e3], e2, e4⟩
  | hv h k =>
    rcases hgroup_form h with ⟨rfl, rfl⟩ | ⟨s, rfl, rfl⟩ | ⟨s, a, l, rfl, e1, rfl⟩
    · rcases vgroup_form k with ⟨rfl, rfl⟩ | ⟨v, rfl, rfl⟩ | ⟨v, b, q, rfl, e2, rfl⟩
      · exact ⟨⟨.center, .center⟩, fun rest hr => by simp [parse, component, optional, offsetThenX, stops_lp hr, stops_center hr, stops_h hr, stops_v hr], rfl, rfl⟩
      · exact ⟨⟨.center, .side v none⟩, fun rest hr => by simp [parse, component, optional, offsetThenX, stops_lp hr, stops_center hr, stops_h hr, stops_v hr], rfl, rfl⟩
      · exact ⟨⟨.center, .side v (some q)⟩, fun rest hr => by simp [parse, component, optional, offsetThenX, stops_lp hr, stops_center hr, stops_h hr, stops_v hr, e2], rfl, rfl⟩
    · rcases vgroup_form k with ⟨rfl, rfl⟩ | ⟨v, rfl, rfl⟩ | ⟨v, b, q, rfl, e2, rfl⟩
      · exact ⟨⟨.side s none, .center⟩, fun rest hr => by simp [parse, component, optional, offsetThenX, stops_lp hr, stops_center hr, stops_h hr, stops_v hr], rfl, rfl⟩
      · exact ⟨⟨.side s none, .side v none⟩, fun rest hr => by simp [parse, component, optional, offsetThenX, stops_lp hr, stops_center hr, stops_h hr, stops_v hr], rfl, rfl⟩
      · exact ⟨⟨.side s none, .side v (some q)⟩, fun rest hr => by simp [parse, component, optional, offsetThenX, stops_lp hr, stops_center hr, stops_h hr, stops_v hr, e2], rfl, rfl⟩
    · rcases vgroup_form k with ⟨rfl, rfl⟩ | ⟨v, rfl, rfl⟩ | ⟨v, b, q, rfl, e2, rfl⟩
      · exact ⟨⟨.side s (some l), .center⟩, fun rest hr => by simp [parse, component, optional, offsetThenX, stops_lp hr, stops_center hr, stops_h hr, stops_v hr, e1], rfl, rfl⟩
      · exact ⟨⟨.side s (some l), .side v none⟩, fun rest hr => by simp [parse, component, optional, offsetThenX, stops_lp hr, stops_center hr, stops_h hr, stops_v hr, e1], rfl, rfl⟩
      · exact ⟨⟨.side s (some l), .side v (some q)⟩, fun rest hr => by simp [parse, component, optional, offsetThenX, stops_lp hr, stops_center hr, stops_h hr, stops_v hr, e1, e2], rfl, rfl⟩
  | vh h k =>
    rcases hgroup_form h with ⟨rfl, rfl⟩ | ⟨s, rfl, rfl⟩ | ⟨s, a, l, rfl, e1, rfl⟩
    · rcases vgroup_form k with ⟨rfl, rfl⟩ | ⟨v, rfl, rfl⟩ | ⟨v, b, q, rfl, e2, rfl⟩
      · exact ⟨⟨.center, .center⟩, fun rest hr => by simp [parse, component, optional, offsetThenX, stops_lp hr, stops_center hr, stops_h hr, stops_v hr], rfl, rfl⟩
      · exact ⟨⟨.center, .side v none⟩, fun rest hr => by simp [parse, component, optional, offsetThenX, stops_lp hr, stops_center hr, stops_h hr, stops_v hr], rfl, rfl⟩
      · exact ⟨⟨.center, .side v (some q)⟩, fun rest hr => by simp [parse, component, optional, offsetThenX, stops_lp hr, stops_center hr, stops_h hr, stops_v hr, e2], rfl, rfl⟩
    · rcases vgroup_form k with ⟨rfl, rfl⟩ | ⟨v, rfl, rfl⟩ | ⟨v, b, q, rfl, e2, rfl⟩
      · exact ⟨⟨.side s none, .center⟩, fun rest hr => by simp [parse, component, optional, offsetThenX, stops_lp hr, stops_center hr, stops_h hr, stops_v hr], rfl, rfl⟩
      · exact ⟨⟨.side s none, .side v none⟩, fun rest hr => by simp [parse, component, optional, offsetThenX, stops_lp hr, stops_center hr, stops_h hr, stops_v hr], rfl, rfl⟩
      · exact ⟨⟨.side s none, .side v (some q)⟩, fun rest hr => by simp [parse, component, optional, offsetThenX, stops_lp hr, stops_center hr, stops_h hr, stops_v hr, e2], rfl, rfl⟩
    · rcases vgroup_form k with ⟨rfl, rfl⟩ | ⟨v, rfl, rfl⟩ | ⟨v, b, q, rfl, e2, rfl⟩
      · exact ⟨⟨.side s (some l), .center⟩, fun rest hr => by simp [parse, component, optional, offsetThenX, stops_lp hr, stops_center hr, stops_h hr, stops_v hr, e1], rfl, rfl⟩
      · exact ⟨⟨.side s (some l), .side v none⟩, fun rest hr => by simp [parse, component, optional, offsetThenX, stops_lp hr, stops_center hr, stops_h hr, stops_v hr, e1], rfl, rfl⟩
      · exact ⟨⟨.side s (some l), .side v (some q)⟩, fun rest hr => by simp [parse, component, optional, offsetThenX, stops_lp hr, stops_center hr, stops_h hr, stops_v hr, e1, e2], rfl, rfl⟩

theorem lp_inv {ts r : List Tok} {l : LP} (h : lp ts = some (l, r)) : ∃ a, ts = .arg a :: r ∧ parseLP a = some l := by
  unfold lp at h; split at h
  · rename_i a ts
    cases e : parseLP a <;> simp [e] at h
    obtain ⟨rfl, rfl⟩ := h; exact ⟨a, rfl, e⟩
  · cases h

theorem center_inv {ts r : List Tok} {u : Unit} (h : centerKw ts = some (u, r)) : ts = .kw .center :: r := by
  unfold centerKw at h; split at h
  · simp only [Option.some.injEq, Prod.mk.injEq] at h; rw [← h.2]
  · cases h

theorem h_inv {ts r : List Tok} {s : HSide} (h : hKw ts = some (s, r)) : ts = s.tok :: r := by
  unfold hKw at h; split at h
  · simp only [Option.some.injEq, Prod.mk.injEq] at h; rw [← h.1, ← h.2]; rfl
  · simp only [Option.some.injEq, Prod.mk.injEq] at h; rw [← h.1, ← h.2]; rfl
  · cases h

theorem v_inv {ts r : List Tok} {s : VSide} (h : vKw ts = some (s, r)) : ts = s.tok :: r := by
  unfold vKw at h; split at h
  · simp only [Option.some.injEq, Prod.mk.injEq] at h; rw [← h.1, ← h.2]; rfl
  · simp only [Option.some.injEq, Prod.mk.injEq] at h; rw [← h.1, ← h.2]; rfl
  · cases h

/-- An optional offset. -/
inductive Off : List Tok → Option LP → List Tok → Prop
  | no {ts : List Tok} : lp ts = none → Off ts none ts
  | yes {a : Arg} {l : LP} {ts : List Tok} : parseLP a = some l → Off (.arg a :: ts) (some l) ts

theorem off_lp (ts : List Tok) : Off ts (optional lp ts).1 (optional lp ts).2 := by
  unfold optional
  cases e : lp ts with
  | none => exact .no e
  | some p => obtain ⟨a, rfl, e'⟩ := lp_inv (l := p.1) (r := p.2) e; exact .yes e'

/-- How a component is parsed. -/
theorem component_inv {S : Type} {key : P S} {ts r : List Tok} {c : Comp S} (h : component key ts = some (c, r)) :
    (c = .center ∧ ts = .kw .center :: r) ∨ (∃ a l, c = .length l ∧ ts = .arg a :: r ∧ parseLP a = some l) ∨
      ∃ s o r', c = .side s o ∧ key ts = some (s, r') ∧ Off r' o r := by
  simp only [component] at h
  split at h
  · rename_i e; cases h; exact .inl ⟨rfl, center_inv e⟩
  · split at h
    · rename_i e; cases h; obtain ⟨a, rfl, e'⟩ := lp_inv e; exact .inr (.inl ⟨a, _, rfl, rfl, e'⟩)
    · split at h
      · rename_i r' e; cases h; exact .inr (.inr ⟨_, _, _, rfl, e, off_lp r'⟩)
      · cases h

/-- The only number among the values is zero. -/
def Strict (ts : List Tok) : Prop := ∀ v, .arg (.num v) ∈ ts → v = 0

theorem strict_lp {a : Arg} {l : LP} (h : parseLP a = some l) (hs : ∀ v, a = .num v → v = 0) (env : Env) (b : ℝ) :
    IsLP env b (.arg a) (lpVal env b l) := by
  cases a with
  | num v => cases hs v rfl; cases h; simp [IsLP, lengthPct, lpVal]
  | pct p => cases h; rfl
  | len v u => cases h; rfl
  | mcalc i => cases h; rfl
  | ang a => cases h
  | lcalc i => cases h
  | axis i => cases h

/-- The positions that may be printed with three values. -/
def three : Pos → Bool
  | ⟨.side .right (some _), .center⟩ => true
  | ⟨.center, .side .bottom (some _)⟩ => true
  | ⟨.side _ (some _), .side _ none⟩ => true
  | ⟨.side _ none, .side _ (some _)⟩ => true
  | _ => false

theorem rest_len (m : Bool) (p : Pos) (h : three p = false) (h2 : ¬ ∃ a l, p = ⟨.length a, .side .bottom (some l)⟩)
    (h3 : ¬ ∃ a b, p = ⟨.side .right (some a), .length b⟩) : (printRest m p).length ≠ 3 := by
  obtain ⟨x, y⟩ := p
  rcases x with _ | a | ⟨s, o⟩ <;> rcases y with _ | b | ⟨v, k⟩
  · simp [printRest, xLen, yLen]
  · simp [printRest, xLen, yLen]
  · cases v <;> cases k <;> simp [printRest, xLen, yLen, Comp.print] <;> simp [three] at h
  · simp [printRest, xLen, yLen]
  · simp [printRest, xLen, yLen]
  · cases v <;> cases k <;> simp [printRest, xLen, yLen, Comp.print] <;> simp at h2
  · cases s <;> cases o <;> simp [printRest, xLen, yLen, Comp.print] <;> simp [three] at h
  · cases s <;> cases o <;> simp [printRest, xLen, yLen, Comp.print] <;> simp at h3
  · cases s <;> cases o <;> cases v <;> cases k <;> simp [printRest, xLen, yLen, Comp.print] <;> simp [three] at h

theorem print_len (m : Bool) (p : Pos) (h : three p = false) : (print m p).length ≠ 3 := by
  obtain ⟨x, y⟩ := p
  rcases x with _ | a | ⟨s | s, _ | o⟩ <;> rcases y with _ | b | ⟨v | v, _ | k⟩ <;>
    simp only [print, printCentered, printTail] <;> (try split_ifs) <;>
    first
    | exact rest_len _ _ h (by simp) (by simp)
    | (simp [three] at h; done)
    | (simp_all [Comp.isCenter]; done)
    | simp [Comp.print]

/-- What the parser accepts is a position. -/
theorem parse_sound {ts rest : List Tok} {p : Pos} (m : Bool) (h : parse ts = some (p, rest)) (hs : Strict ts) :
    ∃ pre, ts = pre ++ rest ∧ (∀ env, IsPos env pre (compX env p.x) (compY env p.y)) ∧ (pre.length = 3 ∨ (print m p).length ≠ 3) := by
  suffices H : ∃ pre, ts = pre ++ rest ∧ (∀ env, IsPos env pre (compX env p.x) (compY env p.y)) ∧ (pre.length = 3 ∨ three p = false) by
    obtain ⟨pre, a, b, c⟩ := H
    exact ⟨pre, a, b, c.imp id (print_len m p)⟩
  simp only [parse] at h
  split at h
  · -- `center`
    rename_i r e
    rcases component_inv e with ⟨-, rfl⟩ | ⟨_, _, h, _⟩ | ⟨_, _, _, h, _⟩ <;> [skip; cases h; cases h]
    split at h
    · rename_i y r' e2
      cases h
      rcases component_inv e2 with ⟨rfl, rfl⟩ | ⟨a, l, rfl, rfl, e3⟩ | ⟨s, o, r2, rfl, e3, e4⟩
      · exact ⟨[.kw .center, .kw .center], rfl, fun env => .hv .center .center, .inr rfl⟩
      · exact ⟨[.kw .center, .arg a], rfl, fun env => .two (.inr (.inl ⟨rfl, rfl⟩)) (.inr (.inr (.inr (strict_lp e3 (fun v hv => hs v (by simp [hv])) env _)))), .inr rfl⟩
      · cases v_inv e3
        cases e4 with
        | no h => exact ⟨[.kw .center, s.tok], rfl, fun env => .hv .center (vgroup env false s none), .inr (by cases s <;> rfl)⟩
        | @yes a l _ h =>
          have := fun env => strict_lp h (fun v hv => hs v (by simp [hv])) env env.height
          refine ⟨[.kw .center, s.tok, .arg a], rfl, fun env => .hv .center ?_, .inl rfl⟩
          cases s
          · exact .fromTop (this env)
          · exact .fromBottom (this env)
    · cases h
      unfold optional
      cases e2 : component hKw r with
      | none => exact ⟨[.kw .center], rfl, fun env => .one (.inr (.inl ⟨rfl, rfl⟩)), .inr rfl⟩
      | some q =>
        obtain ⟨x, r'⟩ := q
        rcases component_inv e2 with ⟨rfl, rfl⟩ | ⟨a, l, rfl, rfl, e3⟩ | ⟨s, o, r2, rfl, e3, e4⟩
        · exact ⟨[.kw .center, .kw .center], rfl, fun env => .hv .center .center, .inr rfl⟩
        · rename_i e5; simp [component, e3] at e5
        · cases h_inv e3
          cases e4 with
          | no h => exact ⟨[.kw .center, s.tok], rfl, fun env => .vh (hgroup env false s none) .center, .inr (by cases s <;> rfl)⟩
          | @yes a l _ h =>
            have := fun env => strict_lp h (fun v hv => hs v (by simp [hv])) env env.width
            refine ⟨[.kw .center, s.tok, .arg a], rfl, fun env => .vh (us := [.kw .center]) ?_ .center, .inl rfl⟩
            cases s
            · exact .fromLeft (this env)
            · exact .fromRight (this env)
  · -- a length
    rename_i l r e
    rcases component_inv e with ⟨h, _⟩ | ⟨a, _, h', rfl, e1⟩ | ⟨_, _, _, h, _⟩ <;> [cases h; cases h'; cases h]
    have hl := fun env => strict_lp e1 (fun v hv => hs v (by simp [hv])) env env.width
    split at h
    · rename_i s r' e2
      cases h; cases v_inv e2
      refine ⟨[.arg a, s.tok], rfl, fun env => .two (.inr (.inr (.inr (hl env)))) ?_, .inr (by cases s <;> rfl)⟩
      cases s
      · exact .inl ⟨rfl, rfl⟩
      · exact .inr (.inr (.inl ⟨rfl, rfl⟩))
    · split at h
      · rename_i k r' e2
        cases h
        obtain ⟨b, rfl, e3⟩ := lp_inv e2
        exact ⟨[.arg a, .arg b], rfl, fun env => .two (.inr (.inr (.inr (hl env))))
          (.inr (.inr (.inr (strict_lp e3 (fun v hv => hs v (by simp [hv])) env _)))), .inr rfl⟩
      · cases h
        unfold optional
        cases e2 : centerKw r with
        | none => exact ⟨[.arg a], rfl, fun env => .one (.inr (.inr (.inr (hl env)))), .inr rfl⟩
        | some q =>
          obtain ⟨u, r'⟩ := q
          cases center_inv e2
          exact ⟨[.arg a, .kw .center], rfl, fun env => .two (.inr (.inr (.inr (hl env)))) (.inr (.inl ⟨rfl, rfl⟩)), .inr rfl⟩
  · -- a side
    rename_i s o r e
    rcases component_inv e with ⟨h, _⟩ | ⟨_, _, h, _, _⟩ | ⟨_, _, r1, h', e1, e2⟩ <;> [cases h; cases h; cases h']
    cases h_inv e1
    have hg : ∃ ts, r1 = ts ++ r ∧ ∀ env, HGroup env (s.tok :: ts) (compX env (.side s o)) ∧ ts.length = (if o.isSome then 1 else 0) ∧
        ∀ l, o = some l → ∃ a, ts = [.arg a] ∧ IsLP env env.height (.arg a) (lpVal env env.height l) := by
      cases e2 with
      | no h => exact ⟨[], rfl, fun env => ⟨hgroup env false s none, rfl, fun l h => by cases h⟩⟩
      | @yes a l _ h' =>
        have := fun env => strict_lp h' (fun v hv => hs v (by simp [hv])) env env.width
        have this2 := fun env => strict_lp h' (fun v hv => hs v (by simp [hv])) env env.height
        refine ⟨[.arg a], rfl, fun env => ⟨?_, rfl, fun l h => by cases h; exact ⟨a, rfl, this2 env⟩⟩⟩
        cases s
        · exact .fromLeft (this env)
        · exact .fromRight (this env)
    obtain ⟨ts, rfl, hg⟩ := hg
    split at h
    · rename_i e3
      cases h; cases center_inv e3
      refine ⟨s.tok :: ts ++ [.kw .center], by simp, fun env => .hv (hg env).1 .center, ?_⟩
      cases o with
      | none => exact .inr (by cases s <;> rfl)
      | some l => exact .inl (by have := (hg ⟨fun _ => 0, 0, 0, fun _ => 0, fun _ _ => 0⟩).2.1; simp at this; simp [this])
    · split at h
      · rename_i v r' e3
        cases h; cases v_inv e3
        obtain ⟨us, hu, hv⟩ : ∃ us, r' = us ++ (optional lp r').2 ∧ ∀ env, VGroup env (v.tok :: us) (compY env (.side v (optional lp r').1)) ∧
            us.length = (if (optional lp r').1.isSome then 1 else 0) := by
          have := off_lp r'
          revert this
          generalize (optional lp r').1 = o2
          generalize (optional lp r').2 = r2
          intro this
          cases this with
          | no h => exact ⟨[], rfl, fun env => ⟨vgroup env false v none, rfl⟩⟩
          | @yes a l _ h' =>
            have := fun env => strict_lp h' (fun v hv => hs v (by simp [hv])) env env.height
            refine ⟨[.arg a], rfl, fun env => ⟨?_, rfl⟩⟩
            cases v
            · exact .fromTop (this env)
            · exact .fromBottom (this env)
        refine ⟨(s.tok :: ts) ++ (v.tok :: us), by conv_lhs => rw [hu]
                                                   simp, fun env => .hv (hg env).1 (hv env).1, ?_⟩
        have l1 := (hg ⟨fun _ => 0, 0, 0, fun _ => 0, fun _ _ => 0⟩).2.1
        have l2 := (hv ⟨fun _ => 0, 0, 0, fun _ => 0, fun _ _ => 0⟩).2
        revert l1 l2
        generalize (optional lp r').1 = o2
        intro l1 l2
        cases o <;> cases o2 <;> simp at l1 l2 <;> simp [l1, l2, three]
      · cases h
        refine ⟨s.tok :: ts, by simp, fun env => ?_, .inr ?_⟩
        · have := (hg env).1
          cases o with
          | none =>
            have e : ts = [] := by have := (hg env).2.1; simpa using this
            subst e
            refine .one ?_
            cases s
            · exact .inl ⟨rfl, rfl⟩
            · exact .inr (.inr (.inl ⟨rfl, rfl⟩))
          | some l =>
            obtain ⟨a, rfl, ha⟩ := (hg env).2.2 l rfl
            refine .two ?_ (.inr (.inr (.inr ha)))
            cases s
            · exact .inl ⟨rfl, rfl⟩
            · exact .inr (.inr (.inl ⟨rfl, rfl⟩))
        · cases o <;> cases s <;> rfl
  · -- a vertical side first
    split at h
    · cases h
    · rename_i v r e1
      cases v_inv e1
      have vone : ∀ env, IsPos env [v.tok] (compX env .center) (compY env (.side v none)) := by
        intro env; cases v
        · exact .oneTop
        · exact .oneBottom
      split at h
      · rename_i yl x r' e2
        cases h
        simp only [offsetThenX] at e2
        obtain ⟨us, hu, hv⟩ : ∃ us, r = us ++ (optional lp r).2 ∧ ∀ env, VGroup env (v.tok :: us) (compY env (.side v (optional lp r).1)) ∧
            us.length = (if (optional lp r).1.isSome then 1 else 0) := by
          have := off_lp r
          revert this
          generalize (optional lp r).1 = o2
          generalize (optional lp r).2 = r2
          intro this
          cases this with
          | no h => exact ⟨[], rfl, fun env => ⟨vgroup env false v none, rfl⟩⟩
          | @yes a l _ h' =>
            have := fun env => strict_lp h' (fun v hv => hs v (by simp [hv])) env env.height
            refine ⟨[.arg a], rfl, fun env => ⟨?_, rfl⟩⟩
            cases v
            · exact .fromTop (this env)
            · exact .fromBottom (this env)
        have l2 := (hv ⟨fun _ => 0, 0, 0, fun _ => 0, fun _ _ => 0⟩).2
        revert hu hv e2 l2
        generalize (optional lp r).1 = o2
        generalize (optional lp r).2 = r1
        intro e2 hu hv l2
        subst hu
        split at e2
        · rename_i s r2 e3
          cases e2; cases h_inv e3
          obtain ⟨ts, ht, hg⟩ : ∃ ts, r2 = ts ++ (optional lp r2).2 ∧ ∀ env, HGroup env (s.tok :: ts) (compX env (.side s (optional lp r2).1)) ∧
              ts.length = (if (optional lp r2).1.isSome then 1 else 0) := by
            have := off_lp r2
            revert this
            generalize (optional lp r2).1 = o2
            generalize (optional lp r2).2 = r3
            intro this
            cases this with
            | no h => exact ⟨[], rfl, fun env => ⟨hgroup env false s none, rfl⟩⟩
            | @yes a l _ h' =>
              have := fun env => strict_lp h' (fun v hv => hs v (by simp [hv])) env env.width
              refine ⟨[.arg a], rfl, fun env => ⟨?_, rfl⟩⟩
              cases s
              · exact .fromLeft (this env)
              · exact .fromRight (this env)
          refine ⟨(v.tok :: us) ++ (s.tok :: ts), by conv_lhs => rw [ht]
                                                     simp, fun env => .vh (hg env).1 (hv env).1, ?_⟩
          have l1 := (hg ⟨fun _ => 0, 0, 0, fun _ => 0, fun _ _ => 0⟩).2
          revert l1
          generalize (optional lp r2).1 = o3
          intro l1
          cases yl <;> cases o3 <;> simp at l1 l2 <;> simp [l1, l2, three]
        · split at e2
          · rename_i e3
            cases e2; cases center_inv e3
            refine ⟨v.tok :: us ++ [.kw .center], by simp, fun env => .vh .center (hv env).1, ?_⟩
            cases yl with
            | none => exact .inr (by cases v <;> rfl)
            | some l => exact .inl (by simp at l2; simp [l2])
          · cases e2
      · cases h
        exact ⟨[v.tok], rfl, vone, .inr (by cases v <;> rfl)⟩

theorem stops_nil : Stops [] := by intro t r h; cases h

/-- A position has one meaning. -/
theorem pos_unique {env : Env} {ts : List Tok} {x y x' y' : ℝ} (h : IsPos env ts x y) (h' : IsPos env ts x' y') : x = x' ∧ y = y' := by
  obtain ⟨p, e, rfl, rfl⟩ := parse_pos h
  obtain ⟨q, e', rfl, rfl⟩ := parse_pos h'
  have := e' [] stops_nil
  rw [e [] stops_nil] at this; cases this; exact ⟨rfl, rfl⟩

theorem lp_strict {env : Env} {b v : ℝ} {t : Tok} (h : IsLP env b t v) (w : ℝ) (hw : t = .arg (.num w)) : w = 0 := by
  subst hw
  simp only [IsLP, lengthPct] at h
  split at h
  · assumption
  · cases h

theorem hval_strict {env : Env} {x : ℝ} {t : Tok} (h : HVal env t x) (w : ℝ) (hw : t = .arg (.num w)) : w = 0 := by
  rcases h with ⟨rfl, _⟩ | ⟨rfl, _⟩ | ⟨rfl, _⟩ | h
  · cases hw
  · cases hw
  · cases hw
  · exact lp_strict h w hw

theorem vval_strict {env : Env} {x : ℝ} {t : Tok} (h : VVal env t x) (w : ℝ) (hw : t = .arg (.num w)) : w = 0 := by
  rcases h with ⟨rfl, _⟩ | ⟨rfl, _⟩ | ⟨rfl, _⟩ | h
  · cases hw
  · cases hw
  · cases hw
  · exact lp_strict h w hw

theorem hgroup_strict {env : Env} {x : ℝ} {ts : List Tok} (h : HGroup env ts x) (w : ℝ) (hw : .arg (.num w) ∈ ts) : w = 0 := by
  cases h <;> simp at hw
  · rename_i h; exact lp_strict h w hw.symm
  · rename_i h; exact lp_strict h w hw.symm

theorem vgroup_strict {env : Env} {x : ℝ} {ts : List Tok} (h : VGroup env ts x) (w : ℝ) (hw : .arg (.num w) ∈ ts) : w = 0 := by
  cases h <;> simp at hw
  · rename_i h; exact lp_strict h w hw.symm
  · rename_i h; exact lp_strict h w hw.symm

theorem pos_strict {env : Env} {x y : ℝ} {ts : List Tok} (h : IsPos env ts x y) : Strict ts := by
  intro w hw
  cases h with
  | one h => exact hval_strict h w (List.mem_singleton.1 hw).symm
  | oneTop => simp at hw
  | oneBottom => simp at hw
  | two h k =>
    simp only [List.mem_cons, List.not_mem_nil, or_false] at hw
    rcases hw with hw | hw
    · exact hval_strict h w hw.symm
    · exact vval_strict k w hw.symm
  | hv h k =>
    rcases List.mem_append.1 hw with hw | hw
    · exact hgroup_strict h w hw
    · exact vgroup_strict k w hw
  | vh h k =>
    rcases List.mem_append.1 hw with hw | hw
    · exact vgroup_strict k w hw
    · exact hgroup_strict h w hw

/-- **C81.** Every valid position is parsed as a whole, up to what follows, and what is printed for it, minified or not, is a valid
position of the same point in every box and for all units and calculations. A position of one, two or four values is not printed with three,
which would not be allowed outside `background-position`. -/
theorem C81_position (m : Bool) {env : Env} {ts rest : List Tok} {x y : ℝ} (h : IsPos env ts x y) (hr : Stops rest) :
    ∃ p, parse (ts ++ rest) = some (p, rest) ∧
      (∀ env' x' y', IsPos env' ts x' y' ↔ IsPos env' (print m p) x' y') ∧ (ts.length ≠ 3 → (print m p).length ≠ 3) := by
  obtain ⟨p, e, -⟩ := parse_pos h
  have e0 := e [] stops_nil
  rw [List.append_nil] at e0
  obtain ⟨pre, h1, h2, h3⟩ := parse_sound m e0 (pos_strict h)
  rw [List.append_nil] at h1; subst h1
  refine ⟨p, e rest hr, fun env' x' y' => ⟨fun h' => ?_, fun h' => ?_⟩, fun hl => h3.resolve_left hl⟩
  · obtain ⟨rfl, rfl⟩ := pos_unique h' (h2 env'); exact print_pos env' m p
  · obtain ⟨rfl, rfl⟩ := pos_unique h' (print_pos env' m p); exact h2 env'

/-- **C81.** Whatever the parser accepts at the front of its input is a valid position, unless it has a bare number. Such numbers are read
as pixels. -/
theorem C81_only_positions (m : Bool) {ts rest : List Tok} {p : Pos} (h : parse ts = some (p, rest)) (hs : ∀ v, .arg (.num v) ∈ ts → v = 0) :
    ∃ pre, ts = pre ++ rest ∧ ∀ env, ∃ x y, IsPos env pre x y ∧ IsPos env (print m p) x y := by
  obtain ⟨pre, h1, h2, _⟩ := parse_sound m h hs
  exact ⟨pre, h1, fun env => ⟨_, _, h2 env, print_pos env m p⟩⟩

/-- **C81.** What is printed for any position, also for one that was built by hand, is read back as the same point. -/
theorem C81_printed (m : Bool) (p : Pos) {rest : List Tok} (hr : Stops rest) :
    ∃ q, parse (print m p ++ rest) = some (q, rest) ∧ ∀ env x y, IsPos env (print m p) x y ↔ IsPos env (print m q) x y := by
  obtain ⟨q, e, h, _⟩ := C81_position m (print_pos ⟨fun _ => 0, 0, 0, fun _ => 0, fun _ _ => 0⟩ m p) hr
  exact ⟨q, e, h⟩

/-- Non-vacuity: `bottom 10px right 20%` in a box of 200 by 100 pixels is the point (160, 90), and is printed with the keywords in order;
`left 10px top 0%` becomes `10px 0`. -/
example :
    let env : Env := ⟨fun _ => 16, 200, 100, fun _ => 0, fun _ _ => 0⟩
    IsPos env [.kw .bottom, .arg (.len 10 .px), .kw .right, .arg (.pct (1 / 5))] 160 90 ∧
      parse [.kw .bottom, .arg (.len 10 .px), .kw .right, .arg (.pct (1 / 5)), .other 0] =
        some (⟨.side .right (some (.pct (1 / 5))), .side .bottom (some (.dim 10 .px))⟩, [.other 0]) ∧
      print true ⟨.side .left (some (.dim 10 .px)), .side .top (some (.pct 0))⟩ = [.arg (.len 10 .px), .arg (.num 0)] := by
  refine ⟨?_, rfl, ?_⟩
  · have h1 : IsLP ⟨fun _ => 16, 200, 100, fun _ => 0, fun _ _ => 0⟩ 200 (.arg (.pct (1 / 5))) 40 := by simp [IsLP, lengthPct]; norm_num
    have h2 : IsLP ⟨fun _ => 16, 200, 100, fun _ => 0, fun _ _ => 0⟩ 100 (.arg (.len 10 .px)) 10 := by
      simp [IsLP, lengthPct, Transform.pixels]
    exact isPos_cast (.vh (us := [.kw .bottom, .arg (.len 10 .px)]) (.fromRight h1) (.fromBottom h2)) (by norm_num) (by norm_num)
  · simp [print, Comp.isCenter, printTail, printRest, xLen, yLen, zeroed, LP.isZero, LP.zero, lpTok, LP.print, Transform.printLV]

end Verif.Position
