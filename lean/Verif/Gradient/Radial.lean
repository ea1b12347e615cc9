import Verif.Gradient.Linear
import Verif.Position.Props
/-! Properties of radial and conic gradients. -/
namespace Verif.Gradient
open Transform (Env lengthPct Arg LP Ang Len lpVal parseLP parseLen radians angle length lenVal)
open Position (Pos IsPos compX compY)

/-! ## Colour stops -/

section
variable {D : Type} {ops : Ops D}

/-- The only way to write `50%`. -/
def HalfOnly (ops : Ops D) : Prop := ∀ a d, ops.parse a = some d → ops.half d → a = .pct (1 / 2)

theorem parseSegs_half' (ho : HalfOnly ops) : ∀ {segs : List Seg} {seen : Bool} {is : List (Item D)}, parseSegs ops seen segs = some is → halfHint ∉ segs →
    ∀ i ∈ is, useless ops i = false
  | [], _, is, h, _ => by cases h; simp
  | s :: segs, seen, is, h, hn => by
    simp only [parseSegs, Option.bind_eq_bind, Option.bind_eq_some_iff, Option.some.injEq] at h
    obtain ⟨⟨js, b⟩, h1, ks, h2, rfl⟩ := h
    intro i hi
    rcases List.mem_append.1 hi with hi | hi
    · unfold parseSeg at h1
      split at h1
      · split at h1
        · cases h1; cases List.mem_singleton.1 hi; rfl
        · simp only [Option.map_eq_some_iff, Prod.mk.injEq] at h1
          obtain ⟨d, _, rfl, _⟩ := h1; cases List.mem_singleton.1 hi; rfl
        · simp only [Option.bind_eq_bind, Option.bind_eq_some_iff, Option.some.injEq, Prod.mk.injEq] at h1
          obtain ⟨d, _, e, _, rfl, _⟩ := h1
          simp only [List.mem_cons, List.not_mem_nil, or_false] at hi
          rcases hi with rfl | rfl <;> rfl
        · cases h1
      · rename_i t hne
        split at h1
        · simp only [Option.map_eq_some_iff, Prod.mk.injEq] at h1
          obtain ⟨d, hd, rfl, _⟩ := h1; cases List.mem_singleton.1 hi
          cases hu : useless ops (Item.hint d) with
          | false => rfl
          | true =>
            exfalso
            simp only [useless, decide_eq_true_eq] at hu
            cases t with
            | pos t =>
              cases t with
              | arg a => cases ho a d hd hu; exact hn (by simp [halfHint])
              | kw k => cases hd
              | other n => cases hd
            | _ => cases hd
        · cases h1
      · cases h1
    · exact parseSegs_half' ho h2 (fun h => hn (List.mem_cons_of_mem _ h)) i hi

theorem parseItems_half' (ho : HalfOnly ops) {segs : List Seg} {is : List (Item D)} (h : parseItems ops segs = some is) (hn : halfHint ∉ segs) :
    ∀ i ∈ is, useless ops i = false := by
  cases segs with
  | nil => cases h
  | cons s segs => exact parseSegs_half' ho h hn

/-- Stops are parsed, and printed with the same meaning. -/
theorem items_ok (ho : HalfOnly ops) {val : Arg → Option ℝ} {dv : D → ℝ} (h1 : ParsesOk ops val dv) (h2 : PrintsOk ops val dv) (dp : Bool)
    {segs : List Seg} {ss : List Stop} (h : IsStops val segs ss) (hn : halfHint ∉ segs) :
    ∃ is, parseItems ops segs = some is ∧ IsStops val (printItems ops dp is) ss := by
  obtain ⟨is, e1, e2⟩ := parseItems_ok h1 h
  obtain ⟨_, _, _, h3, h4⟩ := h
  exact ⟨is, e1, printItems_ok h2 dp (parseItems_half' ho e1 hn) e2 h3 h4⟩
end

theorem lp_half : HalfOnly lpOps := by
  intro a d h1 h2
  have : d = .pct (1 / 2) := h2
  subst this; exact parseLP_half h1

theorem ap_half : HalfOnly apOps := by
  intro a d h1 h2
  have : d = .pct (1 / 2) := h2
  subst this
  have h1 : parseAP a = some (.pct (1 / 2)) := h1
  cases a <;> simp_all [parseAP, Transform.parseAng]

/-- An angle or percentage. -/
noncomputable def apVal (env : Env) : AP → ℝ
  | .dim a => radians a
  | .pct p => p * (2 * Real.pi)
  | .expr i => env.mcalc i (2 * Real.pi)

theorem ap_prints (env : Env) : PrintsOk apOps (anglePct env) (apVal env) := by
  intro d
  cases d with
  | dim a =>
    have := @Transform.radians_print a
    have h : ∃ b, a.print = .ang b := by cases a <;> exact ⟨_, rfl⟩
    obtain ⟨b, hb⟩ := h
    show anglePct env a.print = some (radians a)
    rw [hb] at this ⊢
    exact this
  | pct p => rfl
  | expr i => rfl

theorem ap_parses (env : Env) : ParsesOk apOps (anglePct env) (apVal env) := by
  intro a v h
  cases a with
  | ang a => exact ⟨.dim a, rfl, by simpa [anglePct, apVal] using h⟩
  | pct p => exact ⟨.pct p, rfl, by simpa [anglePct, apVal] using h⟩
  | mcalc i => exact ⟨.expr i, rfl, by simpa [anglePct, apVal] using h⟩
  | _ => cases h

/-! ## Shapes and positions -/

/-- What a shape means. -/
noncomputable def shapeVal (env : Env) : Shape → Ending
  | .size x y => .ellipse (lpVal env env.width x) (lpVal env env.height y)
  | .ellipse e => .ellipseTo e
  | .radius r => .circle (lenVal env r)
  | .circle e => .circleTo e

theorem print_shape (env : Env) (S : Shape) : IsShape env S.print (shapeVal env S) := by
  cases S with
  | size x y => exact .size (Transform.lp_print env _ x) (Transform.lp_print env _ y)
  | ellipse e => exact .ext
  | radius r => exact .len (Transform.length_print env r)
  | circle e =>
    simp only [Shape.print]
    split
    · rename_i h; subst h; exact .circle
    · exact .circleExt

theorem lpp {env : Env} {b v : ℝ} {a : Arg} (h : lengthPct env b a = some v) : ∃ l, parseLP a = some l ∧ lpVal env b l = v := by
  obtain ⟨l, h1, h2⟩ := Transform.lp_parse h
  refine ⟨l, h1, ?_⟩
  have := h2 b; rw [h] at this; exact (Option.some.inj this).symm

/-- Nothing, or `at`. -/
def AtRest (r : Seg) : Prop := r = [] ∨ ∃ ts, r = .at :: ts

theorem parse_shape {env : Env} {s : Seg} {e : Ending} (h : IsShape env s e) :
    ∃ S, (∀ r, AtRest r → parseShape (s ++ r) = some (S, r)) ∧ shapeVal env S = e := by
  cases h with
  | circle => exact ⟨.circle .farthestCorner, by rintro r (rfl | ⟨ts, rfl⟩) <;> rfl, rfl⟩
  | @circleExt e => exact ⟨.circle e, by rintro r (rfl | ⟨ts, rfl⟩) <;> rfl, rfl⟩
  | @extCircle e => exact ⟨.circle e, by rintro r (rfl | ⟨ts, rfl⟩) <;> rfl, rfl⟩
  | circleLen h =>
    obtain ⟨l, h1, rfl⟩ := Transform.len_parse h
    exact ⟨.radius l, by rintro r (rfl | ⟨ts, rfl⟩) <;> simp [parseShape, parseEllipse, parseCircle, lpTok, lenTok, h1], rfl⟩
  | lenCircle h =>
    obtain ⟨l, h1, rfl⟩ := Transform.len_parse h
    refine ⟨.radius l, ?_, rfl⟩
    rename_i a
    rintro r (rfl | ⟨ts, rfl⟩) <;> cases h2 : parseLP a <;> simp [parseShape, parseEllipse, parseCircle, lpTok, lenTok, h1, h2]
  | len h =>
    obtain ⟨l, h1, rfl⟩ := Transform.len_parse h
    refine ⟨.radius l, ?_, rfl⟩
    rename_i a
    rintro r (rfl | ⟨ts, rfl⟩) <;> cases h2 : parseLP a <;> simp [parseShape, parseEllipse, parseCircle, lpTok, lenTok, h1, h2]
    rcases ts with _ | ⟨t, ts⟩
    · rfl
    · cases t <;> rfl
  | ellipse => exact ⟨.ellipse .farthestCorner, by rintro r (rfl | ⟨ts, rfl⟩) <;> rfl, rfl⟩
  | @ext e => exact ⟨.ellipse e, by rintro r (rfl | ⟨ts, rfl⟩) <;> rfl, rfl⟩
  | @ellipseExt e => exact ⟨.ellipse e, by rintro r (rfl | ⟨ts, rfl⟩) <;> rfl, rfl⟩
  | @extEllipse e => exact ⟨.ellipse e, by rintro r (rfl | ⟨ts, rfl⟩) <;> rfl, rfl⟩
  | size h1 h2 =>
    obtain ⟨x, e1, rfl⟩ := lpp h1
    obtain ⟨y, e2, rfl⟩ := lpp h2
    exact ⟨.size x y, by rintro r (rfl | ⟨ts, rfl⟩) <;> simp [parseShape, parseEllipse, lpTok, e1, e2], rfl⟩
  | ellipseSize h1 h2 =>
    obtain ⟨x, e1, rfl⟩ := lpp h1
    obtain ⟨y, e2, rfl⟩ := lpp h2
    exact ⟨.size x y, by rintro r (rfl | ⟨ts, rfl⟩) <;> simp [parseShape, parseEllipse, lpTok, e1, e2], rfl⟩
  | sizeEllipse h1 h2 =>
    obtain ⟨x, e1, rfl⟩ := lpp h1
    obtain ⟨y, e2, rfl⟩ := lpp h2
    exact ⟨.size x y, by rintro r (rfl | ⟨ts, rfl⟩) <;> simp [parseShape, parseEllipse, lpTok, e1, e2], rfl⟩

theorem at_rest {env : Env} {u : Seg} {x y : ℝ} (h : IsAt env u x y) : AtRest u := by
  cases h with
  | pos h => exact .inr ⟨_, rfl⟩
  | none => exact .inl rfl

/-- `at <position>` is parsed. -/
theorem parse_at {env : Env} {u : Seg} {x y : ℝ} (h : IsAt env u x y) :
    (∃ p, parseAt u = some (p, []) ∧ compX env p.x = x ∧ compY env p.y = y) ∨
      (u = [] ∧ x = env.width / 2 ∧ y = env.height / 2) := by
  cases h with
  | none => exact .inr ⟨rfl, rfl, rfl⟩
  | @pos ts _ _ h =>
    obtain ⟨p, e, e1, e2⟩ := Position.parse_pos h
    have e := e [] Position.stops_nil
    rw [List.append_nil] at e
    refine .inl ⟨p, ?_, e1, e2⟩
    have : (ts.map Tok.pos).map posTok = ts := by
      rw [List.map_map]; exact List.map_id _
    simp [parseAt, this, e]

/-- What is printed for a position. -/
theorem print_at (env : Env) (m : Bool) (p : Pos) :
    IsAt env (if p.isCenter then [] else .at :: (Position.print m p).map .pos) (compX env p.x) (compY env p.y) := by
  split
  · rename_i h
    simp only [Pos.isCenter, Bool.and_eq_true] at h
    rw [Position.center_x h.1, Position.center_y h.2]; exact .none
  · exact .pos (Position.print_pos env m p)

theorem centered_val (env : Env) : compX env Pos.centered.x = env.width / 2 ∧ compY env Pos.centered.y = env.height / 2 := ⟨rfl, rfl⟩

open Classical in
theorem radial_parts {env : Env} {a b : Seg} {e : Ending} {x y : ℝ} (hs : IsShapeOpt env a e) (ha : IsAt env b x y) (items : List Seg) :
    IsRadial env ((if a ++ b = [] then [] else [a ++ b]) ++ items) e x y items := by
  split
  · rename_i h
    obtain ⟨rfl, rfl⟩ := List.append_eq_nil_iff.1 h
    cases ha
    cases hs with
    | some h => cases h
    | none => exact .absent
  · rename_i h
    exact .given h hs ha

open Classical in
/-- What is printed for a radial gradient. -/
theorem print_radial (env : Env) (m dp : Bool) (g : Radial) :
    IsRadial env (g.print m dp) (shapeVal env g.shape) (compX env g.position.x) (compY env g.position.y) (printItems lpOps dp g.items) := by
  have hs : IsShapeOpt env (if g.shape = .ellipse .farthestCorner then [] else g.shape.print) (shapeVal env g.shape) := by
    split
    · rename_i h; rw [h]; exact .none
    · exact .some (print_shape env g.shape)
  exact radial_parts hs (print_at env m g.position) _

/-- **C84 (partial).** A valid radial or repeating radial gradient is parsed, and printed, minified or not, as a valid one with the same shape, the same
centre and the same colour stops on a gradient line of any length. Not covered: the hint `50%`, which is dropped. -/
theorem C84_radial_partial (m dp : Bool) {env : Env} {segs stops : List Seg} {e : Ending} {x y len : ℝ} {ss : List Stop}
    (h : IsRadial env segs e x y stops) (hs : IsStops (lengthPct env len) stops ss)
    (hn : [Tok.pos (.arg (.pct (1 / 2)))] ∉ stops) :
    ∃ g, parseRadial segs = some g ∧ ∃ stops', IsRadial env (g.print m dp) e x y stops' ∧ IsStops (lengthPct env len) stops' ss := by
  obtain ⟨is, e1, e2⟩ := items_ok lp_half (lp_parses env len) (lp_prints env len) dp hs hn
  suffices hg : ∃ S p, parseRadial segs = some ⟨S, p, is⟩ ∧ shapeVal env S = e ∧ compX env p.x = x ∧ compY env p.y = y by
    obtain ⟨S, p, h1, rfl, rfl, rfl⟩ := hg
    exact ⟨_, h1, _, print_radial env m dp ⟨S, p, is⟩, e2⟩
  cases h with
  | absent =>
    obtain ⟨c, s, r, rfl⟩ := stops_head hs
    refine ⟨.ellipse .farthestCorner, .centered, ?_, rfl, rfl, rfl⟩
    simp [parseRadial, parseShape, parseEllipse, parseCircle, lpTok, lenTok, parseAt, e1]
  | @given s u _ _ _ _ hne hsh hat =>
    have hr := at_rest hat
    cases hsh with
    | some hsh =>
      obtain ⟨S, f1, f2⟩ := parse_shape hsh
      rcases parse_at hat with ⟨p, g1, g2, g3⟩ | ⟨rfl, rfl, rfl⟩
      · exact ⟨S, p, by simp [parseRadial, f1 u hr, g1, e1], f2, g2, g3⟩
      · exact ⟨S, .centered, by simp [parseRadial, by simpa using f1 [] hr, parseAt, e1], f2, rfl, rfl⟩
    | none =>
      rcases hr with rfl | ⟨ts, rfl⟩
      · exact absurd rfl hne
      · rcases parse_at hat with ⟨p, g1, g2, g3⟩ | ⟨h, _⟩
        · exact ⟨.ellipse .farthestCorner, p, by simp [parseRadial, parseShape, parseEllipse, parseCircle, lpTok, lenTok, g1, e1], rfl, g2, g3⟩
        · cases h

/-! ## Conic gradients -/

theorem isZero_radians {a : Ang} (h : a.isZero = true) : radians a = 0 := by
  cases a <;> simp [Ang.isZero] at h <;> simp [radians, h]

theorem print_from (a : Ang) : IsFrom (if a.isZero then [] else [.from, .pos (.arg a.print)]) (radians a) := by
  split
  · rename_i h; rw [isZero_radians h]; exact .none
  · exact .some Transform.radians_print

open Classical in
theorem conic_parts {env : Env} {a b : Seg} {v x y : ℝ} (hs : IsFrom a v) (ha : IsAt env b x y) (items : List Seg) :
    IsConic env ((if a ++ b = [] then [] else [a ++ b]) ++ items) v x y items := by
  split
  · rename_i h
    obtain ⟨rfl, rfl⟩ := List.append_eq_nil_iff.1 h
    cases ha
    cases hs
    exact .absent
  · rename_i h
    exact .given h hs ha

/-- What is printed for a conic gradient. -/
theorem print_conic (env : Env) (m dp : Bool) (g : Conic) :
    IsConic env (g.print m dp) (radians g.angle) (compX env g.position.x) (compY env g.position.y) (printItems apOps dp g.items) :=
  conic_parts (print_from g.angle) (print_at env m g.position) _

/-- **C85 (partial).** A valid conic or repeating conic gradient is parsed, and printed, minified or not, as a valid one with the same angle, the same
centre and the same colour stops. Not covered: the hint `50%`, which is dropped. -/
theorem C85_conic_partial (m dp : Bool) {env : Env} {segs stops : List Seg} {v x y : ℝ} {ss : List Stop}
    (h : IsConic env segs v x y stops) (hs : IsStops (anglePct env) stops ss)
    (hn : [Tok.pos (.arg (.pct (1 / 2)))] ∉ stops) :
    ∃ g, parseConic segs = some g ∧ ∃ stops', IsConic env (g.print m dp) v x y stops' ∧ IsStops (anglePct env) stops' ss := by
  obtain ⟨is, e1, e2⟩ := items_ok ap_half (ap_parses env) (ap_prints env) dp hs hn
  suffices hg : ∃ a p, parseConic segs = some ⟨a, p, is⟩ ∧ radians a = v ∧ compX env p.x = x ∧ compY env p.y = y by
    obtain ⟨a, p, h1, rfl, rfl, rfl⟩ := hg
    exact ⟨_, h1, _, print_conic env m dp ⟨a, p, is⟩, e2⟩
  cases h with
  | absent =>
    obtain ⟨c, s, r, rfl⟩ := stops_head hs
    refine ⟨.deg 0, .centered, ?_, by simp [radians], rfl, rfl⟩
    simp [parseConic, parseFrom, parseAt, e1]
  | @given s u _ _ _ _ hne hf hat =>
    have hr := at_rest hat
    cases hf with
    | some hf =>
      obtain ⟨l, f1, rfl⟩ := Transform.ang_parse hf
      rcases parse_at hat with ⟨p, g1, g2, g3⟩ | ⟨rfl, rfl, rfl⟩
      · exact ⟨l, p, by simp [parseConic, parseFrom, angTok, f1, g1, e1], rfl, g2, g3⟩
      · exact ⟨l, .centered, by simp [parseConic, parseFrom, angTok, f1, parseAt, e1], rfl, rfl, rfl⟩
    | none =>
      rcases hr with rfl | ⟨ts, rfl⟩
      · exact absurd rfl hne
      · rcases parse_at hat with ⟨p, g1, g2, g3⟩ | ⟨h, _⟩
        · exact ⟨.deg 0, p, by simp [parseConic, parseFrom, g1, e1], by simp [radians], g2, g3⟩
        · cases h

/-! ## Cases -/

/-- A box of 200 by 100 pixels. -/
noncomputable def wideBox : Env := ⟨fun _ => 16, 200, 100, fun _ => 0, fun _ _ => 0⟩

/-- Non-vacuity of `C84_radial_partial`: `radial-gradient(10px 20% ellipse at right, red 10%, blue 60%)`. -/
example : IsRadial wideBox [[.pos (.arg (.len 10 .px)), .pos (.arg (.pct (1 / 5))), .ellipse, .at, .pos (.kw .right)],
      [.color 0, .pos (.arg (.pct (1 / 10)))], [.color 1, .pos (.arg (.pct (3 / 5)))]] (.ellipse 10 20) 200 50
      [[.color 0, .pos (.arg (.pct (1 / 10)))], [.color 1, .pos (.arg (.pct (3 / 5)))]] ∧
    IsStops (lengthPct wideBox 10) [[.color 0, .pos (.arg (.pct (1 / 10)))], [.color 1, .pos (.arg (.pct (3 / 5)))]]
      [⟨none, 0, some (1 / 10 * 10)⟩, ⟨none, 1, some (3 / 5 * 10)⟩] ∧
    ∃ g, parseRadial [[.pos (.arg (.len 10 .px)), .pos (.arg (.pct (1 / 5))), .ellipse, .at, .pos (.kw .right)],
        [.color 0, .pos (.arg (.pct (1 / 10)))], [.color 1, .pos (.arg (.pct (3 / 5)))]] = some g ∧
      g.print true true = [[.pos (.arg (.len 10 .px)), .pos (.arg (.pct (1 / 5))), .at, .pos (.arg (.pct 1))],
        [.color 0, .pos (.arg (.pct (1 / 10)))], [.color 1, .pos (.arg (.pct (3 / 5)))]] := by
  refine ⟨?_, ⟨[[.color 0 (some (1 / 10 * 10))], [.color 1 (some (3 / 5 * 10))]], rfl, rfl, le_refl _, fun s hs => by cases hs; rfl⟩,
    ⟨.size (.dim 10 .px) (.pct (1 / 5)), ⟨.side .right none, .center⟩, [.stop 0 (some (.pct (1 / 10))), .stop 1 (some (.pct (3 / 5)))]⟩, rfl, ?_⟩
  · have h1 : lengthPct wideBox wideBox.width (.len 10 .px) = some 10 := by simp [lengthPct, Transform.pixels]
    have h2 : lengthPct wideBox wideBox.height (.pct (1 / 5)) = some 20 := by simp [lengthPct, wideBox]; norm_num
    have h3 : IsPos wideBox [.kw .right] 200 50 := Position.isPos_cast (.one (.inr (.inr (.inl ⟨rfl, rfl⟩)))) rfl (by simp [wideBox]; norm_num)
    exact .given (s := [.pos (.arg (.len 10 .px)), .pos (.arg (.pct (1 / 5))), .ellipse]) (by simp) (.some (.sizeEllipse h1 h2)) (.pos h3)
  · simp [Radial.print, Shape.print, lpKey, LP.print, Transform.printLV, Pos.isCenter, Position.Comp.isCenter, Position.print, Position.printTail,
      Position.printCentered, Position.printRest, Position.xLen, Position.yLen, Position.HSide.toLP, Position.lpTok, Position.zeroed, LP.isZero,
      printItems, serialize, useless, merge, Item.toks, dTok, lpOps, Position.Comp.print]

/-- Non-vacuity of `C85_conic_partial`: `conic-gradient(from 0.25turn, red, blue 180deg)`. -/
example : IsConic wideBox [[.from, .pos (.arg (.ang (.turn (1 / 4))))], [.color 0], [.color 1, .pos (.arg (.ang (.deg 180)))]]
      (1 / 4 * (2 * Real.pi)) 100 50 [[.color 0], [.color 1, .pos (.arg (.ang (.deg 180)))]] ∧
    IsStops (anglePct wideBox) [[.color 0], [.color 1, .pos (.arg (.ang (.deg 180)))]] [⟨none, 0, none⟩, ⟨none, 1, some (180 / 360 * (2 * Real.pi))⟩] ∧
    ∃ g, parseConic [[.from, .pos (.arg (.ang (.turn (1 / 4))))], [.color 0], [.color 1, .pos (.arg (.ang (.deg 180)))]] = some g ∧
      g.print true true = [[.from, .pos (.arg (.ang (.turn (1 / 4))))], [.color 0], [.color 1, .pos (.arg (.ang (.deg 180)))]] := by
  refine ⟨?_, ⟨[[.color 0 none], [.color 1 (some (180 / 360 * (2 * Real.pi)))]], rfl, rfl, le_refl _, fun s hs => by cases hs; rfl⟩,
    ⟨.turn (1 / 4), .centered, [.stop 0 none, .stop 1 (some (.dim (.deg 180)))]⟩, rfl, ?_⟩
  · have := IsConic.given (env := wideBox) (s := [.from, .pos (.arg (.ang (.turn (1 / 4))))]) (u := []) (segs := [[.color 0], [.color 1, .pos (.arg (.ang (.deg 180)))]])
      (by simp) (.some (v := 1 / 4 * (2 * Real.pi)) rfl) .none
    rw [show wideBox.width / 2 = 100 by simp [wideBox]; norm_num, show wideBox.height / 2 = 50 by simp [wideBox]; norm_num] at this
    exact this
  · simp [Conic.print, Ang.isZero, Ang.print, Pos.isCenter, Position.Comp.isCenter, Pos.centered, printItems, serialize, useless, merge, Item.toks, dTok, apOps, AP.print]

/-- **C84 and C85, what goes wrong.** The hint of `red 0%, 50%, blue 80%` is dropped in a radial and in a conic gradient, although it is not in the middle. -/
theorem C84_half_hint (m dp : Bool) :
    (∃ g, parseRadial [[.color 0, .pos (.arg (.pct 0))], [.pos (.arg (.pct (1 / 2)))], [.color 1, .pos (.arg (.pct (4 / 5)))]] = some g ∧
      g.print m dp = [[.color 0, .pos (.arg (.pct 0))], [.color 1, .pos (.arg (.pct (4 / 5)))]]) ∧
    ∃ g, parseConic [[.color 0, .pos (.arg (.pct 0))], [.pos (.arg (.pct (1 / 2)))], [.color 1, .pos (.arg (.pct (4 / 5)))]] = some g ∧
      g.print m dp = [[.color 0, .pos (.arg (.pct 0))], [.color 1, .pos (.arg (.pct (4 / 5)))]] := by
  refine ⟨⟨⟨.ellipse .farthestCorner, .centered, [.stop 0 (some (.pct 0)), .hint (.pct (1 / 2)), .stop 1 (some (.pct (4 / 5)))]⟩, rfl, ?_⟩,
    ⟨.deg 0, .centered, [.stop 0 (some (.pct 0)), .hint (.pct (1 / 2)), .stop 1 (some (.pct (4 / 5)))]⟩, rfl, ?_⟩
  · cases dp <;> simp [Radial.print, Pos.isCenter, Position.Comp.isCenter, Pos.centered, printItems, serialize, useless, merge, Item.toks, dTok, lpOps, LP.print]
  · cases dp <;> simp [Conic.print, Ang.isZero, Pos.isCenter, Position.Comp.isCenter, Pos.centered, printItems, serialize, useless, merge, Item.toks, dTok, apOps, AP.print]

end Verif.Gradient
