import Verif.Gradient.WebkitSpec
import Verif.Gradient.Radial
import Verif.Gradient.LegacyBugs
import Verif.Transform.MatrixProps
/-! Properties of `-webkit-gradient()`. -/
namespace Verif.Gradient
open Transform (Env lengthPct Arg LP Ang Len lpVal parseLP parseLen radians angle length lenVal toPx)
open Position (Pos IsPos compX compY HSide VSide Comp)

/-! ## Parsing and printing -/

/-- What a coordinate means. -/
noncomputable def wx (env : Env) : WComp HSide → ℝ
  | .center => env.width / 2
  | .num v => v
  | .pct p => p * env.width
  | .side .left => 0
  | .side .right => env.width
/-- What a coordinate means. -/
noncomputable def wy (env : Env) : WComp VSide → ℝ
  | .center => env.height / 2
  | .num v => v
  | .pct p => p * env.height
  | .side .top => 0
  | .side .bottom => env.height

theorem parse_wx {env : Env} {t : Position.Tok} {x : ℝ} (h : xCoord env t = some x) : ∃ c, WComp.parse hWord t = some c ∧ wx env c = x := by
  rcases t with k | a | n
  · cases k <;> simp only [xCoord, Option.some.injEq, reduceCtorEq] at h <;> subst h
    · exact ⟨.side .left, rfl, rfl⟩
    · exact ⟨.side .right, rfl, rfl⟩
    · exact ⟨.center, rfl, rfl⟩
  · cases a <;> simp only [xCoord, Option.some.injEq, reduceCtorEq] at h <;> subst h
    · exact ⟨.num _, rfl, rfl⟩
    · exact ⟨.pct _, rfl, rfl⟩
  · cases h

theorem parse_wy {env : Env} {t : Position.Tok} {x : ℝ} (h : yCoord env t = some x) : ∃ c, WComp.parse vWord t = some c ∧ wy env c = x := by
  rcases t with k | a | n
  · cases k <;> simp only [yCoord, Option.some.injEq, reduceCtorEq] at h <;> subst h
    · exact ⟨.side .top, rfl, rfl⟩
    · exact ⟨.side .bottom, rfl, rfl⟩
    · exact ⟨.center, rfl, rfl⟩
  · cases a <;> simp only [yCoord, Option.some.injEq, reduceCtorEq] at h <;> subst h
    · exact ⟨.num _, rfl, rfl⟩
    · exact ⟨.pct _, rfl, rfl⟩
  · cases h

theorem print_wx (env : Env) (m : Bool) (c : WComp HSide) : xCoord env (c.print m HSide.toLP HSide.tok) = some (wx env c) := by
  rcases c with _ | v | p | s
  · cases m <;> simp [WComp.print, xCoord, wx]; ring
  · rfl
  · simp only [WComp.print]; split
    · rename_i h; simp [xCoord, wx, h]
    · rfl
  · cases m <;> cases s <;> simp [WComp.print, HSide.toLP, HSide.tok, xCoord, wx, LP.zero, LP.print, Transform.printLV]

theorem print_wy (env : Env) (m : Bool) (c : WComp VSide) : yCoord env (c.print m VSide.toLP VSide.tok) = some (wy env c) := by
  rcases c with _ | v | p | s
  · cases m <;> simp [WComp.print, yCoord, wy]; ring
  · rfl
  · simp only [WComp.print]; split
    · rename_i h; simp [yCoord, wy, h]
    · rfl
  · cases m <;> cases s <;> simp [WComp.print, VSide.toLP, VSide.tok, yCoord, wy, LP.zero, LP.print, Transform.printLV]

/-- A stop as a mark. -/
def WStop.mark (s : WStop) : Mark := ⟨s.color, s.position⟩

theorem print_mark (s : WStop) : mark s.print = some s.mark := by
  obtain ⟨c, p⟩ := s
  simp only [WStop.print]
  split
  · rename_i h; simp [mark, WStop.mark, h]
  · split
    · rename_i h; simp [mark, WStop.mark, h]
    · rfl

theorem parse_mark {s : WSeg} {k : Mark} (h : mark s = some k) : ∃ w, WStop.parse s = some w ∧ w.mark = k := by
  cases s with
  | «from» c => cases h; exact ⟨_, rfl, rfl⟩
  | «to» c => cases h; exact ⟨_, rfl, rfl⟩
  | stop p c => cases p <;> first | (cases h; exact ⟨_, rfl, rfl⟩) | cases h
  | _ => cases h

theorem parse_marks : ∀ {ss : List WSeg} {ms : List Mark}, ss.mapM mark = some ms → ∃ ws, ss.mapM WStop.parse = some ws ∧ ws.map WStop.mark = ms
  | [], _, h => by cases h; exact ⟨[], rfl, rfl⟩
  | s :: ss, ms, h => by
    obtain ⟨b, bs, h1, h2, rfl⟩ := mapM_cons_some h
    obtain ⟨w, e1, rfl⟩ := parse_mark h1
    obtain ⟨ws, e2, rfl⟩ := parse_marks h2
    exact ⟨w :: ws, by simp [List.mapM_cons, e1, e2], rfl⟩

theorem print_marks : ∀ (ws : List WStop), (ws.map WStop.print).mapM mark = some (ws.map WStop.mark)
  | [] => rfl
  | w :: ws => by
    have := print_marks ws
    simp only [List.map_cons, List.mapM_cons, print_mark, this]; rfl

theorem parseWStops_ok {ss : List WSeg} {ms : List Mark} (hn : ss ≠ []) (h : ss.mapM mark = some ms) :
    ∃ ws, parseWStops ss = some ws ∧ ws.map WStop.mark = ms ∧ ws ≠ [] := by
  cases ss with
  | nil => exact absurd rfl hn
  | cons s ss =>
    obtain ⟨ws, h1, rfl⟩ := parse_marks h
    refine ⟨ws, h1, rfl, ?_⟩
    obtain ⟨_, _, _, _, rfl⟩ := mapM_cons_some h1
    simp

/-- What a gradient means. -/
noncomputable def Webkit.geometry (env : Env) : Webkit → Geometry
  | .linear a b ss => .linear (wx env a.x) (wy env a.y) (wx env b.x) (wy env b.y) (ss.map WStop.mark)
  | .radial a r0 b r1 ss => .radial (wx env a.x) (wy env a.y) r0 (wx env b.x) (wy env b.y) r1 (ss.map WStop.mark)

/-- The stops. -/
def Webkit.stops : Webkit → List WStop
  | .linear _ _ ss => ss
  | .radial _ _ _ _ ss => ss

theorem print_webkit (env : Env) (m : Bool) (w : Webkit) (h : w.stops ≠ []) : IsWebkit env (w.print m) (w.geometry env) := by
  cases w with
  | linear a b ss =>
    exact .linear (print_wx env m a.x) (print_wy env m a.y) (print_wx env m b.x) (print_wy env m b.y) (by simpa [Webkit.stops] using h) (print_marks ss)
  | radial a r0 b r1 ss =>
    exact .radial (print_wx env m a.x) (print_wy env m a.y) (print_wx env m b.x) (print_wy env m b.y) (by simpa [Webkit.stops] using h) (print_marks ss)

theorem parse_webkit {env : Env} {segs : List WSeg} {G : Geometry} (h : IsWebkit env segs G) :
    ∃ w, Webkit.parse segs = some w ∧ w.stops ≠ [] ∧ w.geometry env = G := by
  cases h with
  | linear h1 h2 h3 h4 h5 h6 =>
    obtain ⟨a, e1, rfl⟩ := parse_wx h1
    obtain ⟨b, e2, rfl⟩ := parse_wy h2
    obtain ⟨c, e3, rfl⟩ := parse_wx h3
    obtain ⟨d, e4, rfl⟩ := parse_wy h4
    obtain ⟨ws, e5, rfl, e6⟩ := parseWStops_ok h5 h6
    exact ⟨.linear ⟨a, b⟩ ⟨c, d⟩ ws, by simp [Webkit.parse, WPoint.parse, e1, e2, e3, e4, e5], e6, rfl⟩
  | radial h1 h2 h3 h4 h5 h6 =>
    obtain ⟨a, e1, rfl⟩ := parse_wx h1
    obtain ⟨b, e2, rfl⟩ := parse_wy h2
    obtain ⟨c, e3, rfl⟩ := parse_wx h3
    obtain ⟨d, e4, rfl⟩ := parse_wy h4
    obtain ⟨ws, e5, rfl, e6⟩ := parseWStops_ok h5 h6
    exact ⟨.radial ⟨a, b⟩ _ ⟨c, d⟩ _ ws, by simp [Webkit.parse, WPoint.parse, e1, e2, e3, e4, e5], e6, rfl⟩

/-- A `-webkit-gradient()` has one meaning. -/
theorem webkit_unique {env : Env} {segs : List WSeg} {G G' : Geometry} (h : IsWebkit env segs G) (h' : IsWebkit env segs G') : G = G' := by
  obtain ⟨w, e, _, rfl⟩ := parse_webkit h
  obtain ⟨w', e', _, rfl⟩ := parse_webkit h'
  rw [e] at e'; cases e'; rfl

theorem webkitColour_iff {M : Mixer} {env : Env} {segs : List WSeg} {G : Geometry} (h : IsWebkit env segs G) {x y : ℝ} {p : M.Paint} :
    WebkitColour M env segs x y p ↔ GeometryColour M G x y p :=
  ⟨fun ⟨G', h', hc⟩ => by rw [webkit_unique h h']; exact hc, fun hc => ⟨G, h, hc⟩⟩

/-- **C86.** A valid `-webkit-gradient()` is parsed, and printed, minified or not, as one with the same points, radii and colour stops, in every box; so the
colours are the same. -/
theorem C86_webkit (m : Bool) {env : Env} {segs : List WSeg} {G : Geometry} (h : IsWebkit env segs G) :
    ∃ w, Webkit.parse segs = some w ∧ IsWebkit env (w.print m) G ∧
      ∀ (M : Mixer) x y p, WebkitColour M env segs x y p ↔ WebkitColour M env (w.print m) x y p := by
  obtain ⟨w, h1, h2, rfl⟩ := parse_webkit h
  refine ⟨w, h1, print_webkit env m w h2, fun M x y p => ?_⟩
  rw [webkitColour_iff h, webkitColour_iff (print_webkit env m w h2)]

/-! ## Conversion of standard gradients -/

theorem convert_mid {env : Env} {len : ℝ} {n : Nat} : ∀ {is : List (Item LP)} {i : Nat} {ws : List WStop} {ss : List Stop}, convertStops n i is = some ws →
    attach none (is.map (Item.raw (lpVal env len))) = some ss → i ≠ 0 → i + is.length = n →
    ws.length = is.length ∧ (startAt len ss.reverse).reverse = ws.map fun w => ⟨none, w.color, some (w.position * len)⟩
  | [], _, ws, ss, h, ha, _, _ => by cases h; cases ha; exact ⟨rfl, rfl⟩
  | .hint _ :: _, _, _, _, h, _, _, _ => by cases h
  | .stop c (some (.dim _ _)) :: _, _, _, _, h, _, _, _ => by cases h
  | .stop c (some (.expr _)) :: _, _, _, _, h, _, _, _ => by cases h
  | .stop c (some (.pct p)) :: is, i, ws, ss, h, ha, hi, hn => by
    simp only [convertStops, Option.map_eq_some_iff] at h
    obtain ⟨ws, h, rfl⟩ := h
    obtain ⟨ss', ha', rfl⟩ := attach_tail ha
    obtain ⟨e1, e2⟩ := convert_mid h ha' (by omega) (by simp at hn; omega)
    refine ⟨by simp [e1], ?_⟩
    cases is with
    | nil =>
      cases ha'
      cases h
      rfl
    | cons j js =>
      have hne : ss' ≠ [] := by
        rintro rfl
        simp [startAt] at e2
        subst e2; simp at e1
      obtain ⟨mid, b, rfl⟩ := (List.eq_nil_or_concat ss').resolve_left hne
      rw [List.concat_eq_append] at *
      rw [show (⟨none, c, Option.map (lpVal env len) (some (LP.pct p))⟩ :: (mid ++ [b])).reverse = b :: (mid.reverse ++ [⟨none, c, some (p * len)⟩]) by
        simp [lpVal]]
      rw [show (mid ++ [b]).reverse = b :: mid.reverse by simp] at e2
      rw [startAt_cons] at e2 ⊢
      simp only [List.map_cons, ← e2]
      simp
  | .stop c none :: is, i, ws, ss, h, ha, hi, hn => by
    simp only [convertStops, hi, if_false] at h
    split at h
    · rename_i hl
      have : is = [] := by
        cases is with
        | nil => rfl
        | cons j js => simp at hn; omega
      subst this
      simp only [convertStops, Option.map_some, Option.some.injEq] at h
      subst h
      cases ha
      exact ⟨rfl, by simp [startAt]⟩
    · cases h

/-- The stops with their places. -/
theorem convert_ends {env : Env} {len : ℝ} {is : List (Item LP)} {ws : List WStop} {ss : List Stop} (h : toWStops is = some ws)
    (ha : attach none (is.map (Item.raw (lpVal env len))) = some ss) (hl : 2 ≤ ss.length) :
    ends len ss = ws.map fun w => ⟨none, w.color, some (w.position * len)⟩ := by
  unfold toWStops at h
  cases is with
  | nil => cases ha; simp at hl
  | cons i is =>
    have main : ∀ c p ws', convertStops (is.length + 1) 1 is = some ws' → i = .stop c p →
        ends len ss = ⟨none, c, some ((p.map (lpVal env len)).getD 0)⟩ :: ws'.map fun w => ⟨none, w.color, some (w.position * len)⟩ := by
      rintro c p ws' h' rfl
      obtain ⟨ss', ha', rfl⟩ := attach_tail ha
      obtain ⟨e1, e2⟩ := convert_mid h' ha' (by omega) (by omega)
      rw [← e2]
      have hne : ss' ≠ [] := by rintro rfl; simp at hl
      obtain ⟨mid, b, rfl⟩ := (List.eq_nil_or_concat ss').resolve_left hne
      rw [List.concat_eq_append] at *
      rw [ends_form]
      simp [startAt_cons, setPos]
    rcases i with ⟨c, _ | (_ | p | _)⟩ | d
    · simp only [List.length_cons, convertStops, if_true, Option.map_eq_some_iff] at h
      obtain ⟨ws, h, rfl⟩ := h
      rw [main c none ws h rfl]; simp
    · cases h
    · simp only [List.length_cons, convertStops, Option.map_eq_some_iff] at h
      obtain ⟨ws, h, rfl⟩ := h
      rw [main c (some (.pct p)) ws h rfl]; simp [lpVal]
    · cases h
    · cases h

/-- Places that are in order. -/
theorem resolved_all {len : ℝ} {ws : List WStop} {ss : List Stop} {ps : List Point}
    (h : ends len ss = ws.map fun w => ⟨none, w.color, some (w.position * len)⟩) (ho : (ws.map WStop.position).Pairwise (· ≤ ·)) (hl : 0 < len) :
    Resolved len ss ps ↔ ps = ws.map fun w => ⟨none, w.color, w.position * len⟩ := by
  have hm : monotone (ends len ss) = ends len ss := by
    rw [h]
    cases ws with
    | nil => rfl
    | cons w ws =>
      simp only [List.map_cons, monotone]
      rw [raise_id]
      · intro s hs; obtain ⟨w, _, rfl⟩ := List.mem_map.1 hs; rfl
      · rw [List.filterMap_map]
        have : ∀ l : List WStop, l.filterMap (Stop.pos ∘ fun w => ⟨none, w.color, some (w.position * len)⟩) = (l.map WStop.position).map (· * len) := by
          intro l; induction l with
          | nil => rfl
          | cons a l ih => simp
        rw [this]
        have := List.Pairwise.map (· * len) (fun a b (hab : a ≤ b) => mul_le_mul_of_nonneg_right hab hl.le) ho
        simpa using this
  unfold Resolved
  rw [hm, h]
  constructor
  · rintro ⟨hf, -⟩
    clear h hm ho
    induction ws generalizing ps with
    | nil => cases hf; rfl
    | cons w ws ih =>
      rcases hf with _ | ⟨h1, h2⟩
      rename_i x xs
      rw [List.map_cons, ← ih h2]
      obtain ⟨xh, xc, xp⟩ := x
      obtain ⟨i1, i2, i3⟩ := h1
      simp only at i1 i2 i3
      rw [i3 _ rfl, ← i1, ← i2]
  · rintro rfl
    refine ⟨?_, ?_⟩
    · rw [List.forall₂_map_left_iff, List.forall₂_map_right_iff]
      exact List.forall₂_same.2 fun w _ => ⟨rfl, rfl, fun v hv => by simpa using hv⟩
    · intro a b c hi hb
      exfalso
      have : b ∈ (ws.map fun w => (⟨none, w.color, some (w.position * len)⟩ : Stop)).zip (ws.map fun w => (⟨none, w.color, w.position * len⟩ : Point)) :=
        hi.subset (by simp)
      have := (List.of_mem_zip this).1
      obtain ⟨w, _, hw⟩ := List.mem_map.1 this
      rw [← hw] at hb; cases hb

theorem paints_scale {M : Mixer} {ws : List WStop} {len t : ℝ} {p : M.Paint} (hl : 0 < len) :
    Paints M (ws.map fun w => ⟨none, w.color, w.position * len⟩) t p ↔ Paints M ((ws.map WStop.mark).map Mark.point) (t / len) p := by
  have hw : ∀ a b : ℝ, weight none (a * len) (b * len) t = weight none a b (t / len) := by
    intro a b
    simp only [weight]
    rw [show t - a * len = (t / len - a) * len by field_simp, show b * len - a * len = (b - a) * len by ring, mul_div_mul_right _ _ hl.ne']
  constructor
  · intro h
    cases h with
    | before h1 h2 =>
      rw [List.head?_map, Option.map_eq_some_iff] at h1
      obtain ⟨w, h1, rfl⟩ := h1
      exact .before (a := w.mark.point) (by simp [h1]) ((div_lt_iff₀ hl).2 h2)
    | after h1 h2 =>
      rw [List.getLast?_map, Option.map_eq_some_iff] at h1
      obtain ⟨w, h1, rfl⟩ := h1
      exact .after (a := w.mark.point) (by simp [h1]) ((lt_div_iff₀ hl).2 h2)
    | between h1 h2 h3 =>
      obtain ⟨l, hl', h1⟩ := List.infix_map_iff.1 h1
      match l, h1 with
      | [v, w], h1 =>
        simp only [List.map_cons, List.map_nil, List.cons.injEq, and_true] at h1
        obtain ⟨rfl, rfl⟩ := h1
        rw [hw]
        refine .between (a := v.mark.point) (b := w.mark.point) ?_ ((lt_div_iff₀ hl).2 h2) ((div_lt_iff₀ hl).2 h3)
        rw [List.map_map]; exact hl'.map (Mark.point ∘ WStop.mark)
  · intro h
    rw [List.map_map] at h
    cases h with
    | before h1 h2 =>
      rw [List.head?_map, Option.map_eq_some_iff] at h1
      obtain ⟨w, h1, rfl⟩ := h1
      exact .before (a := ⟨none, w.color, w.position * len⟩) (by simp [h1]) ((div_lt_iff₀ hl).1 h2)
    | after h1 h2 =>
      rw [List.getLast?_map, Option.map_eq_some_iff] at h1
      obtain ⟨w, h1, rfl⟩ := h1
      exact .after (a := ⟨none, w.color, w.position * len⟩) (by simp [h1]) ((lt_div_iff₀ hl).1 h2)
    | between h1 h2 h3 =>
      obtain ⟨l, hl', h1⟩ := List.infix_map_iff.1 h1
      match l, h1 with
      | [v, w], h1 =>
        simp only [List.map_cons, List.map_nil, List.cons.injEq, and_true] at h1
        obtain ⟨rfl, rfl⟩ := h1
        have := hw v.position w.position
        simp only [Function.comp, Mark.point, WStop.mark] at h2 h3 ⊢
        rw [← this]
        exact .between (a := ⟨none, v.color, v.position * len⟩) (b := ⟨none, w.color, w.position * len⟩) (hl'.map fun w : WStop => (⟨none, w.color, w.position * len⟩ : Point)) ((lt_div_iff₀ hl).1 h2) ((div_lt_iff₀ hl).1 h3)

theorem sort_id {ws : List WStop} (ho : (ws.map WStop.position).Pairwise (· ≤ ·)) : sortMarks (ws.map WStop.mark) = ws.map WStop.mark := by
  unfold sortMarks
  refine List.mergeSort_of_pairwise ?_
  rw [List.pairwise_map] at ho ⊢
  exact ho.imp fun h => by simp [WStop.mark, h]

/-- The colours on the two lines. -/
theorem stops_agree {M : Mixer} {env : Env} {len t : ℝ} {is : List (Item LP)} {ws : List WStop} {ss : List Stop} {p : M.Paint} (hl : 0 < len)
    (h : toWStops is = some ws) (ha : attach none (is.map (Item.raw (lpVal env len))) = some ss) (h2 : 2 ≤ ss.length)
    (ho : (ws.map WStop.position).Pairwise (· ≤ ·)) :
    Colour M false len ss t p ↔ Paints M ((sortMarks (ws.map WStop.mark)).map Mark.point) (t / len) p := by
  rw [sort_id ho, ← paints_scale hl]
  unfold Colour
  have hr := fun ps => resolved_all (ps := ps) (convert_ends h ha h2) ho hl
  constructor
  · rintro ⟨ps, h1, h2⟩; rw [hr] at h1; subst h1; simpa using h2
  · intro h; exact ⟨_, (hr _).2 rfl, by simpa using h⟩

/-- In order, the stops of the standard gradient give stops in order. -/
theorem order_of {env : Env} {len : ℝ} {is : List (Item LP)} {ws : List WStop} {ss : List Stop} (hl : 0 < len)
    (h : toWStops is = some ws) (ha : attach none (is.map (Item.raw (lpVal env len))) = some ss) (h2 : 2 ≤ ss.length)
    (ho : ((ends len ss).filterMap Stop.pos).Pairwise (· ≤ ·)) : (ws.map WStop.position).Pairwise (· ≤ ·) := by
  rw [convert_ends h ha h2, List.filterMap_map] at ho
  have : ∀ l : List WStop, l.filterMap (Stop.pos ∘ fun w => ⟨none, w.color, some (w.position * len)⟩) = l.map (fun w => w.position * len) := by
    intro l; induction l with
    | nil => rfl
    | cons a l ih => simp
  rw [this, List.pairwise_map] at ho
  rw [List.pairwise_map]
  exact ho.imp fun h => le_of_mul_le_mul_right h hl

theorem stops_ne {env : Env} {len : ℝ} {is : List (Item LP)} {ws : List WStop} {ss : List Stop}
    (h : toWStops is = some ws) (ha : attach none (is.map (Item.raw (lpVal env len))) = some ss) (h2 : 2 ≤ ss.length) : ws ≠ [] := by
  rintro rfl
  have := convert_ends h ha h2
  obtain ⟨a, mid, b, rfl⟩ := two_form h2
  rw [ends_form] at this; cases this

/-- The way along the line. -/
noncomputable def along (x0 y0 x1 y1 x y : ℝ) : ℝ := ((x - x0) * (x1 - x0) + (y - y0) * (y1 - y0)) / ((x1 - x0) ^ 2 + (y1 - y0) ^ 2)

theorem points_ok {env : Env} (hw : 0 < env.width) (hh : 0 < env.height) {D : Dir} {p : (ℝ × ℝ) × (ℝ × ℝ)} (h : D.points = some p)
    (hc : (∀ a b, D ≠ .corner a b) ∨ env.width = env.height) (x y : ℝ) :
    0 < lineLength env (dirVec env D) ∧
    (p.2.1 * env.width - p.1.1 * env.width) ^ 2 + (p.2.2 * env.height - p.1.2 * env.height) ^ 2 ≠ 0 ∧
    along (p.1.1 * env.width) (p.1.2 * env.height) (p.2.1 * env.width) (p.2.2 * env.height) x y = place env (dirVec env D) x y / lineLength env (dirVec env D) := by
  have hw' := hw.ne'
  have hh' := hh.ne'
  have key : ∀ v : Vec, (p = ((1, 0), (0, 0)) ∧ v = ⟨-1, 0⟩) ∨ (p = ((0, 0), (1, 0)) ∧ v = ⟨1, 0⟩) ∨ (p = ((0, 1), (0, 0)) ∧ v = ⟨0, -1⟩) ∨
      (p = ((0, 0), (0, 1)) ∧ v = ⟨0, 1⟩) → 0 < lineLength env v ∧
      (p.2.1 * env.width - p.1.1 * env.width) ^ 2 + (p.2.2 * env.height - p.1.2 * env.height) ^ 2 ≠ 0 ∧
      along (p.1.1 * env.width) (p.1.2 * env.height) (p.2.1 * env.width) (p.2.2 * env.height) x y = place env v x y / lineLength env v := by
    rintro v (⟨rfl, rfl⟩ | ⟨rfl, rfl⟩ | ⟨rfl, rfl⟩ | ⟨rfl, rfl⟩) <;>
      simp only [lineLength, place, along, mul_zero, mul_one, mul_neg, abs_zero, abs_neg, abs_of_pos hw, abs_of_pos hh, zero_mul, one_mul, add_zero, zero_add] <;>
      refine ⟨by assumption, by simp [hw', hh'], by field_simp; ring⟩
  have corner : ∀ sx sy : ℝ, (p = ((1, 1), (0, 0)) ∧ sx = -1 ∧ sy = -1) ∨ (p = ((1, 0), (0, 1)) ∧ sx = -1 ∧ sy = 1) ∨
      (p = ((0, 1), (1, 0)) ∧ sx = 1 ∧ sy = -1) ∨ (p = ((0, 0), (1, 1)) ∧ sx = 1 ∧ sy = 1) → env.width = env.height → 0 < lineLength env (cornerVec env sx sy) ∧
      (p.2.1 * env.width - p.1.1 * env.width) ^ 2 + (p.2.2 * env.height - p.1.2 * env.height) ^ 2 ≠ 0 ∧
      along (p.1.1 * env.width) (p.1.2 * env.height) (p.2.1 * env.width) (p.2.2 * env.height) x y = place env (cornerVec env sx sy) x y / lineLength env (cornerVec env sx sy) := by
    intro sx sy hs e
    have hsq : 0 < Real.sqrt (env.height ^ 2 + env.height ^ 2) := Real.sqrt_pos.2 (by positivity)
    have hsq' := hsq.ne'
    have hlen : ∀ a b : ℝ, (a = 1 ∨ a = -1) → (b = 1 ∨ b = -1) →
        |env.height * (a * env.height / Real.sqrt (env.height ^ 2 + env.height ^ 2))| + |env.height * (b * env.height / Real.sqrt (env.height ^ 2 + env.height ^ 2))|
          = 2 * env.height ^ 2 / Real.sqrt (env.height ^ 2 + env.height ^ 2) := by
      have h1 : 0 ≤ env.height * (1 * env.height / Real.sqrt (env.height ^ 2 + env.height ^ 2)) := by positivity
      have h2 : env.height * (-1 * env.height / Real.sqrt (env.height ^ 2 + env.height ^ 2)) ≤ 0 := by
        have : env.height * (-1 * env.height / Real.sqrt (env.height ^ 2 + env.height ^ 2)) = -(env.height * (1 * env.height / Real.sqrt (env.height ^ 2 + env.height ^ 2))) := by ring
        linarith
      rintro a b (rfl | rfl) (rfl | rfl) <;> simp only [abs_of_nonneg h1, abs_of_nonpos h2] <;> ring
    rcases hs with ⟨rfl, rfl, rfl⟩ | ⟨rfl, rfl, rfl⟩ | ⟨rfl, rfl, rfl⟩ | ⟨rfl, rfl, rfl⟩ <;>
      simp only [lineLength, place, along, cornerVec, e] <;>
      rw [hlen _ _ (by simp) (by simp)] <;>
      refine ⟨by positivity, by ring_nf; simp [hh'], by field_simp; ring⟩
  rcases D with a | s | v | ⟨s, v⟩
  · have hv : dirVec env (.angle a) = vecOf (toDegrees a / 360 * (2 * Real.pi)) := by rw [← toDegrees_radians]; rfl
    rw [hv]
    unfold Dir.points at h
    simp only at h
    split at h
    · rename_i e; cases h; rw [e, vec_0]; exact key _ (by simp)
    split at h
    · rename_i e; cases h; rw [e, vec_90]; exact key _ (by simp)
    split at h
    · rename_i e; cases h; rw [e, vec_180]; exact key _ (by simp)
    split at h
    · rename_i e; cases h; rw [e, vec_270]; exact key _ (by simp)
    · cases h
  · cases s <;> cases h <;> exact key _ (by simp [dirVec])
  · cases v <;> cases h <;> exact key _ (by simp [dirVec])
  · have e := hc.resolve_left (fun h => h s v rfl)
    cases s <;> cases v <;> cases h <;> simp only [dirVec] <;> exact corner _ _ (by simp) e

/-- **C87 (partial).** If a standard linear gradient is converted to a `-webkit-gradient()` for old browsers, the result has the same colour at every point of
every box. Not covered: positions out of order; and corners, unless the box is a square. `C87_corner` shows that these go wrong. -/
theorem C87_linear_partial (m : Bool) {env : Env} {segs : List Seg} {d : Vec} {ss : List Stop} {g : Linear} {w : Webkit}
    (hw : 0 < env.width) (hh : 0 < env.height) (h : IsLinear env segs d ss) (hg : parseLinear false segs = some g) (hc : g.toWebkit = some w)
    (ho : ((ends (lineLength env d) ss).filterMap Stop.pos).Pairwise (· ≤ ·))
    (hd : (∀ t u, segs.head? ≠ some [.to, t, u]) ∨ env.width = env.height) :
    ∀ (M : Mixer) x y p, LinearColour M env false segs x y p ↔ WebkitColour M env (w.print m) x y p := by
  obtain ⟨g', e1, -, e3, e4, e5, e6⟩ := parse_linear h
  rw [hg] at e1; cases e1
  simp only [Linear.toWebkit, Option.bind_eq_bind, Option.bind_eq_some_iff, Option.some.injEq] at hc
  obtain ⟨q, hq, ws, hws, rfl⟩ := hc
  have hcorner : (∀ a b, g.direction ≠ .corner a b) ∨ env.width = env.height := by
    rcases hd with hd | hd
    · refine .inl fun a b hab => ?_
      cases h with
      | default h2 =>
        obtain ⟨c, s, r, rfl⟩ := stops_head h2
        simp [parseLinear, parseDir, angTok] at hg
        obtain ⟨_, _, rfl⟩ := hg; cases hab
      | @dir s segs _ _ h1 h2 =>
        have hd' : ∀ D, parseDir false s = some (D, []) → g.direction = D := by
          intro D hD
          simp [parseLinear, hD] at hg
          obtain ⟨_, _, rfl⟩ := hg; rfl
        cases h1 with
        | angle h' =>
          obtain ⟨l, h1, rfl⟩ := Transform.ang_parse h'
          have := hd' (.angle l) (by simp [parseDir, angTok, h1])
          rw [this] at hab; cases hab
        | left => rw [hd' _ rfl] at hab; cases hab
        | right => rw [hd' _ rfl] at hab; cases hab
        | top => rw [hd' _ rfl] at hab; cases hab
        | bottom => rw [hd' _ rfl] at hab; cases hab
        | _ => exact hd _ _ rfl
    · exact .inr hd
  subst e3
  have hb := fun x y => points_ok hw hh hq hcorner x y
  have hl := (hb 0 0).1
  have hor := order_of hl hws e4 e5 ho
  have hp : IsWebkit env (Webkit.print m (.linear (pctPoint q.1) (pctPoint q.2) ws))
      (.linear (q.1.1 * env.width) (q.1.2 * env.height) (q.2.1 * env.width) (q.2.2 * env.height) (ws.map WStop.mark)) :=
    print_webkit env m _ (stops_ne hws e4 e5)
  intro M x y p
  obtain ⟨-, h1, h2⟩ := hb x y
  rw [linearColour_iff h, webkitColour_iff hp, stops_agree hl hws e4 e5 hor, ← h2]
  constructor
  · intro hc; exact .linear h1 hc
  · rintro (⟨_, hc⟩ | _); exact hc

/-! ### Circles -/

theorem comp_x {env : Env} {c : Comp HSide} {w : WComp HSide} (h : WComp.fromPosition c = some w) : wx env w = compX env c := by
  rcases c with _ | (⟨v, u⟩ | p | i) | ⟨s, _ | o⟩
  · cases h; rfl
  · simp only [WComp.fromPosition, Option.map_eq_some_iff] at h
    obtain ⟨r, h, rfl⟩ := h
    exact Transform.toPx_eq h
  · cases h; rfl
  · cases h
  · cases h; cases s <;> rfl
  · cases h

theorem comp_y {env : Env} {c : Comp VSide} {w : WComp VSide} (h : WComp.fromPosition c = some w) : wy env w = compY env c := by
  rcases c with _ | (⟨v, u⟩ | p | i) | ⟨s, _ | o⟩
  · cases h; rfl
  · simp only [WComp.fromPosition, Option.map_eq_some_iff] at h
    obtain ⟨r, h, rfl⟩ := h
    exact Transform.toPx_eq h
  · cases h; rfl
  · cases h
  · cases h; cases s <;> rfl
  · cases h

/-- A valid radial gradient is parsed with its meaning. -/
theorem parse_radial {env : Env} {segs stops : List Seg} {e : Ending} {x y len : ℝ} {ss : List Stop}
    (h : IsRadial env segs e x y stops) (hs : IsStops (lengthPct env len) stops ss) :
    ∃ g, parseRadial segs = some g ∧ shapeVal env g.shape = e ∧ compX env g.position.x = x ∧ compY env g.position.y = y ∧
      attach none (g.items.map (Item.raw (lpVal env len))) = some ss ∧ 2 ≤ ss.length := by
  obtain ⟨is, e1, e2⟩ := parseItems_ok (lp_parses env len) hs
  have h2 : 2 ≤ ss.length := by obtain ⟨_, _, _, h3, h4⟩ := hs; exact h3
  suffices hg : ∃ S p, parseRadial segs = some ⟨S, p, is⟩ ∧ shapeVal env S = e ∧ compX env p.x = x ∧ compY env p.y = y by
    obtain ⟨S, p, h1, rfl, rfl, rfl⟩ := hg
    exact ⟨_, h1, rfl, rfl, rfl, e2, h2⟩
  cases h with
  | absent =>
    obtain ⟨c, s, r, rfl⟩ := stops_head hs
    refine ⟨.ellipse .farthestCorner, .centered, ?_, rfl, rfl, rfl⟩
    simp [parseRadial, parseShape, parseEllipse, parseCircle, lpTok, lenTok, parseAt, e1]
  | @given s u _ _ _ _ hne hsh hat =>
    have hr := at_rest hat
    cases hsh with
    | some hsh =>
      obtain ⟨S, f1, f2⟩ := parse_shape hsh
      rcases parse_at hat with ⟨p, g1, g2, g3⟩ | ⟨rfl, rfl, rfl⟩
      · exact ⟨S, p, by simp [parseRadial, f1 u hr, g1, e1], f2, g2, g3⟩
      · exact ⟨S, .centered, by simp [parseRadial, by simpa using f1 [] hr, parseAt, e1], f2, rfl, rfl⟩
    | none =>
      rcases hr with rfl | ⟨ts, rfl⟩
      · exact absurd rfl hne
      · rcases parse_at hat with ⟨p, g1, g2, g3⟩ | ⟨h, _⟩
        · exact ⟨.ellipse .farthestCorner, p, by simp [parseRadial, parseShape, parseEllipse, parseCircle, lpTok, lenTok, g1, e1], rfl, g2, g3⟩
        · cases h

theorem circleColour_iff {M : Mixer} {env : Env} {rep : Bool} {segs stops : List Seg} {r x0 y0 : ℝ} {ss : List Stop}
    (h : IsRadial env segs (.circle r) x0 y0 stops) (hs : IsStops (lengthPct env r) stops ss) {x y : ℝ} {p : M.Paint} :
    CircleColour M env rep segs x y p ↔ Colour M rep r ss (Real.sqrt ((x - x0) ^ 2 + (y - y0) ^ 2)) p := by
  refine ⟨?_, fun hc => ⟨r, x0, y0, stops, ss, h, hs, hc⟩⟩
  rintro ⟨r', x', y', stops', ss', h', hs', hc⟩
  obtain ⟨g, e1, e2, rfl, rfl, e5, -⟩ := parse_radial h hs
  obtain ⟨g', f1, f2, rfl, rfl, f5, -⟩ := parse_radial h' hs'
  rw [e1] at f1; cases f1
  rw [e2] at f2; cases f2
  rw [e5] at f5; cases f5
  exact hc

/-- **C87 (partial).** If a standard radial gradient is converted to a `-webkit-gradient()`, it is a circle, and the result has the same colour
at every point. Not covered: positions out of order. -/
theorem C87_radial_partial (m : Bool) {env : Env} {segs stops : List Seg} {e : Ending} {x0 y0 r : ℝ} {ss : List Stop} {g : Radial} {w : Webkit}
    (h : IsRadial env segs e x0 y0 stops) (hs : IsStops (lengthPct env r) stops ss) (hg : parseRadial segs = some g) (hc : g.toWebkit = some w)
    (he : ∀ r', e = .circle r' → r = r') (hr : 0 < r)
    (ho : ((ends r ss).filterMap Stop.pos).Pairwise (· ≤ ·)) :
    e = .circle r ∧ ∀ (M : Mixer) x y p, CircleColour M env false segs x y p ↔ WebkitColour M env (w.print m) x y p := by
  obtain ⟨g', e1, e2, e3, e4, e5, e6⟩ := parse_radial h hs
  rw [hg] at e1; cases e1
  obtain ⟨S, P, is⟩ := g
  cases S with
  | radius l =>
    simp only [Radial.toWebkit, Option.bind_eq_bind, Option.bind_eq_some_iff, Option.some.injEq] at hc
    obtain ⟨q, hq, cx, hcx, cy, hcy, ws, hws, rfl⟩ := hc
    have hl : lenVal env l = q := by
      cases l with
      | val v u => exact (Transform.toPx_eq hq).symm
      | expr i => cases hq
    simp only [shapeVal] at e2
    have hrq := he _ e2.symm
    rw [hl] at hrq e2
    subst hrq
    refine ⟨e2.symm, fun M x y p => ?_⟩
    rw [← e2] at h
    have hp : IsWebkit env (Webkit.print m (.radial ⟨cx, cy⟩ 0 ⟨cx, cy⟩ r ws)) (.radial x0 y0 0 x0 y0 r (ws.map WStop.mark)) := by
      have := print_webkit env m (.radial ⟨cx, cy⟩ 0 ⟨cx, cy⟩ r ws) (stops_ne hws e5 e6)
      simp only [Webkit.geometry, comp_x hcx, comp_y hcy, e3, e4] at this
      exact this
    rw [circleColour_iff h hs, webkitColour_iff hp, stops_agree hr hws e5 e6 (order_of hr hws e5 e6 ho)]
    constructor
    · intro hc; exact .radial hr (by simpa using hc)
    · rintro (_ | ⟨_, hc⟩); simpa using hc
  | _ => simp [Radial.toWebkit] at hc

end Verif.Gradient
