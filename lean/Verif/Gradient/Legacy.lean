import Verif.Gradient.LinearBugs
/-! Properties of prefixed linear gradients. -/
namespace Verif.Gradient
open Transform (Env lengthPct Arg LP Ang lpVal parseLP radians angle)
open Position (HSide VSide)

/-- The direction of a prefixed gradient as a vector. -/
noncomputable def legacyVec (env : Env) : Dir → Vec
  | .angle a => vecOf (Real.pi / 2 - radians a)
  | .horizontal .left => ⟨1, 0⟩
  | .horizontal .right => ⟨-1, 0⟩
  | .vertical .top => ⟨0, 1⟩
  | .vertical .bottom => ⟨0, -1⟩
  | .corner .left .top => cornerVec env 1 1
  | .corner .left .bottom => cornerVec env 1 (-1)
  | .corner .right .top => cornerVec env (-1) 1
  | .corner .right .bottom => cornerVec env (-1) (-1)

/-- The directions that are printed for a prefixed gradient, with the right syntax. -/
def Safe (m : Bool) (d : Dir) : Prop :=
  d.degrees ≠ 180 ∧ (m = true → d.degrees ≠ 0 ∧ (∀ h, d ≠ .horizontal h) ∧ ∀ v, d ≠ .vertical v)

theorem print_legacyDir {env : Env} {m : Bool} {d : Dir} (h : Safe m d) : IsLegacyDir env (d.print m true) (legacyVec env d) := by
  rcases d with a | h' | v | ⟨h', v⟩
  · exact .angle Transform.radians_print
  · cases m
    · cases h'
      · exact .left
      · exact .right
    · exact absurd rfl ((h.2 rfl).2.1 h')
  · cases m
    · cases v
      · exact .top
      · exact .bottom
    · exact absurd rfl ((h.2 rfl).2.2 v)
  · cases h' <;> cases v
    · exact .topLeft
    · exact .bottomLeft
    · exact .topRight
    · exact .bottomRight

theorem parse_legacyDir {env : Env} {s : Seg} {d : Vec} (h : IsLegacyDir env s d) :
    ∃ D, parseDir true s = some (D, []) ∧ legacyVec env D = d := by
  cases h with
  | angle h =>
    obtain ⟨l, h1, rfl⟩ := Transform.ang_parse h
    exact ⟨.angle l, by simp [parseDir, angTok, h1], rfl⟩
  | left => exact ⟨.horizontal .left, rfl, rfl⟩
  | right => exact ⟨.horizontal .right, rfl, rfl⟩
  | top => exact ⟨.vertical .top, rfl, rfl⟩
  | bottom => exact ⟨.vertical .bottom, rfl, rfl⟩
  | topLeft => exact ⟨.corner .left .top, rfl, rfl⟩
  | leftTop => exact ⟨.corner .left .top, rfl, rfl⟩
  | topRight => exact ⟨.corner .right .top, rfl, rfl⟩
  | rightTop => exact ⟨.corner .right .top, rfl, rfl⟩
  | bottomLeft => exact ⟨.corner .left .bottom, rfl, rfl⟩
  | leftBottom => exact ⟨.corner .left .bottom, rfl, rfl⟩
  | bottomRight => exact ⟨.corner .right .bottom, rfl, rfl⟩
  | rightBottom => exact ⟨.corner .right .bottom, rfl, rfl⟩

/-- A valid prefixed gradient is parsed; without a direction, the parser says `bottom`. -/
theorem parse_legacy {env : Env} {segs : List Seg} {d : Vec} {ss : List Stop} (h : IsLegacy env segs d ss) :
    ∃ g, parseLinear true segs = some g ∧ g.prefixed = true ∧
      ((∃ s r, segs = s :: r ∧ IsLegacyDir env s d ∧ parseDir true s = some (g.direction, []) ∧ legacyVec env g.direction = d) ∨
        ((∃ c s r, segs = (.color c :: s) :: r) ∧ g.direction = .vertical .bottom ∧ d = ⟨0, 1⟩)) ∧
      attach none (g.items.map (Item.raw (lpVal env (lineLength env d)))) = some ss ∧ 2 ≤ ss.length ∧ (∀ s, ss.head? = some s → s.hint = none) := by
  cases h with
  | dir h1 h2 =>
    obtain ⟨D, e1, rfl⟩ := parse_legacyDir h1
    obtain ⟨is, e2, e3⟩ := parseItems_ok (lp_parses env _) h2
    obtain ⟨_, _, _, h3, h4⟩ := h2
    exact ⟨⟨true, D, is⟩, by simp [parseLinear, e1, e2], rfl, .inl ⟨_, _, rfl, h1, e1, rfl⟩, e3, h3, h4⟩
  | default h2 =>
    obtain ⟨is, e2, e3⟩ := parseItems_ok (lp_parses env _) h2
    obtain ⟨c, s, r, rfl⟩ := stops_head h2
    obtain ⟨_, _, _, h3, h4⟩ := h2
    exact ⟨⟨true, .vertical .bottom, is⟩, by simp [parseLinear, parseDir, angTok, dirKeywords, hTok, vTok, e2], rfl, .inr ⟨⟨c, s, r, rfl⟩, rfl, rfl⟩, e3, h3, h4⟩

/-- A prefixed gradient has one meaning. -/
theorem legacy_unique {env : Env} {segs : List Seg} {d d' : Vec} {ss ss' : List Stop} (h : IsLegacy env segs d ss) (h' : IsLegacy env segs d' ss') :
    d = d' ∧ ss = ss' := by
  obtain ⟨g, e1, -, e3, e2, -⟩ := parse_legacy h
  obtain ⟨g', e1', -, e3', e2', -⟩ := parse_legacy h'
  rw [e1] at e1'; cases e1'
  have : d = d' := by
    rcases e3 with ⟨s, r, e, -, e3, rfl⟩ | ⟨⟨c, s, r, e⟩, e3, rfl⟩ <;> rcases e3' with ⟨s', r', e', -, e3', rfl⟩ | ⟨⟨c', s', r', e'⟩, e3', rfl⟩
    · rfl
    · rw [e] at e'; cases e'; simp [parseDir, angTok, dirKeywords, hTok, vTok] at e3
    · rw [e] at e'; cases e'; simp [parseDir, angTok, dirKeywords, hTok, vTok] at e3'
    · rfl
  subst this
  exact ⟨rfl, by rw [e2] at e2'; exact Option.some.inj e2'⟩

theorem legacyColour_iff {M : Mixer} {env : Env} {rep : Bool} {segs : List Seg} {d : Vec} {ss : List Stop} (h : IsLegacy env segs d ss) {x y : ℝ}
    {m : M.Paint} : LegacyColour M env rep segs x y m ↔ Colour M rep (lineLength env d) ss (place env d x y) m := by
  refine ⟨?_, fun hc => ⟨d, ss, h, hc⟩⟩
  rintro ⟨d', ss', h', hc⟩
  obtain ⟨rfl, rfl⟩ := legacy_unique h h'
  exact hc

theorem print_safe {m dp : Bool} {g : Linear} (h : Safe m g.direction) (hp : g.prefixed = true) :
    g.print m dp = g.direction.print m true :: printItems lpOps dp g.items := by
  unfold Linear.print
  rw [if_neg h.1, if_neg (fun h' => (h.2 h'.2.1).1 h'.1), if_neg (fun h' => h.1 (isBottom_180 h')), hp]

/-- What is printed for a prefixed gradient. -/
theorem print_legacy {env : Env} {m : Bool} (dp : Bool) {g : Linear} {ss : List Stop} (hg : g.prefixed = true) (hs : Safe m g.direction)
    (ha : attach none (g.items.map (Item.raw (lpVal env (lineLength env (legacyVec env g.direction))))) = some ss)
    (hl : 2 ≤ ss.length) (hh : ∀ s, ss.head? = some s → s.hint = none)
    (hu : ∀ i ∈ g.items, useless lpOps i = false) : IsLegacy env (g.print m dp) (legacyVec env g.direction) ss := by
  rw [print_safe hs hg]
  exact .dir (print_legacyDir hs) (printItems_ok (lp_prints env _) dp hu ha hl hh)

theorem toDegrees_of {a : Ang} {k : ℝ} (h : toDegrees a = k) : radians a = k / 360 * (2 * Real.pi) := by rw [toDegrees_radians, h]

theorem safe_corner (m : Bool) (h : HSide) (v : VSide) : Safe m (.corner h v) :=
  ⟨by simp [Dir.degrees]; norm_num, fun _ => ⟨by simp [Dir.degrees], (fun _ h => nomatch h), (fun _ h => nomatch h)⟩⟩

theorem safe_dir {env : Env} {m : Bool} {s : Seg} {r : List Seg} {d : Vec} {D : Dir} (h : IsLegacyDir env s d) (e : parseDir true s = some (D, []))
    (hb : (s :: r).head? ≠ some [.pos (.kw .bottom)])
    (ha : ∀ a, (s :: r).head? = some [.pos (.arg a)] → angle a ≠ some Real.pi ∧ (m = true → angle a ≠ some 0))
    (hm : m = true → (s :: r).head? ≠ some [.pos (.kw .top)] ∧ (s :: r).head? ≠ some [.pos (.kw .left)] ∧ (s :: r).head? ≠ some [.pos (.kw .right)]) :
    Safe m D := by
  have corner : ∀ h v, some (Dir.corner h v, ([] : Seg)) = some (D, []) → Safe m D := by
    intro h v e; cases e; exact safe_corner m h v
  cases h with
  | angle h' =>
    obtain ⟨l, h1, rfl⟩ := Transform.ang_parse h'
    simp [parseDir, angTok, h1] at e
    subst e
    obtain ⟨h2, h3⟩ := ha _ rfl
    rw [h'] at h2 h3
    refine ⟨fun hd => ?_, fun h => ⟨fun hd => ?_, (fun _ h => nomatch h), (fun _ h => nomatch h)⟩⟩
    · exact h2 (by rw [toDegrees_of (a := l) (k := 180) hd]; congr 1; ring)
    · exact h3 h (by rw [toDegrees_of (a := l) (k := 0) hd]; simp)
  | left =>
    have e : some (Dir.horizontal .left, ([] : Seg)) = some (D, []) := e
    cases e
    exact ⟨by simp [Dir.degrees]; norm_num, fun h => absurd rfl (hm h).2.1⟩
  | right =>
    have e : some (Dir.horizontal .right, ([] : Seg)) = some (D, []) := e
    cases e
    exact ⟨by simp [Dir.degrees]; norm_num, fun h => absurd rfl (hm h).2.2⟩
  | top =>
    have e : some (Dir.vertical .top, ([] : Seg)) = some (D, []) := e
    cases e
    exact ⟨by simp [Dir.degrees], fun h => absurd rfl (hm h).1⟩
  | bottom => exact absurd rfl hb
  | _ => exact corner _ _ e

/-- **C83 (partial).** A valid prefixed linear gradient such as `-webkit-linear-gradient(top left, red, blue)` is printed as one that has the same colour
at every point. Not covered: the hint `50%`; the direction `bottom`; angles of 180 degrees; and with minification the directions
`top`, `left` and `right` and angles of 0 degrees. `C83_bottom`, `C83_minified_sides`, `C83_180` and `C83_0` show that these go wrong. -/
theorem C83_prefixed_partial (m dp : Bool) {env : Env} {segs : List Seg} {d : Vec} {ss : List Stop} (h : IsLegacy env segs d ss)
    (hn : [Tok.pos (.arg (.pct (1 / 2)))] ∉ segs)
    (hb : segs.head? ≠ some [.pos (.kw .bottom)])
    (ha : ∀ a, segs.head? = some [.pos (.arg a)] → angle a ≠ some Real.pi ∧ (m = true → angle a ≠ some 0))
    (hm : m = true → segs.head? ≠ some [.pos (.kw .top)] ∧ segs.head? ≠ some [.pos (.kw .left)] ∧ segs.head? ≠ some [.pos (.kw .right)]) :
    ∃ g, parseLinear true segs = some g ∧ IsLegacy env (g.print m dp) d ss ∧
      ∀ (M : Mixer) rep x y p, LegacyColour M env rep segs x y p ↔ LegacyColour M env rep (g.print m dp) x y p := by
  obtain ⟨g, e1, e2, e3, e4, e5, e6⟩ := parse_legacy h
  have hu := parseLinear_half e1 hn
  suffices hs : IsLegacy env (g.print m dp) d ss by
    exact ⟨g, e1, hs, fun M rep x y p => by rw [legacyColour_iff h, legacyColour_iff hs]⟩
  rcases e3 with ⟨s, r, rfl, hd, e3, rfl⟩ | ⟨-, e3, rfl⟩
  · refine print_legacy dp e2 ?_ e4 e5 e6 hu
    exact safe_dir hd e3 hb ha hm
  · have : g.print m dp = printItems lpOps dp g.items := by
      unfold Linear.print; rw [if_pos (by rw [e3]; rfl)]
    rw [this]
    exact .default (printItems_ok (lp_prints env _) dp hu e4 e5 e6)

/-! ## Prefixing a standard gradient -/

theorem vecOf_turns (a : ℝ) (k : ℤ) : vecOf (a + k * (2 * Real.pi)) = vecOf a := by
  simp [vecOf, Real.sin_add_int_mul_two_pi, Real.cos_add_int_mul_two_pi]

/-- Up to 450 degrees, and for thousandths of a degree, the legacy angle is the right one. -/
theorem legacyDegree_eq {v : ℝ} (hv : v ≤ 450) {k : ℤ} (hk : v * 1000 = k) : ∃ n : ℤ, legacyDegree v = 450 - v - n * 360 ∧ 0 ≤ legacyDegree v ∧ legacyDegree v < 360 := by
  have h0 : |450 - v| = 450 - v := abs_of_nonneg (by linarith)
  have hf := Int.self_sub_floor ((450 - v) / 360)
  have e : Int.fract ((450 - v) / 360) * 360 = 450 - v - ⌊(450 - v) / 360⌋ * 360 := by rw [← hf]; ring
  have hr : legacyDegree v = 450 - v - ⌊(450 - v) / 360⌋ * 360 := by
    unfold legacyDegree
    rw [h0, e]
    have : (450 - v - ⌊(450 - v) / 360⌋ * 360) * 1000 = ((450000 - k - ⌊(450 - v) / 360⌋ * 360000 : ℤ) : ℝ) := by
      push_cast; rw [← hk]; ring
    simp only [this, round_intCast]
    push_cast; rw [← hk]; ring
  refine ⟨_, hr, ?_, ?_⟩
  · rw [hr, ← e]; have := Int.fract_nonneg ((450 - v) / 360); linarith
  · rw [hr, ← e]; have := Int.fract_lt_one ((450 - v) / 360); linarith

theorem legacyDir_angle (a : Ang) : legacyDir (.angle a) = .angle (.deg (legacyDegree (toDegrees a))) := by
  have := Real.pi_ne_zero
  cases a with
  | deg n => rfl
  | rad n => simp only [legacyDir, toDegrees]; congr 3; field_simp; ring
  | grad n => simp only [legacyDir, toDegrees]; congr 3; ring
  | turn n => rfl

/-- The angle can be converted. -/
def Fine (v : ℝ) : Prop := v ≤ 450 / 360 * (2 * Real.pi) ∧ ∃ k : ℤ, v * 1000 = k / 360 * (2 * Real.pi)

theorem fine_degrees {a : Ang} (h : Fine (radians a)) : toDegrees a ≤ 450 ∧ ∃ k : ℤ, toDegrees a * 1000 = k := by
  obtain ⟨h1, k, h2⟩ := h
  rw [toDegrees_radians] at h1 h2
  have := Real.pi_pos
  refine ⟨?_, k, ?_⟩
  · have := le_of_mul_le_mul_right h1 (by positivity); linarith
  · have h3 : (toDegrees a * 1000 - k) * Real.pi = 0 := by linear_combination 180 * h2
    rcases mul_eq_zero.1 h3 with h | h
    · linarith
    · exact absurd h Real.pi_ne_zero

theorem legacy_vec {env : Env} {d : Dir} (h : ∀ a, d = .angle a → Fine (radians a)) : legacyVec env (legacyDir d) = dirVec env d := by
  rcases d with a | h' | v | ⟨h', v⟩
  · obtain ⟨h1, k, h2⟩ := fine_degrees (h a rfl)
    obtain ⟨n, e, -⟩ := legacyDegree_eq h1 h2
    rw [legacyDir_angle]
    show vecOf (Real.pi / 2 - legacyDegree (toDegrees a) / 360 * (2 * Real.pi)) = vecOf (radians a)
    rw [e, toDegrees_radians]
    rw [← vecOf_turns _ (1 - n)]
    congr 1
    push_cast; ring
  · cases h' <;> rfl
  · cases v <;> rfl
  · cases h' <;> cases v <;> rfl

/-- **C83 (partial).** The copy of a standard linear gradient that is made for browsers which need a prefix, printed, has the same colours in the
legacy syntax as the gradient has in the standard syntax. Not covered: the hint `50%`; angles over 450 degrees or that are not thousandths of
a degree; the direction `to top` and angles that point to the left; and, with minification, all sides (also
the default direction) and angles that point to the right. `C83_prefix_default`, `C83_prefix_top`, `C83_prefix_270` and
`C83_prefix_720` show that these go wrong. -/
theorem C83_prefix_partial (m dp : Bool) {env : Env} {segs : List Seg} {d : Vec} {ss : List Stop} (h : IsLinear env segs d ss)
    (hn : [Tok.pos (.arg (.pct (1 / 2)))] ∉ segs)
    (hb : segs.head? ≠ some [.to, .pos (.kw .top)])
    (ha : ∀ a v, segs.head? = some [.pos (.arg a)] → angle a = some v →
      v ≤ 450 / 360 * (2 * Real.pi) ∧ (∃ k : ℤ, v * 1000 = k / 360 * (2 * Real.pi)) ∧ d.x ≠ -1 ∧ (m = true → d.x ≠ 1))
    (hm : m = true → (∃ t u, segs.head? = some [.to, t, u]) ∨ ∃ a, segs.head? = some [.pos (.arg a)]) :
    ∃ g, parseLinear false segs = some g ∧ IsLegacy env (g.getPrefixed.print m dp) d ss ∧
      ∀ (M : Mixer) rep x y p, LinearColour M env rep segs x y p ↔ LegacyColour M env rep (g.getPrefixed.print m dp) x y p := by
  obtain ⟨g, e1, e2, e3, e4, e5, e6⟩ := parse_linear h
  have hu := parseLinear_half e1 hn
  suffices hs : (∀ a, g.direction = .angle a → Fine (radians a)) ∧ Safe m (legacyDir g.direction) by
    subst e3
    have hv := legacy_vec (env := env) hs.1
    have hp : g.getPrefixed.direction = legacyDir g.direction := by simp [Linear.getPrefixed, e2]
    have hl : IsLegacy env (g.getPrefixed.print m dp) (dirVec env g.direction) ss := by
      rw [← hv, ← hp]
      refine print_legacy dp rfl (by rw [hp]; exact hs.2) ?_ e5 e6 hu
      rw [hp, hv]; exact e4
    exact ⟨g, e1, hl, fun M rep x y p => by rw [linearColour_iff h, legacyColour_iff hl]⟩
  cases h with
  | default h2 =>
    obtain ⟨c, s, r, rfl⟩ := stops_head h2
    have : g.direction = .vertical .bottom := by
      simp [parseLinear, parseDir, angTok] at e1
      obtain ⟨_, _, rfl⟩ := e1; rfl
    rw [this]
    refine ⟨(fun a h => nomatch h), by simp [legacyDir, vOpp, Dir.degrees], fun h => ?_⟩
    rcases hm h with ⟨t, u, h⟩ | ⟨a, h⟩ <;> simp at h
  | @dir s segs _ _ h1 h2 =>
    have hd : ∀ D, parseDir false s = some (D, []) → g.direction = D := by
      intro D hD
      simp [parseLinear, hD] at e1
      obtain ⟨_, _, rfl⟩ := e1; rfl
    have corner : ∀ h v, parseDir false s = some (.corner h v, []) →
        (∀ a, g.direction = .angle a → Fine (radians a)) ∧ Safe m (legacyDir g.direction) := by
      intro h v e
      rw [hd _ e]
      exact ⟨(fun a h => nomatch h), safe_corner m _ _⟩
    have side : ∀ D, parseDir false s = some (D, []) → (∀ a, D ≠ .angle a) → Safe false (legacyDir D) → (m = false) →
        (∀ a, g.direction = .angle a → Fine (radians a)) ∧ Safe m (legacyDir g.direction) := by
      rintro D e h1 h2 rfl
      rw [hd _ e]
      exact ⟨fun a h => absurd h (h1 a), h2⟩
    have plain : ∀ t u, s = [t, u] → m = false := by
      rintro t u rfl
      cases m with
      | false => rfl
      | true =>
        rcases hm rfl with ⟨t, u, h⟩ | ⟨a, h⟩ <;> simp at h
    cases h1 with
    | @angle a v h' =>
      obtain ⟨l, h1, rfl⟩ := Transform.ang_parse h'
      have := hd (.angle l) (by simp [parseDir, angTok, h1])
      obtain ⟨f1, f2, f3, f4⟩ := ha a _ rfl h'
      have hv := legacy_vec (env := env) (d := .angle l) (by rintro a h; cases h; exact ⟨f1, f2⟩)
      rw [this]
      refine ⟨by rintro a h; cases h; exact ⟨f1, f2⟩, ?_⟩
      rw [legacyDir_angle] at hv ⊢
      refine ⟨fun hd => f3 ?_, fun h => ⟨fun hd => f4 h ?_, (fun _ h => nomatch h), (fun _ h => nomatch h)⟩⟩
      · have hd : legacyDegree (toDegrees l) = 180 := hd
        rw [hd] at hv
        have : (vecOf (radians l)).x = (vecOf (Real.pi / 2 - 180 / 360 * (2 * Real.pi))).x := by
          have := congrArg Vec.x hv; exact this.symm
        rw [this, show Real.pi / 2 - 180 / 360 * (2 * Real.pi) = -(Real.pi / 2) by ring]
        simp [vecOf]
      · have hd : legacyDegree (toDegrees l) = 0 := hd
        rw [hd] at hv
        have : (vecOf (radians l)).x = (vecOf (Real.pi / 2 - 0 / 360 * (2 * Real.pi))).x := by
          have := congrArg Vec.x hv; exact this.symm
        rw [this]
        simp [vecOf]
    | left => exact side _ rfl (fun a h => nomatch h) ⟨by simp [legacyDir, Dir.degrees]; norm_num, (fun h => nomatch h)⟩ (plain _ _ rfl)
    | right => exact side _ rfl (fun a h => nomatch h) ⟨by simp [legacyDir, Dir.degrees]; norm_num, (fun h => nomatch h)⟩ (plain _ _ rfl)
    | top => exact absurd rfl hb
    | bottom => exact side _ rfl (fun a h => nomatch h) ⟨by simp [legacyDir, vOpp, Dir.degrees], (fun h => nomatch h)⟩ (plain _ _ rfl)
    | topLeft => exact corner _ _ rfl
    | leftTop => exact corner _ _ rfl
    | topRight => exact corner _ _ rfl
    | rightTop => exact corner _ _ rfl
    | bottomLeft => exact corner _ _ rfl
    | leftBottom => exact corner _ _ rfl
    | bottomRight => exact corner _ _ rfl
    | rightBottom => exact corner _ _ rfl

end Verif.Gradient
