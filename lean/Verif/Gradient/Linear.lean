import Verif.Gradient.Flip
/-! Properties of linear gradients. -/
namespace Verif.Gradient
open Transform (Env lengthPct Arg LP Ang lpVal parseLP radians angle)
open Position (HSide VSide)

/-- The direction as a vector. -/
noncomputable def dirVec (env : Env) : Dir → Vec
  | .angle a => vecOf (radians a)
  | .horizontal .left => ⟨-1, 0⟩
  | .horizontal .right => ⟨1, 0⟩
  | .vertical .top => ⟨0, -1⟩
  | .vertical .bottom => ⟨0, 1⟩
  | .corner .left .top => cornerVec env (-1) (-1)
  | .corner .left .bottom => cornerVec env (-1) 1
  | .corner .right .top => cornerVec env 1 (-1)
  | .corner .right .bottom => cornerVec env 1 1

theorem toDegrees_radians (a : Ang) : radians a = toDegrees a / 360 * (2 * Real.pi) := by
  have := Real.pi_ne_zero
  cases a <;> simp [radians, toDegrees] <;> field_simp <;> ring

theorem vec_180 : vecOf (180 / 360 * (2 * Real.pi)) = ⟨0, 1⟩ := by
  rw [show (180 / 360 * (2 * Real.pi) : ℝ) = Real.pi by ring]; simp [vecOf]
theorem vec_0 : vecOf (0 / 360 * (2 * Real.pi)) = ⟨0, -1⟩ := by simp [vecOf]
theorem vec_90 : vecOf (90 / 360 * (2 * Real.pi)) = ⟨1, 0⟩ := by
  rw [show (90 / 360 * (2 * Real.pi) : ℝ) = Real.pi / 2 by ring]; simp [vecOf]
theorem vec_270 : vecOf (270 / 360 * (2 * Real.pi)) = ⟨-1, 0⟩ := by
  rw [show (270 / 360 * (2 * Real.pi) : ℝ) = Real.pi / 2 + Real.pi by ring]; simp [vecOf, Real.sin_add_pi, Real.cos_add_pi]

theorem degrees_180 {env : Env} {d : Dir} (h : d.degrees = 180) : dirVec env d = ⟨0, 1⟩ := by
  rcases d with a | h' | v | ⟨h', v⟩
  · simp only [Dir.degrees] at h
    rw [dirVec, toDegrees_radians, h, vec_180]
  · simp [Dir.degrees] at h; norm_num at h
  · cases v
    · simp [Dir.degrees] at h
    · rfl
  · simp [Dir.degrees] at h; norm_num at h

theorem degrees_0 {env : Env} {d : Dir} (h : d.degrees = 0) : dirVec env d = ⟨0, -1⟩ := by
  rcases d with a | h' | v | ⟨h', v⟩
  · simp only [Dir.degrees] at h
    rw [dirVec, toDegrees_radians, h, vec_0]
  · simp [Dir.degrees] at h
  · cases v
    · rfl
    · simp [Dir.degrees] at h
  · simp [Dir.degrees] at h

theorem isBottom_180 {d : Dir} (h : isBottom d) : d.degrees = 180 := by
  rcases d with a | h' | v | ⟨h', v⟩
  · cases a <;> simp [isBottom] at h; exact h
  · cases h
  · cases v
    · cases h
    · rfl
  · cases h

theorem print_dir (env : Env) (m : Bool) (d : Dir) : IsDir env (d.print m false) (dirVec env d) := by
  rcases d with a | h | v | ⟨h, v⟩
  · exact .angle Transform.radians_print
  · cases m
    · cases h
      · exact .left
      · exact .right
    · cases h
      · rw [show dirVec env (.horizontal .left) = vecOf (270 / 360 * (2 * Real.pi)) from vec_270.symm]; exact .angle rfl
      · rw [show dirVec env (.horizontal .right) = vecOf (90 / 360 * (2 * Real.pi)) from vec_90.symm]; exact .angle rfl
  · cases m
    · cases v
      · exact .top
      · exact .bottom
    · cases v
      · rw [show dirVec env (.vertical .top) = vecOf (0 / 360 * (2 * Real.pi)) from vec_0.symm]; exact .angle rfl
      · rw [show dirVec env (.vertical .bottom) = vecOf (180 / 360 * (2 * Real.pi)) from vec_180.symm]; exact .angle rfl
  · cases h <;> cases v
    · exact .topLeft
    · exact .bottomLeft
    · exact .topRight
    · exact .bottomRight

theorem parse_dir {env : Env} {s : Seg} {d : Vec} (h : IsDir env s d) : ∃ D, parseDir false s = some (D, []) ∧ dirVec env D = d := by
  cases h with
  | angle h =>
    obtain ⟨l, h1, rfl⟩ := Transform.ang_parse h
    exact ⟨.angle l, by simp [parseDir, angTok, h1], rfl⟩
  | left => exact ⟨.horizontal .left, rfl, rfl⟩
  | right => exact ⟨.horizontal .right, rfl, rfl⟩
  | top => exact ⟨.vertical .top, rfl, rfl⟩
  | bottom => exact ⟨.vertical .bottom, rfl, rfl⟩
  | topLeft => exact ⟨.corner .left .top, rfl, rfl⟩
  | leftTop => exact ⟨.corner .left .top, rfl, rfl⟩
  | topRight => exact ⟨.corner .right .top, rfl, rfl⟩
  | rightTop => exact ⟨.corner .right .top, rfl, rfl⟩
  | bottomLeft => exact ⟨.corner .left .bottom, rfl, rfl⟩
  | leftBottom => exact ⟨.corner .left .bottom, rfl, rfl⟩
  | bottomRight => exact ⟨.corner .right .bottom, rfl, rfl⟩
  | rightBottom => exact ⟨.corner .right .bottom, rfl, rfl⟩

/-- The first segment of stops starts with a colour. -/
theorem stops_head {val : Arg → Option ℝ} {segs : List Seg} {ss : List Stop} (h : IsStops val segs ss) : ∃ c s r, segs = (.color c :: s) :: r := by
  obtain ⟨raws, h1, h2, h3, h4⟩ := h
  cases segs with
  | nil => cases h1; cases h2; simp at h3
  | cons s segs =>
    obtain ⟨r, rs, e1, e2, rfl⟩ := mapM_cons_some h1
    unfold rawSeg at e1
    split at e1
    · exact ⟨_, _, _, rfl⟩
    · exact ⟨_, _, _, rfl⟩
    · exact ⟨_, _, _, rfl⟩
    · exfalso
      simp only [Option.bind_eq_bind, Option.bind_eq_some_iff, Option.some.injEq] at e1
      obtain ⟨v, -, rfl⟩ := e1
      simp only [List.flatten_cons, List.cons_append, List.nil_append, attach] at h2
      generalize rs.flatten = x at h2
      cases x with
      | nil => simp [attach] at h2
      | cons y x =>
        cases y with
        | hint q => simp [attach] at h2
        | color c q => obtain ⟨_, _, rfl⟩ := attach_tail h2; simpa using h4 _ rfl
    · cases e1

/-- A valid linear gradient is parsed with its meaning. -/
theorem parse_linear {env : Env} {segs : List Seg} {d : Vec} {ss : List Stop} (h : IsLinear env segs d ss) :
    ∃ g, parseLinear false segs = some g ∧ g.prefixed = false ∧ dirVec env g.direction = d ∧
      attach none (g.items.map (Item.raw (lpVal env (lineLength env d)))) = some ss ∧ 2 ≤ ss.length ∧ (∀ s, ss.head? = some s → s.hint = none) := by
  cases h with
  | dir h1 h2 =>
    obtain ⟨D, e1, rfl⟩ := parse_dir h1
    obtain ⟨is, e2, e3⟩ := parseItems_ok (lp_parses env _) h2
    obtain ⟨_, _, _, h3, h4⟩ := h2
    exact ⟨⟨false, D, is⟩, by simp [parseLinear, e1, e2], rfl, rfl, e3, h3, h4⟩
  | default h2 =>
    obtain ⟨is, e2, e3⟩ := parseItems_ok (lp_parses env _) h2
    obtain ⟨c, s, r, rfl⟩ := stops_head h2
    obtain ⟨_, _, _, h3, h4⟩ := h2
    exact ⟨⟨false, .vertical .bottom, is⟩, by simp [parseLinear, parseDir, angTok, e2], rfl, rfl, e3, h3, h4⟩

/-- A linear gradient has one meaning. -/
theorem linear_unique {env : Env} {segs : List Seg} {d d' : Vec} {ss ss' : List Stop} (h : IsLinear env segs d ss) (h' : IsLinear env segs d' ss') :
    d = d' ∧ ss = ss' := by
  obtain ⟨g, e1, -, rfl, e2, -⟩ := parse_linear h
  obtain ⟨g', e1', -, rfl, e2', -⟩ := parse_linear h'
  rw [e1] at e1'; cases e1'
  exact ⟨rfl, by rw [e2] at e2'; exact Option.some.inj e2'⟩

theorem linearColour_iff {M : Mixer} {env : Env} {rep : Bool} {segs : List Seg} {d : Vec} {ss : List Stop} (h : IsLinear env segs d ss) {x y : ℝ}
    {m : M.Paint} : LinearColour M env rep segs x y m ↔ Colour M rep (lineLength env d) ss (place env d x y) m := by
  refine ⟨?_, fun hc => ⟨d, ss, h, hc⟩⟩
  rintro ⟨d', ss', h', hc⟩
  obtain ⟨rfl, rfl⟩ := linear_unique h h'
  exact hc

/-- The hint `50%` as a segment. -/
noncomputable def halfHint : Seg := [.pos (.arg (.pct (1 / 2)))]

theorem parseLP_half {a : Arg} (h : parseLP a = some (.pct (1 / 2))) : a = .pct (1 / 2) := by
  cases a <;> simp_all [parseLP, Transform.parseLV]

theorem parseSegs_half : ∀ {segs : List Seg} {seen : Bool} {is : List (Item LP)}, parseSegs lpOps seen segs = some is → halfHint ∉ segs →
    ∀ i ∈ is, useless lpOps i = false
  | [], _, is, h, _ => by cases h; simp
  | s :: segs, seen, is, h, hn => by
    simp only [parseSegs, Option.bind_eq_bind, Option.bind_eq_some_iff, Option.some.injEq] at h
    obtain ⟨⟨js, b⟩, h1, ks, h2, rfl⟩ := h
    intro i hi
    rcases List.mem_append.1 hi with hi | hi
    · unfold parseSeg at h1
      split at h1
      · split at h1
        · cases h1; cases List.mem_singleton.1 hi; rfl
        · simp only [Option.map_eq_some_iff, Prod.mk.injEq] at h1
          obtain ⟨d, _, rfl, _⟩ := h1; cases List.mem_singleton.1 hi; rfl
        · simp only [Option.bind_eq_bind, Option.bind_eq_some_iff, Option.some.injEq, Prod.mk.injEq] at h1
          obtain ⟨d, _, e, _, rfl, _⟩ := h1
          simp only [List.mem_cons, List.not_mem_nil, or_false] at hi
          rcases hi with rfl | rfl <;> rfl
        · cases h1
      · rename_i t hne
        split at h1
        · simp only [Option.map_eq_some_iff, Prod.mk.injEq] at h1
          obtain ⟨d, hd, rfl, _⟩ := h1; cases List.mem_singleton.1 hi
          cases hu : useless lpOps (Item.hint d) with
          | false => rfl
          | true =>
            exfalso
            simp only [useless, decide_eq_true_eq] at hu
            have hu : d = .pct (1 / 2) := hu
            subst hu
            cases t with
            | pos t =>
              cases t with
              | arg a => cases parseLP_half hd; exact hn (by simp [halfHint])
              | kw k => cases hd
              | other n => cases hd
            | _ => cases hd
        · cases h1
      · cases h1
    · exact parseSegs_half h2 (fun h => hn (List.mem_cons_of_mem _ h)) i hi

theorem parseItems_half {segs : List Seg} {is : List (Item LP)} (h : parseItems lpOps segs = some is) (hn : halfHint ∉ segs) :
    ∀ i ∈ is, useless lpOps i = false := by
  cases segs with
  | nil => cases h
  | cons s segs => exact parseSegs_half h hn

theorem parseLinear_half {segs : List Seg} {g : Linear} {p : Bool} (h : parseLinear p segs = some g) (hn : halfHint ∉ segs) :
    ∀ i ∈ g.items, useless lpOps i = false := by
  cases segs with
  | nil => cases h
  | cons s segs =>
    simp only [parseLinear] at h
    split at h
    · split at h
      · simp only [Option.map_eq_some_iff] at h
        obtain ⟨is, h, rfl⟩ := h
        exact parseItems_half h (fun h => hn (List.mem_cons_of_mem _ h))
      · cases h
    · simp only [Option.map_eq_some_iff] at h
      obtain ⟨is, h, rfl⟩ := h
      exact parseItems_half h hn

/-- Stops without hints. -/
theorem attach_plain {dv : LP → ℝ} : ∀ {is : List (Item LP)} {ss : List Stop}, attach none (is.map (Item.raw dv)) = some ss → (∀ s ∈ ss, s.hint = none) →
    (∀ i ∈ is, ∃ c p, i = .stop c p) ∧ ss = is.map fun i => match i with | .stop c p => ⟨none, c, p.map dv⟩ | .hint _ => ⟨none, 0, none⟩
  | [], ss, h, _ => by cases h; simp
  | .stop c p :: is, ss, h, hh => by
    obtain ⟨ss', h1, rfl⟩ := attach_tail h
    obtain ⟨e1, e2⟩ := attach_plain h1 (fun s hs => hh s (List.mem_cons_of_mem _ hs))
    refine ⟨?_, by rw [e2]; rfl⟩
    intro i hi
    rcases List.mem_cons.1 hi with rfl | hi
    · exact ⟨c, p, rfl⟩
    · exact e1 i hi
  | .hint d :: is, ss, h, hh => by
    exfalso
    simp only [List.map_cons, Item.raw, attach] at h
    generalize is.map (Item.raw dv) = r at h
    cases r with
    | nil => simp [attach] at h
    | cons y x =>
      cases y with
      | hint q => simp [attach] at h
      | color c q => obtain ⟨_, _, rfl⟩ := attach_tail h; simpa using hh _ (List.mem_cons_self ..)

theorem attach_plain' {dv : LP → ℝ} : ∀ (is : List (Item LP)), (∀ i ∈ is, ∃ c p, i = .stop c p) →
    attach none (is.map (Item.raw dv)) = some (is.map fun i => match i with | .stop c p => ⟨none, c, p.map dv⟩ | .hint _ => ⟨none, 0, none⟩)
  | [], _ => rfl
  | i :: is, h => by
    obtain ⟨c, p, rfl⟩ := h i (by simp)
    simp only [List.map_cons, Item.raw, attach, attach_plain' is (fun i hi => h i (List.mem_cons_of_mem _ hi)), Option.map_some]

theorem flip_items {env : Env} {len : ℝ} {is : List (Item LP)} {ss : List Stop} (h : attach none (is.map (Item.raw (lpVal env len))) = some ss)
    (hh : ∀ s ∈ ss, s.hint = none) (hp : is.all percentages = true) :
    attach none ((is.reverse.map flipItem).map (Item.raw (lpVal env len))) = some (ss.reverse.map (flipStop len)) ∧
      ∀ i ∈ is.reverse.map flipItem, useless lpOps i = false := by
  obtain ⟨h1, rfl⟩ := attach_plain h hh
  have h2 : ∀ i ∈ is.reverse.map flipItem, ∃ c p, i = .stop c p := by
    intro i hi
    obtain ⟨j, hj, rfl⟩ := List.mem_map.1 hi
    obtain ⟨c, p, rfl⟩ := h1 j (List.mem_reverse.1 hj)
    have := List.all_eq_true.1 hp _ (List.mem_reverse.1 hj)
    rcases p with _ | (_ | q | _)
    · exact ⟨_, _, rfl⟩
    · exact ⟨_, _, rfl⟩
    · exact ⟨_, _, rfl⟩
    · exact ⟨_, _, rfl⟩
  refine ⟨?_, ?_⟩
  · rw [attach_plain' _ h2]
    congr 1
    rw [List.map_map, ← List.map_reverse, List.map_map]
    refine List.map_congr_left fun i hi => ?_
    obtain ⟨c, p, rfl⟩ := h1 i (List.mem_reverse.1 hi)
    have := List.all_eq_true.1 hp _ (List.mem_reverse.1 hi)
    rcases p with _ | (_ | q | _)
    · rfl
    · simp [percentages] at this
    · simp [flipItem, flipStop, lpVal]; ring
    · simp [percentages] at this
  · intro i hi
    obtain ⟨c, p, rfl⟩ := h2 i hi
    rfl

/-- What is printed for a linear gradient. -/
theorem print_linear {env : Env} (m dp : Bool) {g : Linear} {d : Vec} {ss : List Stop} (hg : g.prefixed = false) (hd : dirVec env g.direction = d)
    (ha : attach none (g.items.map (Item.raw (lpVal env (lineLength env d)))) = some ss) (hl : 2 ≤ ss.length) (hh : ∀ s, ss.head? = some s → s.hint = none)
    (hu : ∀ i ∈ g.items, useless lpOps i = false)
    (hf : m = true → d = ⟨0, -1⟩ → (∀ s ∈ ss, s.hint = none) ∧ InOrder (lineLength env d) ss) :
    ∃ d' ss', IsLinear env (g.print m dp) d' ss' ∧ ∀ (M : Mixer) rep x y (p : M.Paint),
      Colour M rep (lineLength env d) ss (place env d x y) p ↔ Colour M rep (lineLength env d') ss' (place env d' x y) p := by
  unfold Linear.print
  split
  · rename_i h
    rw [degrees_180 h] at hd; subst hd
    exact ⟨_, ss, .default (printItems_ok (lp_prints env _) dp hu ha hl hh), fun _ _ _ _ _ => Iff.rfl⟩
  · split
    · rename_i h
      obtain ⟨h0, rfl, hp⟩ := h
      rw [degrees_0 h0] at hd
      obtain ⟨hn, ho⟩ := hf rfl hd.symm
      subst hd
      have hlen : lineLength env ⟨0, -1⟩ = lineLength env ⟨0, 1⟩ := by simp [lineLength]
      rw [hlen] at ha ho
      obtain ⟨e1, e2⟩ := flip_items ha hn hp
      refine ⟨⟨0, 1⟩, ss.reverse.map (flipStop (lineLength env ⟨0, 1⟩)), .default (printItems_ok (lp_prints env _) dp e2 e1 (by simpa using hl) ?_), ?_⟩
      · intro s hs
        have := List.mem_of_mem_head? hs
        obtain ⟨s', hs', rfl⟩ := List.mem_map.1 this
        exact hn s' (List.mem_reverse.1 hs')
      · intro M rep x y p
        rw [hlen, colour_flip hl hn ho]
        have : lineLength env ⟨0, 1⟩ - place env ⟨0, -1⟩ x y = place env ⟨0, 1⟩ x y := by
          unfold place; rw [hlen]; ring
        rw [this]
    · split
      · rename_i h1 _ h2; exact absurd (isBottom_180 h2) h1
      · subst hd
        rw [hg]
        exact ⟨_, ss, .dir (print_dir env m g.direction) (printItems_ok (lp_prints env _) dp hu ha hl hh), fun _ _ _ _ _ => Iff.rfl⟩

/-- **C82 (partial).** A valid `linear-gradient()` or `repeating-linear-gradient()` is printed, minified or not, with two positions for a colour or not,
as a valid gradient that has the same colour at every point of every box (except at hard transitions), however colours are mixed.
Not covered: the hint `50%`, which is dropped wherever it stands; and, with minification, gradients to the top with hints or with
positions out of order, which are turned around. `C82_half_hint`, `C82_flip_hint` and `C82_flip_order` show that these go wrong. -/
theorem C82_linear_partial (m dp : Bool) {env : Env} {segs : List Seg} {d : Vec} {ss : List Stop} (h : IsLinear env segs d ss)
    (hn : [Tok.pos (.arg (.pct (1 / 2)))] ∉ segs)
    (hf : m = true → d = ⟨0, -1⟩ → (∀ s ∈ ss, s.hint = none) ∧ ((ends (lineLength env d) ss).filterMap Stop.pos).Pairwise (· ≤ ·)) :
    ∃ g, parseLinear false segs = some g ∧ (∃ d' ss', IsLinear env (g.print m dp) d' ss') ∧
      ∀ (M : Mixer) rep x y p, LinearColour M env rep segs x y p ↔ LinearColour M env rep (g.print m dp) x y p := by
  obtain ⟨g, e1, e2, e3, e4, e5, e6⟩ := parse_linear h
  obtain ⟨d', ss', h1, h2⟩ := print_linear m dp e2 e3 e4 e5 e6 (parseLinear_half e1 hn) hf
  refine ⟨g, e1, ⟨d', ss', h1⟩, fun M rep x y p => ?_⟩
  rw [linearColour_iff h, linearColour_iff h1]
  exact h2 M rep x y p

end Verif.Gradient
