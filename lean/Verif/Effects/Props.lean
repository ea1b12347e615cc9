import Verif.Effects.Spec
/-! # Shapes are read as CSS says, and print back -/
namespace Verif.Effects
variable {L P : Type}

/-- The rest does not go on with a length. -/
def NoLen (r : List (Tok L)) : Prop := ∀ l s, r ≠ .len l :: s

theorem four_complete {q : Four L} {ts r : List (Tok L)} (h : Sides q ts) (hr : NoLen r) : parseFour (ts ++ r) = some (q, r) := by
  cases r with
  | nil => cases h <;> rfl
  | cons t r =>
    cases t with
    | len l => exact absurd rfl (hr l r)
    | kw k => cases h <;> rfl
    | pos n => cases h <;> rfl

theorem four_sound {q : Four L} {ts r : List (Tok L)} (h : parseFour ts = some (q, r)) : ∃ us, Sides q us ∧ ts = us ++ r := by
  unfold parseFour at h
  split at h <;> simp only [Option.some.injEq, Prod.mk.injEq, reduceCtorEq] at h <;> obtain ⟨rfl, rfl⟩ := h
  · exact ⟨_, .four .., rfl⟩
  · exact ⟨_, .three .., rfl⟩
  · exact ⟨_, .two .., rfl⟩
  · exact ⟨_, .one .., rfl⟩

theorem four_print [DecidableEq L] (q : Four L) : Sides q (printFour q) := by
  obtain ⟨a, b, c, d⟩ := q
  simp only [printFour]
  split
  · next h => obtain ⟨rfl, rfl, rfl⟩ := h; exact .one _
  · split
    · next h => obtain ⟨rfl, rfl⟩ := h; exact .two _ _
    · split
      · next h => subst h; exact .three _ _ _
      · exact .four _ _ _ _

theorem noLen_nil : NoLen ([] : List (Tok L)) := by intro l s h; simp at h
theorem noLen_kw (k : Kw) (r : List (Tok L)) : NoLen (.kw k :: r) := by intro l s h; simp at h

theorem radii_complete {x : Radii L} {ts : List (Tok L)} (h : Corners x ts) : parseRadii ts = some (x, []) := by
  cases h with
  | same h =>
    have := four_complete h noLen_nil
    rw [List.append_nil] at this
    simp [parseRadii, this]
  | @both q q' us vs h h' =>
    have h1 := four_complete h (noLen_kw .slash vs)
    have h2 := four_complete h' noLen_nil
    rw [List.append_nil] at h2
    simp only [parseRadii, h1, h2]

theorem radii_sound {x : Radii L} {ts : List (Tok L)} (h : parseRadii ts = some (x, [])) : Corners x ts := by
  unfold parseRadii at h
  split at h
  · simp at h
  · next w r h1 =>
    obtain ⟨us, h2, rfl⟩ := four_sound h1
    split at h
    · next q r' h3 =>
      simp only [Option.some.injEq, Prod.mk.injEq] at h
      obtain ⟨rfl, rfl⟩ := h
      obtain ⟨vs, h4, rfl⟩ := four_sound h3
      rw [List.append_nil]
      exact .both h2 h4
    · simp at h
  · next h1 =>
    simp only [Option.some.injEq, Prod.mk.injEq] at h
    obtain ⟨rfl, rfl⟩ := h
    obtain ⟨us, h2, rfl⟩ := four_sound h1
    rw [List.append_nil]
    exact .same h2

theorem radii_print [DecidableEq L] (x : Radii L) : Corners x (printRadii x) := by
  obtain ⟨w, h⟩ := x
  simp only [printRadii]
  split
  · exact .both (four_print w) (four_print h)
  · next e =>
    have : w = h := Classical.byContradiction e
    subst this
    rw [List.append_nil]
    exact .same (four_print w)

theorem at_complete {env : Env L P} {p : P} {ts : List (Tok L)} (h : At env p ts) : exhausted (parseAt env ts) = some p := by
  cases h with
  | center => rfl
  | pos h => simp [parseAt, h, exhausted]

theorem exhausted_some {A : Type} {o : Option (A × List (Tok L))} {a : A} (h : exhausted o = some a) : o = some (a, []) := by
  unfold exhausted at h
  split at h
  · cases h; rfl
  · simp at h

theorem at_sound {env : Env L P} {p : P} {ts : List (Tok L)} (h : exhausted (parseAt env ts) = some p) : At env p ts := by
  have h := exhausted_some h
  unfold parseAt at h
  split at h
  · exact .pos h
  · cases h; exact .center

/-- What can follow the radii does not look like a radius. -/
theorem at_radius {env : Env L P} {p : P} {ts : List (Tok L)} (h : At env p ts) : parseSRadius ts = none := by
  cases h <;> rfl

theorem radius_complete {r : SRadius L} {ts us : List (Tok L)} (h : Radius r ts) : parseSRadius (ts ++ us) = some (r, us) := by
  cases h <;> rfl

theorem radius_sound {r : SRadius L} {ts us : List (Tok L)} (h : parseSRadius ts = some (r, us)) : ∃ vs, Radius r vs ∧ ts = vs ++ us := by
  unfold parseSRadius at h
  split at h <;> simp only [Option.some.injEq, Prod.mk.injEq, reduceCtorEq] at h <;> obtain ⟨rfl, rfl⟩ := h
  · exact ⟨_, .len _, rfl⟩
  · exact ⟨_, .closest, rfl⟩
  · exact ⟨_, .farthest, rfl⟩

theorem radius_tok (r : SRadius L) : Radius r [r.tok] := by cases r <;> constructor

theorem intercalate_cons (x y : L) (p : L × L) (ps : List (L × L)) :
    List.intercalate [Tok.kw .comma] (((x, y) :: p :: ps).map fun p => [Tok.len p.1, .len p.2]) =
      .len x :: .len y :: .kw .comma :: List.intercalate [.kw .comma] ((p :: ps).map fun p => [.len p.1, .len p.2]) := rfl

theorem points_complete : ∀ ps : List (L × L), ps ≠ [] → parsePoints (List.intercalate [.kw .comma] (ps.map fun p => [.len p.1, .len p.2])) = some ps
  | [], h => absurd rfl h
  | [(x, y)], _ => rfl
  | (x, y) :: p :: ps, _ => by
    rw [intercalate_cons, parsePoints, points_complete (p :: ps) (by simp)]

theorem points_sound : ∀ (n : Nat) (ts : List (Tok L)) (ps : List (L × L)), ts.length ≤ n → parsePoints ts = some ps →
    ps ≠ [] ∧ ts = List.intercalate [.kw .comma] (ps.map fun p => [.len p.1, .len p.2])
  | n, ts, ps, hn, h => by
    unfold parsePoints at h
    split at h
    · cases h
      exact ⟨by simp, rfl⟩
    · next x y r =>
      split at h
      · next qs hq =>
        cases h
        cases n with
        | zero => simp at hn
        | succ n =>
          obtain ⟨h1, h2⟩ := points_sound n r qs (by simp at hn; omega) hq
          refine ⟨by simp, ?_⟩
          cases qs with
          | nil => exact absurd rfl h1
          | cons q qs => rw [intercalate_cons, ← h2]
      · simp at h
    · simp at h

theorem points_print : ∀ ps : List (L × L), printPoints ps = List.intercalate [.kw .comma] (ps.map fun p => [.len p.1, .len p.2])
  | [] => rfl
  | [(x, y)] => rfl
  | (x, y) :: p :: ps => by rw [intercalate_cons, printPoints, points_print (p :: ps)]; simp

theorem polygon_points (ps : List (L × L)) (h : ps ≠ []) (P : Type) :
    parsePolygon (P := P) (List.intercalate [.kw .comma] (ps.map fun p => [.len p.1, .len p.2])) = some (.polygon false ps) := by
  match ps, h with
  | [(x, y)], _ => rfl
  | (x, y) :: p :: ps, _ =>
    have := points_complete ((x, y) :: p :: ps) (by simp)
    rw [intercalate_cons] at this ⊢
    simp only [parsePolygon, this, Option.map_some]

/-- C203: every way to write a shape that the grammar allows is read as this shape. -/
theorem parse_complete (env : Env L P) (s : Shape L P) (n : Name) (ts : List (Tok L)) (h : Writes env s n ts) : parse env n ts = some s := by
  cases h with
  | inset h =>
    have := four_complete h noLen_nil
    rw [List.append_nil] at this
    simp [parse, parseInset, this, exhausted]
  | insetRound h h' =>
    simp [parse, parseInset, four_complete h (noLen_kw .round _), radii_complete h', exhausted]
  | circle h => simp [parse, parseCircle, at_radius h, at_complete h]
  | circleRadius h h' => simp [parse, parseCircle, radius_complete h, at_complete h']
  | ellipse h => simp [parse, parseEllipse, parseTwo, at_radius h, at_complete h]
  | ellipseRadii h h2 h' => simp [parse, parseEllipse, parseTwo, radius_complete h, radius_complete h2, at_complete h', List.append_assoc]
  | polygon h => exact polygon_points _ h P
  | polygonRule e h =>
    cases e <;> simp [parse, parsePolygon, points_complete _ h]

/-- C203: what is read as a shape is a way to write it. -/
theorem parse_sound (env : Env L P) (s : Shape L P) (n : Name) (ts : List (Tok L)) (h : parse env n ts = some s) : Writes env s n ts := by
  cases n with
  | inset =>
    simp only [parse, parseInset] at h
    split at h
    · simp at h
    · next q r h1 =>
      obtain ⟨us, h2, rfl⟩ := four_sound h1
      obtain ⟨x, h3, rfl⟩ := Option.map_eq_some_iff.1 h
      exact .insetRound h2 (radii_sound (exhausted_some h3))
    · next q r _ h1 =>
      obtain ⟨us, h2, rfl⟩ := four_sound h1
      have := exhausted_some h
      simp only [Option.some.injEq, Prod.mk.injEq] at this
      obtain ⟨rfl, rfl⟩ := this
      rw [List.append_nil]
      exact .inset h2
  | circle =>
    simp only [parse, parseCircle] at h
    obtain ⟨p, h3, rfl⟩ := Option.map_eq_some_iff.1 h
    cases hr : parseSRadius ts with
    | none =>
      rw [hr] at h3
      exact .circle (at_sound h3)
    | some x =>
      obtain ⟨r, us⟩ := x
      rw [hr] at h3
      obtain ⟨vs, h4, rfl⟩ := radius_sound hr
      exact .circleRadius h4 (at_sound h3)
  | ellipse =>
    simp only [parse, parseEllipse] at h
    obtain ⟨p, h3, rfl⟩ := Option.map_eq_some_iff.1 h
    unfold parseTwo at h3 ⊢
    split at h3
    · next x r hr =>
      obtain ⟨vs, h4, rfl⟩ := radius_sound hr
      split at h3
      · next y r' hr' =>
        obtain ⟨vs', h5, rfl⟩ := radius_sound hr'
        simp only
        rw [← List.append_assoc]
        exact .ellipseRadii h4 h5 (at_sound h3)
      · exact .ellipse (at_sound h3)
    · exact .ellipse (at_sound h3)
  | polygon =>
    simp only [parse] at h
    unfold parsePolygon at h
    split at h
    · obtain ⟨ps, h1, rfl⟩ := Option.map_eq_some_iff.1 h
      obtain ⟨h2, rfl⟩ := points_sound _ _ _ (Nat.le_refl _) h1
      exact .polygonRule false h2
    · obtain ⟨ps, h1, rfl⟩ := Option.map_eq_some_iff.1 h
      obtain ⟨h2, rfl⟩ := points_sound _ _ _ (Nat.le_refl _) h1
      exact .polygonRule true h2
    · simp at h
    · simp at h
    · obtain ⟨ps, h1, rfl⟩ := Option.map_eq_some_iff.1 h
      obtain ⟨h2, rfl⟩ := points_sound _ _ _ (Nat.le_refl _) h1
      exact .polygon h2

theorem at_print {env : Env L P} {same : P → P → Prop} (hp : env.Ok same) (p : P) : ∃ p', At env p' (printAt env p) ∧ same p p' := by
  simp only [printAt]
  split
  · next h => exact ⟨env.center, .center, hp.center p h⟩
  · obtain ⟨p', h1, h2⟩ := hp.roundtrip p
    exact ⟨p', .pos h1, h2⟩

/-- C204: what is printed for a shape is, by the grammar, a way to write the same shape. A polygon has points, as all that are parsed. -/
theorem print_writes [DecidableEq L] (env : Env L P) (same : P → P → Prop) (hp : env.Ok same) (s : Shape L P) (hs : ∀ e, s ≠ .polygon e []) :
    ∃ s', Writes env s' (print env s).1 (print env s).2 ∧ Same same s s' := by
  cases s with
  | inset q x =>
    refine ⟨_, ?_, .inset q x⟩
    simp only [print]
    split
    · exact .insetRound (four_print q) (radii_print x)
    · next e =>
      have : x = env.noRadii := Classical.byContradiction e
      subst this
      rw [List.append_nil]
      exact .inset (four_print q)
  | circle r p =>
    obtain ⟨p', h1, h2⟩ := at_print hp p
    refine ⟨_, ?_, .circle r h2⟩
    simp only [print]
    split
    · exact .circleRadius (radius_tok r) h1
    · next e =>
      have : r = .closestSide := Classical.byContradiction e
      subst this
      exact .circle h1
  | ellipse x y p =>
    obtain ⟨p', h1, h2⟩ := at_print hp p
    refine ⟨_, ?_, .ellipse x y h2⟩
    simp only [print]
    split
    · exact .ellipseRadii (radius_tok x) (radius_tok y) h1
    · next e =>
      have e1 : x = .closestSide := Classical.byContradiction fun h => e (.inl h)
      have e2 : y = .closestSide := Classical.byContradiction fun h => e (.inr h)
      subst e1 e2
      exact .ellipse h1
  | polygon e ps =>
    have hne : ps ≠ [] := fun h => hs e (by rw [h])
    refine ⟨_, ?_, .polygon e ps⟩
    cases e
    · simp only [print, points_print]
      exact .polygon hne
    · simp only [print, points_print]
      exact .polygonRule true hne

/-- C204: what is printed for a shape reads back as the same shape. -/
theorem print_reads [DecidableEq L] (env : Env L P) (same : P → P → Prop) (hp : env.Ok same) (s : Shape L P) (hs : ∀ e, s ≠ .polygon e []) :
    ∃ s', parse env (print env s).1 (print env s).2 = some s' ∧ Same same s s' := by
  obtain ⟨s', h1, h2⟩ := print_writes env same hp s hs
  exact ⟨s', parse_complete env s' _ _ h1, h2⟩

/-- C204: no polygon without points is ever read. -/
theorem parsed_points (env : Env L P) (n : Name) (ts : List (Tok L)) (s : Shape L P) (h : parse env n ts = some s) : ∀ e, s ≠ .polygon e [] := by
  rintro e rfl
  cases parse_sound env _ n ts h with
  | polygon h' => exact h' rfl
  | polygonRule _ h' => exact h' rfl

/-! ## Examples -/

/-- Positions are numbers, and 0 and 7 are the centre. -/
def exampleEnv : Env Nat Nat where
  zero := 0
  parsePos | .pos n :: r => some (n, r) | _ => none
  printPos n := [.pos n]
  center := 0
  isCenter n := n = 0 ∨ n = 7

example : exampleEnv.Ok fun p q => p = q ∨ p = 7 ∧ q = 0 where
  roundtrip p := ⟨p, rfl, .inl rfl⟩
  center p h := by
    rcases (of_decide_eq_true h : p = 0 ∨ p = 7) with h | h
    · exact .inl h
    · exact .inr ⟨h, rfl⟩

/-- `inset(1 2 1 2 round 3 3 3 3 / 3)`, `ellipse(closest-side closest-side at 7)` and `polygon(nonzero, 1 2, 3 4)`. -/
example : parse exampleEnv .inset [.len 1, .len 2, .len 1, .len 2, .kw .round, .len 3, .len 3, .len 3, .len 3, .kw .slash, .len 3] =
      some (.inset ⟨1, 2, 1, 2⟩ ⟨⟨3, 3, 3, 3⟩, ⟨3, 3, 3, 3⟩⟩) ∧
    print exampleEnv (.inset ⟨1, 2, 1, 2⟩ ⟨⟨3, 3, 3, 3⟩, ⟨3, 3, 3, 3⟩⟩) = (.inset, [.len 1, .len 2, .kw .round, .len 3]) ∧
    parse exampleEnv .ellipse [.kw .closestSide, .kw .closestSide, .kw .at, .pos 7] = some (.ellipse .closestSide .closestSide 7) ∧
    print exampleEnv (.ellipse .closestSide .closestSide 7) = (.ellipse, []) ∧
    parse exampleEnv .polygon [.kw .nonzero, .kw .comma, .len 1, .len 2, .kw .comma, .len 3, .len 4] = some (.polygon false [(1, 2), (3, 4)]) ∧
    print exampleEnv (.polygon false [(1, 2), (3, 4)]) = (.polygon, [.len 1, .len 2, .kw .comma, .len 3, .len 4]) := ⟨rfl, rfl, rfl, rfl, rfl, rfl⟩

end Verif.Effects
