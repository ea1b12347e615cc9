import Verif.Sides.Spec
/-!
C41: four-sided values are read as CSS says, are printed in the fewest values, and read back.
-/
namespace Verif.Sides

set_option linter.unusedSimpArgs false

/-! ### Reading -/

/-- C41 (reading): `Rect::parse` reads the longest list of at most four values and gives each side the
value CSS gives it. -/
theorem rect_reads {T} (c : Codec T) (s : Str) (r : Rect T) (rest : Str) :
    parseRect c s = some (r, rest) ↔
      ∃ vs, Reads c.parse s vs rest ∧ Means vs r ∧ (vs.length < 4 → c.parse rest = none) := by
  constructor
  · intro h
    unfold parseRect at h
    split at h
    · simp at h
    · rename_i a s1 h1
      split at h
      · rename_i h2
        simp only [Option.some.injEq, Prod.mk.injEq] at h
        obtain ⟨rfl, rfl⟩ := h
        exact ⟨[a], .cons h1 (.nil _), .one a, fun _ => h2⟩
      · rename_i b s2 h2
        split at h
        · rename_i h3
          simp only [Option.some.injEq, Prod.mk.injEq] at h
          obtain ⟨rfl, rfl⟩ := h
          exact ⟨[a, b], .cons h1 (.cons h2 (.nil _)), .two a b, fun _ => h3⟩
        · rename_i d s3 h3
          split at h
          · rename_i h4
            simp only [Option.some.injEq, Prod.mk.injEq] at h
            obtain ⟨rfl, rfl⟩ := h
            exact ⟨[a, b, d], .cons h1 (.cons h2 (.cons h3 (.nil _))), .three a b d, fun _ => h4⟩
          · rename_i e s4 h4
            simp only [Option.some.injEq, Prod.mk.injEq] at h
            obtain ⟨rfl, rfl⟩ := h
            exact ⟨[a, b, d, e], .cons h1 (.cons h2 (.cons h3 (.cons h4 (.nil _)))), .four a b d e,
              fun h => absurd h (by simp)⟩
  · rintro ⟨vs, hr, hm, hstop⟩
    cases hm with
    | one a =>
      rcases hr with _ | ⟨h1, _ | _⟩
      simp [parseRect, h1, hstop]
    | two a b =>
      rcases hr with _ | ⟨h1, _ | ⟨h2, _ | _⟩⟩
      simp [parseRect, h1, h2, hstop]
    | three a b d =>
      rcases hr with _ | ⟨h1, _ | ⟨h2, _ | ⟨h3, _ | _⟩⟩⟩
      simp [parseRect, h1, h2, h3, hstop]
    | four a b d e =>
      rcases hr with _ | ⟨h1, _ | ⟨h2, _ | ⟨h3, _ | ⟨h4, _ | _⟩⟩⟩⟩
      simp [parseRect, h1, h2, h3, h4]

/-- C41 (reading): `Size2D::parse` reads the longest list of at most two values. -/
theorem size_reads {T} (c : Codec T) (s : Str) (r : Size2D T) (rest : Str) :
    parseSize c s = some (r, rest) ↔
      ∃ vs, Reads c.parse s vs rest ∧ Means2 vs r ∧ (vs.length < 2 → c.parse rest = none) := by
  constructor
  · intro h
    unfold parseSize at h
    split at h
    · simp at h
    · rename_i a s1 h1
      split at h
      · rename_i h2
        simp only [Option.some.injEq, Prod.mk.injEq] at h
        obtain ⟨rfl, rfl⟩ := h
        exact ⟨[a], .cons h1 (.nil _), .one a, fun _ => h2⟩
      · rename_i b s2 h2
        simp only [Option.some.injEq, Prod.mk.injEq] at h
        obtain ⟨rfl, rfl⟩ := h
        exact ⟨[a, b], .cons h1 (.cons h2 (.nil _)), .two a b, fun h => absurd h (by simp)⟩
  · rintro ⟨vs, hr, hm, hstop⟩
    cases hm with
    | one a =>
      rcases hr with _ | ⟨h1, _ | _⟩
      simp [parseSize, h1, hstop]
    | two a b =>
      rcases hr with _ | ⟨h1, _ | ⟨h2, _ | _⟩⟩
      simp [parseSize, h1, h2]

/-! ### Reading back what was printed -/

theorem ends_space (s : Str) : Ends (' ' :: s) := by simp [Ends]
theorem ends_slash (s : Str) : Ends ('/' :: s) := by simp [Ends]
theorem ends_nil : Ends [] := by simp [Ends]

/-- C41: a printed `Rect` reads back as a `Rect` whose four sides mean the same, and the text after it
is left. -/
theorem rect_round_trip {T V} {c : Codec T} {sem : T → V} (L : Law c sem) (r : Rect T) (rest : Str)
    (he : Ends rest) (hn : c.parse rest = none) :
    ∃ r', parseRect c (printRect c r ++ rest) = some (r', rest) ∧ r'.sem sem = r.sem sem := by
  obtain ⟨t, ri, b, l⟩ := r
  unfold printRect parseRect
  simp only [Rect.sem]
  by_cases hv : c.eq t b = true <;> by_cases hh : c.eq ri l = true <;> by_cases ht : c.eq t ri = true
  all_goals
    simp only [hv, hh, ht, Bool.and_self, Bool.and_true, Bool.and_false, Bool.false_and,
      Bool.true_and, if_true, if_false, List.append_nil, List.append_assoc, List.cons_append,
      List.nil_append, Bool.false_eq_true]
  · obtain ⟨t', h1, e1⟩ := L.back t rest he
    simp only [h1, hn]
    have := L.eq_sem _ _ hv; have := L.eq_sem _ _ hh; have := L.eq_sem _ _ ht
    exact ⟨_, rfl, by simp_all⟩
  · obtain ⟨t', h1, e1⟩ := L.back t (' ' :: (c.print ri ++ rest)) (ends_space _)
    obtain ⟨r', h2, e2⟩ := L.back ri rest he
    simp only [h1, L.skip, h2, hn]
    have := L.eq_sem _ _ hv; have := L.eq_sem _ _ hh
    exact ⟨_, rfl, by simp_all⟩
  all_goals
    first
    | (obtain ⟨t', h1, e1⟩ := L.back t (' ' :: (c.print ri ++ (' ' :: (c.print b ++ rest)))) (ends_space _)
       obtain ⟨r', h2, e2⟩ := L.back ri (' ' :: (c.print b ++ rest)) (ends_space _)
       obtain ⟨b', h3, e3⟩ := L.back b rest he
       simp only [h1, L.skip, h2, h3, hn]
       have := L.eq_sem _ _ hh
       exact ⟨_, rfl, by simp_all⟩)
    | (obtain ⟨t', h1, e1⟩ := L.back t
         (' ' :: (c.print ri ++ (' ' :: (c.print b ++ (' ' :: (c.print l ++ rest)))))) (ends_space _)
       obtain ⟨r', h2, e2⟩ := L.back ri (' ' :: (c.print b ++ (' ' :: (c.print l ++ rest)))) (ends_space _)
       obtain ⟨b', h3, e3⟩ := L.back b (' ' :: (c.print l ++ rest)) (ends_space _)
       obtain ⟨l', h4, e4⟩ := L.back l rest he
       simp only [h1, L.skip, h2, h3, h4]
       exact ⟨_, rfl, by simp_all⟩)

/-- C41: a printed `Size2D` reads back as one that means the same. -/
theorem size_round_trip {T V} {c : Codec T} {sem : T → V} (L : Law c sem) (s : Size2D T) (rest : Str)
    (he : Ends rest) (hn : c.parse rest = none) :
    ∃ s', parseSize c (printSize c s ++ rest) = some (s', rest) ∧ s'.sem sem = s.sem sem := by
  obtain ⟨a, b⟩ := s
  unfold printSize parseSize
  simp only [Size2D.sem]
  by_cases h : c.eq b a = true
  · obtain ⟨a', h1, e1⟩ := L.back a rest he
    simp only [h, Bool.not_true, Bool.false_eq_true, if_false, List.append_nil, h1, hn]
    have := L.eq_sem _ _ h
    exact ⟨_, rfl, by simp_all⟩
  · obtain ⟨a', h1, e1⟩ := L.back a (' ' :: (c.print b ++ rest)) (ends_space _)
    obtain ⟨b', h2, e2⟩ := L.back b rest he
    simp only [Bool.not_eq_true] at h
    simp only [h, Bool.not_false, if_true, List.append_assoc, List.cons_append, List.nil_append, h1,
      L.skip, h2]
    exact ⟨_, rfl, by simp_all⟩

theorem eqRect_sem {T V} {c : Codec T} {sem : T → V} (L : Law c sem) {a b : Rect T}
    (h : eqRect c a b = true) : a.sem sem = b.sem sem := by
  simp only [eqRect, Bool.and_eq_true] at h
  obtain ⟨⟨⟨h1, h2⟩, h3⟩, h4⟩ := h
  simp [Rect.sem, L.eq_sem _ _ h1, L.eq_sem _ _ h2, L.eq_sem _ _ h3, L.eq_sem _ _ h4]

/-- The text after a value that is neither a value nor a slash after white space. -/
theorem expectSlash_space (s : Str) : expectSlash (' ' :: s) = expectSlash s := by
  simp [expectSlash, skipWs]

theorem expectSlash_slash (s : Str) : expectSlash ('/' :: s) = some s := by
  have : skipWs ('/' :: s) = '/' :: s := by rw [skipWs]; simp
  simp [expectSlash, this]

theorem expectIdent_space (n s : Str) : expectIdent n (' ' :: s) = expectIdent n s := by
  simp [expectIdent, skipWs]

/-- A list of values may be read after white space. -/
theorem parseRect_skip {T V} {c : Codec T} {sem : T → V} (L : Law c sem) (s : Str) :
    parseRect c (' ' :: s) = parseRect c s := by
  simp only [parseRect, L.skip]

/-- C41: a printed `border-radius` reads back, with or without minification. -/
theorem radius_round_trip {T V} {c : Codec T} {sem : T → V} (L : Law c sem) (minify : Bool)
    (b : BorderRadius T) (rest : Str) (he : Ends rest) (hn : c.parse rest = none)
    (hs : ∀ s, rest.dropWhile (· == ' ') ≠ '/' :: s) :
    ∃ b', parseRadius c (printRadius c minify b ++ rest) = some (b', rest) ∧ b'.sem sem = b.sem sem := by
  obtain ⟨⟨tl, tl'⟩, ⟨tr, tr'⟩, ⟨br, br'⟩, ⟨bl, bl'⟩⟩ := b
  have hws : ∀ s : Str, skipWs s = s.dropWhile (· == ' ') := by
    intro s
    induction s with
    | nil => rfl
    | cons ch s ih =>
      by_cases hc : ch = ' '
      · subst hc; simpa [skipWs] using ih
      · rw [skipWs]
        · simp [List.dropWhile_cons, hc]
        · intro t h; exact hc (by injection h)
  have hslash : expectSlash rest = none := by
    unfold expectSlash
    rw [hws]
    split
    · rename_i s h; exact absurd h (hs s)
    · rfl
  simp only [printRadius, parseRadius]
  by_cases h : eqRect c ⟨tl, tr, br, bl⟩ ⟨tl', tr', br', bl'⟩ = true
  · obtain ⟨r', h1, e1⟩ := rect_round_trip L ⟨tl, tr, br, bl⟩ rest he hn
    have e2 := eqRect_sem L h
    simp only [h, Bool.not_true, Bool.false_eq_true, if_false, List.append_nil, h1, hslash]
    refine ⟨_, rfl, ?_⟩
    simp_all [Rect.sem, BorderRadius.sem, Size2D.sem]
  · simp only [Bool.not_eq_true] at h
    simp only [h, Bool.not_false, if_true, List.append_assoc]
    cases minify with
    | true =>
      obtain ⟨r', h1, e1⟩ := rect_round_trip L ⟨tl, tr, br, bl⟩
        ('/' :: (printRect c ⟨tl', tr', br', bl'⟩ ++ rest)) (ends_slash _) (L.no_slash _)
      obtain ⟨q', h2, e2⟩ := rect_round_trip L ⟨tl', tr', br', bl'⟩ rest he hn
      simp only [delim, Bool.not_true, Bool.and_false, Bool.false_eq_true, if_false, if_true,
        List.nil_append, List.append_nil, List.cons_append, h1, expectSlash_slash, h2]
      refine ⟨_, rfl, ?_⟩
      simp_all [Rect.sem, BorderRadius.sem, Size2D.sem]
    | false =>
      obtain ⟨r', h1, e1⟩ := rect_round_trip L ⟨tl, tr, br, bl⟩
        (' ' :: '/' :: ' ' :: (printRect c ⟨tl', tr', br', bl'⟩ ++ rest)) (ends_space _)
        (by rw [L.skip]; exact L.no_slash _)
      obtain ⟨q', h2, e2⟩ := rect_round_trip L ⟨tl', tr', br', bl'⟩ rest he hn
      simp only [delim, Bool.not_false, Bool.and_true, Bool.false_eq_true, if_false, if_true,
        List.nil_append, List.cons_append, h1, expectSlash_space, expectSlash_slash, parseRect_skip L, h2]
      refine ⟨_, rfl, ?_⟩
      simp_all [Rect.sem, BorderRadius.sem, Size2D.sem]

theorem eqRadius_sem {T V} {c : Codec T} {sem : T → V} (L : Law c sem) {a b : BorderRadius T}
    (h : eqRadius c a b = true) : a.sem sem = b.sem sem := by
  simp only [eqRadius, Bool.and_eq_true] at h
  obtain ⟨⟨⟨⟨h1, h2⟩, h3, h4⟩, h5, h6⟩, h7, h8⟩ := h
  simp [BorderRadius.sem, Size2D.sem, L.eq_sem _ _ h1, L.eq_sem _ _ h2, L.eq_sem _ _ h3,
    L.eq_sem _ _ h4, L.eq_sem _ _ h5, L.eq_sem _ _ h6, L.eq_sem _ _ h7, L.eq_sem _ _ h8]

theorem parseRadius_skip {T V} {c : Codec T} {sem : T → V} (L : Law c sem) (s : Str) :
    parseRadius c (' ' :: s) = parseRadius c s := by
  simp only [parseRadius, parseRect_skip L]

/-- C41: the arguments of `inset()` read back; they are the whole text of the function. -/
theorem inset_round_trip {T V} {c : Codec T} {sem : T → V} (L : Law c sem) (zero : T) (minify : Bool)
    (i : InsetRect T) (hn : c.parse [] = none) :
    ∃ i', parseInset c zero (printInset c zero minify i) = some (i', []) ∧
      i'.rect.sem sem = i.rect.sem sem ∧ i'.radius.sem sem = i.radius.sem sem := by
  obtain ⟨r, b⟩ := i
  simp only [printInset, parseInset]
  by_cases h : eqRadius c b (defaultRadius zero) = true
  · obtain ⟨r', h1, e1⟩ := rect_round_trip L r [] ends_nil hn
    simp only [h, Bool.not_true, Bool.false_eq_true, if_false, h1]
    exact ⟨⟨r', defaultRadius zero⟩, rfl, e1, (eqRadius_sem L h).symm⟩
  · simp only [Bool.not_eq_true] at h
    obtain ⟨r', h1, e1⟩ := rect_round_trip L r (cs!" round " ++ printRadius c minify b) (ends_space _)
      (by simp only [List.cons_append]; rw [L.skip]; exact L.no_round _)
    obtain ⟨b', h2, e2⟩ := radius_round_trip L minify b [] ends_nil hn (by simp)
    rw [List.append_nil] at h2
    have hi : expectIdent cs!"round" (cs!" round " ++ printRadius c minify b)
        = some (' ' :: printRadius c minify b) := by
      simp [expectIdent, skipWs, isNameChar, List.takeWhile_cons, List.dropWhile_cons, Char.isAlphanum,
        Char.isAlpha, Char.isUpper, Char.isLower, Char.isDigit]
    simp only [h, Bool.not_false, if_true, h1, hi, parseRadius_skip L, h2]
    exact ⟨⟨r', b'⟩, rfl, e1, e2⟩

theorem head_not_fill {c : Char} {s : Str} (h : c ≠ 'f') (h' : c ≠ ' ') :
    expectIdent cs!"fill" (c :: s) = none := by
  have hs : skipWs (c :: s) = c :: s := by
    rw [skipWs]; intro t h; exact h' (by injection h)
  simp only [expectIdent, hs, List.takeWhile_cons]
  by_cases hc : isNameChar c = true
  · simp [hc, h]
  · simp [hc]

theorem printRect_head {T V} {c : Codec T} {sem : T → V} (L : SliceLaw c sem) (r : Rect T) (rest : Str) :
    ∃ ch s, printRect c r ++ rest = ch :: s ∧ ch ≠ 'f' ∧ ch ≠ ' ' := by
  obtain ⟨ch, s, h, h1, h2⟩ := L.first r.top
  simp only [printRect, h]
  exact ⟨ch, _, rfl, h1, h2⟩

/-- C41: a printed `border-image-slice` reads back, with its `fill` keyword. -/
theorem slice_round_trip {T V} {c : Codec T} {sem : T → V} (L : SliceLaw c sem) (s : Slice T) (rest : Str)
    (he : Ends rest) (hn : c.parse rest = none)
    (hf : ∀ t, rest.dropWhile (· == ' ') ≠ cs!"fill" ++ t) :
    ∃ s', parseSlice c (printSlice c s ++ rest) = some (s', rest) ∧
      s'.offsets.sem sem = s.offsets.sem sem ∧ s'.fill = s.fill := by
  obtain ⟨o, f⟩ := s
  have hws : ∀ s : Str, skipWs s = s.dropWhile (· == ' ') := by
    intro s
    induction s with
    | nil => rfl
    | cons ch s ih =>
      by_cases hc : ch = ' '
      · subst hc; simpa [skipWs] using ih
      · rw [skipWs]
        · simp [List.dropWhile_cons, hc]
        · intro t h; exact hc (by injection h)
  have hnf : expectIdent cs!"fill" rest = none := by
    simp only [expectIdent, hws]
    rw [if_neg]
    intro h
    have hh := List.takeWhile_append_dropWhile (p := isNameChar) (l := rest.dropWhile (· == ' '))
    rw [h] at hh
    exact hf _ hh.symm
  cases f with
  | false =>
    simp only [printSlice, parseSlice, Bool.false_eq_true, if_false, List.append_nil]
    obtain ⟨ch, t, e, h1, h2⟩ := printRect_head L o rest
    obtain ⟨r', h3, e3⟩ := rect_round_trip L.toLaw o rest he hn
    rw [e, head_not_fill h1 h2, ← e]
    simp only [h3, hnf]
    exact ⟨_, rfl, e3, rfl⟩
  | true =>
    simp only [printSlice, parseSlice, if_true, List.append_assoc]
    obtain ⟨ch, t, e, h1, h2⟩ := printRect_head L o (cs!" fill" ++ rest)
    obtain ⟨r', h3, e3⟩ := rect_round_trip L.toLaw o (cs!" fill" ++ rest) (ends_space _)
      (by simp only [List.cons_append]; rw [L.skip]; exact L.no_fill rest he)
    rw [e, head_not_fill h1 h2, ← e]
    have hend : rest.takeWhile isNameChar = [] ∧ rest.dropWhile isNameChar = rest := by
      cases rest with
      | nil => simp
      | cons ch rest =>
        have := he ch (by simp)
        have hc : isNameChar ch = false := by
          rcases this with rfl | rfl | rfl | rfl <;> decide
        simp [hc]
    have hi : expectIdent cs!"fill" (cs!" fill" ++ rest) = some rest := by
      have e1 : isNameChar 'f' = true := by decide
      have e2 : isNameChar 'i' = true := by decide
      have e3 : isNameChar 'l' = true := by decide
      simp [expectIdent, skipWs, List.takeWhile_cons, List.dropWhile_cons, e1, e2, e3, hend]
    simp only [h3, hi]
    exact ⟨_, rfl, e3, rfl⟩

/-! ### The fewest values -/

/-- Values separated by one space. -/
def spaced (xs : List Str) : Str := (xs.intersperse cs!" ").flatten

/-- C41 (shortest): what is printed is a list of values meaning the rectangle, and no list that means it
is shorter. -/
theorem rect_shortest {T} (c : Codec T) (heq : ∀ a b, c.eq a b = true ↔ a = b) (r : Rect T) :
    ∃ vs, printRect c r = spaced (vs.map c.print) ∧ Means vs r ∧
      ∀ ws, Means ws r → vs.length ≤ ws.length := by
  obtain ⟨t, ri, b, l⟩ := r
  by_cases hv : t = b <;> by_cases hh : ri = l <;> by_cases ht : t = ri
  · subst hv hh ht
    have := (heq t t).2 rfl
    exact ⟨[t], by simp [printRect, spaced, this], .one t, by intro ws h; cases h <;> simp⟩
  · subst hv hh
    have e1 := (heq t t).2 rfl
    have e2 := (heq ri ri).2 rfl
    have e3 : c.eq t ri = false := by simpa [← heq] using ht
    refine ⟨[t, ri], by simp [printRect, spaced, e1, e2, e3], .two t ri, ?_⟩
    intro ws h; cases h <;> simp_all
  all_goals
    first
    | (subst hh
       have e1 : c.eq t b = false := by simpa [← heq] using hv
       have e2 := (heq ri ri).2 rfl
       refine ⟨[t, ri, b], by simp [printRect, spaced, e1, e2], .three t ri b, ?_⟩
       intro ws h; cases h <;> simp_all)
    | (have e1 : c.eq ri l = false := by simpa [← heq] using hh
       refine ⟨[t, ri, b, l], by simp [printRect, spaced, e1], .four t ri b l, ?_⟩
       intro ws h; cases h <;> simp_all)

/-- C41 (shortest): the second component is left out exactly when it is the first. -/
theorem size_shortest {T} (c : Codec T) (heq : ∀ a b, c.eq a b = true ↔ a = b) (r : Size2D T) :
    ∃ vs, printSize c r = spaced (vs.map c.print) ∧ Means2 vs r ∧
      ∀ ws, Means2 ws r → vs.length ≤ ws.length := by
  obtain ⟨a, b⟩ := r
  by_cases h : b = a
  · subst h
    have := (heq b b).2 rfl
    exact ⟨[b], by simp [printSize, spaced, this], .one b, by intro ws h; cases h <;> simp⟩
  · have e : c.eq b a = false := by simpa [← heq] using h
    refine ⟨[a, b], by simp [printSize, spaced, e], .two a b, ?_⟩
    intro ws hw; cases hw <;> simp_all

/-! ### The hypotheses are met: values that are digits -/

/-- A type of values that satisfies the law: one digit. -/
def digits : Codec (Fin 10) where
  parse s := match skipWs s with
    | '0' :: s => some (0, s) | '1' :: s => some (1, s) | '2' :: s => some (2, s) | '3' :: s => some (3, s)
    | '4' :: s => some (4, s) | '5' :: s => some (5, s) | '6' :: s => some (6, s) | '7' :: s => some (7, s)
    | '8' :: s => some (8, s) | '9' :: s => some (9, s) | _ => none
  print d := [Nat.digitChar d.1]
  eq a b := a == b

theorem digits_law : SliceLaw digits id where
  skip s := rfl
  back t rest _ := by
    refine ⟨t, ?_, rfl⟩
    revert t
    intro t
    match t with
    | 0 => rfl | 1 => rfl | 2 => rfl | 3 => rfl | 4 => rfl | 5 => rfl | 6 => rfl | 7 => rfl | 8 => rfl
    | 9 => rfl
  eq_sem a b h := by simpa [digits] using h
  no_slash s := rfl
  no_round s := rfl
  no_fill s _ := rfl
  first t := by
    refine ⟨_, _, rfl, ?_⟩
    revert t
    decide

example : printRect digits ⟨1, 2, 1, 2⟩ = cs!"1 2" := by decide
example : parseRect digits cs!"1 2 3 / 4" = some (⟨1, 2, 3, 2⟩, cs!" / 4") := by decide
example : printRect digits ⟨1, 2, 1, 3⟩ = cs!"1 2 1 3" := by decide
example : printRadius digits false ⟨⟨1, 1⟩, ⟨2, 1⟩, ⟨1, 1⟩, ⟨2, 1⟩⟩ = cs!"1 2 / 1" := by decide
example : ∃ b', parseRadius digits (printRadius digits true ⟨⟨1, 1⟩, ⟨2, 1⟩, ⟨1, 1⟩, ⟨2, 1⟩⟩ ++ cs!")")
    = some (b', cs!")") ∧ b'.sem id = ((1, 1), (2, 1), (1, 1), (2, 1)) :=
  radius_round_trip digits_law.toLaw true ⟨⟨1, 1⟩, ⟨2, 1⟩, ⟨1, 1⟩, ⟨2, 1⟩⟩ cs!")" (by simp [Ends]) rfl
    (by simp)
example : printInset digits 0 true ⟨⟨1, 1, 1, 1⟩, ⟨⟨0, 1⟩, ⟨0, 0⟩, ⟨0, 0⟩, ⟨0, 0⟩⟩⟩
    = cs!"1 round 0/1 0 0" := by decide
example : printSlice digits ⟨⟨1, 1, 1, 1⟩, true⟩ = cs!"1 fill" := by decide
example : parseSlice digits cs!"fill 1 2" = some (⟨⟨1, 2, 1, 2⟩, true⟩, []) := by decide

end Verif.Sides
