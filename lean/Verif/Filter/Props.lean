import Verif.Filter.Spec
/-!
# C205, C206: filters are read by their grammar, and printed as the same filters
-/
namespace Verif.Filters
variable {T N L A C U : Type}

/-! ## Reading what the grammar allows -/

theorem lengths_complete {env : Env T N L A C} {al : Allowed N L} {x y z : L} {ts us : List T} (h : Lengths env al x y z ts)
    (hu : ∀ t, us.head? = some t → env.len t = none) : parseLengths env (ts ++ us) = some ((x, y, z), us) := by
  cases h with
  | two ha hb =>
    cases us with
    | nil => simp [parseLengths, ha, hb]
    | cons c r => simp [parseLengths, ha, hb, hu c rfl]
  | three ha hb hc _ => simp [parseLengths, ha, hb, hc]

theorem lengths_fail {env : Env T N L A C} {t : T} (ts : List T) (h : env.len t = none) : parseLengths env (t :: ts) = none := by
  cases ts <;> simp [parseLengths, h]

theorem shadow_complete {env : Env T N L A C} {al : Allowed N L} (ok : env.Ok al) {s : Shadow L C} {ts : List T} (h : WritesShadow env al s ts) :
    parseShadow env ts = some s := by
  cases h with
  | plain h =>
    have := lengths_complete (us := []) h (by simp)
    rw [List.append_nil] at this
    simp [parseShadow, shadowLoop, this, parseColor]
  | @before x y z ts t c h hc =>
    have h1 := lengths_complete (us := []) h (by simp)
    rw [List.append_nil] at h1
    simp [parseShadow, shadowLoop, lengths_fail ts (ok.apart t c hc), parseColor, hc, h1]
  | @after x y z ts t c h hc =>
    have h1 := lengths_complete (us := [t]) h (by simpa using ok.apart t c hc)
    simp [parseShadow, shadowLoop, h1, parseColor, hc]

theorem amount_complete {env : Env T N L A C} {al : Allowed N L} {n : N} {ts : List T} (h : Amount env al n ts) : optional env.num env.one ts = some n := by
  cases h with
  | missing => rfl
  | given h _ => exact h

theorem filter_complete {env : Env T N L A C} {al : Allowed N L} (ok : env.Ok al) {f : Filter N L A C U} {c : Comp T U} (h : WritesFilter env al f c) :
    parseFilter env c = some f := by
  cases h with
  | blur h => cases h with
    | missing => rfl
    | given h _ => simp [parseFilter, optional, h]
  | hueRotate h => cases h with
    | missing => rfl
    | given h => simp [parseFilter, optional, h]
  | dropShadow h => simp [parseFilter, shadow_complete ok h]
  | url u => rfl
  | _ h => simp [parseFilter, amount_complete h]

theorem filters_complete {env : Env T N L A C} {al : Allowed N L} (ok : env.Ok al) {fs : List (Filter N L A C U)} {cs : List (Comp T U)}
    (h : List.Forall₂ (WritesFilter env al) fs cs) : parseFilters env cs = (fs, []) := by
  induction h with
  | nil => rfl
  | cons h _ ih => simp [parseFilters, filter_complete ok h, ih]

/-- C205: whatever the grammar lets write filters is read as these filters. -/
theorem parse_complete {env : Env T N L A C} {al : Allowed N L} (ok : env.Ok al) {f : FList N L A C U} {cs : List (Comp T U)}
    (h : Writes env al f cs) : parse env cs = some f := by
  cases h with
  | none => rfl
  | filters h hne =>
    have h1 := filters_complete ok h
    cases h with
    | nil => exact absurd rfl hne
    | @cons f c fs cs h _ =>
      have hc : c ≠ .none := by rintro rfl; cases h
      unfold parse
      split
      · next r heq => simp only [List.cons.injEq] at heq; exact absurd heq.1 hc
      · simp [h1]

/-! ## Reading nothing else -/

theorem lengths_sound {env : Env T N L A C} {al : Allowed N L} {x y z : L} {ts us : List T} (h : parseLengths env ts = some ((x, y, z), us))
    (ha : al.blur z) : ∃ vs, Lengths env al x y z vs ∧ ts = vs ++ us := by
  match ts, h with
  | a :: b :: r, h =>
    simp only [parseLengths] at h
    split at h
    · next x' y' h1 h2 =>
      match r, h with
      | [], h =>
        simp only [Option.some.injEq, Prod.mk.injEq] at h
        obtain ⟨⟨rfl, rfl, rfl⟩, rfl⟩ := h
        exact ⟨_, .two h1 h2, rfl⟩
      | c :: r', h =>
        simp only at h
        split at h
        · next z' h3 =>
          simp only [Option.some.injEq, Prod.mk.injEq] at h
          obtain ⟨⟨rfl, rfl, rfl⟩, rfl⟩ := h
          exact ⟨_, .three h1 h2 h3 ha, rfl⟩
        · simp only [Option.some.injEq, Prod.mk.injEq] at h
          obtain ⟨⟨rfl, rfl, rfl⟩, rfl⟩ := h
          exact ⟨_, .two h1 h2, rfl⟩
    · simp at h

theorem color_sound {env : Env T N L A C} {c : C} {ts us : List T} (h : parseColor env ts = some (c, us)) : ∃ t, ts = t :: us ∧ env.col t = some c := by
  match ts, h with
  | t :: r, h =>
    simp only [parseColor] at h
    split at h
    · next c' hc =>
      simp only [Option.some.injEq, Prod.mk.injEq] at h
      obtain ⟨rfl, rfl⟩ := h
      exact ⟨t, rfl, hc⟩
    · simp at h

/-- After both parts nothing more is read. -/
theorem loop_both (env : Env T N L A C) (n : Nat) (c : C) (l : L × L × L) (ts : List T) :
    shadowLoop env n (some c) (some l) ts = (some c, some l, ts) := by cases n <;> simp [shadowLoop]

theorem shadow_sound {env : Env T N L A C} {al : Allowed N L} {s : Shadow L C} {ts : List T} (h : parseShadow env ts = some s) (ha : al.blur s.blur) :
    WritesShadow env al s ts := by
  unfold parseShadow at h
  split at h
  · next c x y b heq =>
    simp only [Option.some.injEq] at h
    subst h
    simp only at ha
    simp only [shadowLoop, Option.isNone_none, if_true] at heq
    split at heq
    · next v r h1 =>
      obtain ⟨x', y', z'⟩ := v
      simp only [Option.isNone_some, Bool.false_eq_true, if_false] at heq
      split at heq
      · next v r' h2 =>
        simp only [Prod.mk.injEq, Option.some.injEq] at heq
        obtain ⟨rfl, ⟨rfl, rfl, rfl⟩, rfl⟩ := heq
        obtain ⟨us, h3, rfl⟩ := lengths_sound h1 ha
        obtain ⟨t, rfl, h4⟩ := color_sound h2
        exact .after h3 h4
      · simp only [Prod.mk.injEq, Option.some.injEq] at heq
        obtain ⟨rfl, ⟨rfl, rfl, rfl⟩, rfl⟩ := heq
        obtain ⟨us, h3, rfl⟩ := lengths_sound h1 ha
        rw [List.append_nil]
        exact .plain h3
    · split at heq
      · next v r h2 =>
        obtain ⟨t, rfl, h4⟩ := color_sound h2
        split at heq
        · next v' r' h1 =>
          obtain ⟨x', y', z'⟩ := v'
          simp only [Option.isNone_some, Bool.false_eq_true, if_false, Prod.mk.injEq, Option.some.injEq] at heq
          obtain ⟨rfl, ⟨rfl, rfl, rfl⟩, rfl⟩ := heq
          obtain ⟨us, h3, rfl⟩ := lengths_sound h1 ha
          rw [List.append_nil]
          exact .before h3 h4
        · simp at heq
      · simp at heq
  · simp at h

theorem amount_sound {env : Env T N L A C} {al : Allowed N L} {n : N} {ts : List T} (h : optional env.num env.one ts = some n) (ha : al.num n) :
    Amount env al n ts := by
  match ts, h with
  | [], h => simp only [optional, Option.some.injEq] at h; subst h; exact .missing
  | [t], h => exact .given h ha

theorem blur_sound {env : Env T N L A C} {al : Allowed N L} {n : L} {ts : List T} (h : optional env.len env.zeroLen ts = some n) (ha : al.blur n) :
    Blur env al n ts := by
  match ts, h with
  | [], h => simp only [optional, Option.some.injEq] at h; subst h; exact .missing
  | [t], h => exact .given h ha

theorem rotation_sound {env : Env T N L A C} {n : A} {ts : List T} (h : optional env.ang env.zeroAng ts = some n) : Rotation env n ts := by
  match ts, h with
  | [], h => simp only [optional, Option.some.injEq] at h; subst h; exact .missing
  | [t], h => exact .given h

theorem filter_sound {env : Env T N L A C} {al : Allowed N L} {f : Filter N L A C U} {c : Comp T U} (h : parseFilter env c = some f) (ha : f.Allowed al) :
    WritesFilter env al f c := by
  unfold parseFilter at h
  split at h
  · simp only [Option.some.injEq] at h; subst h; exact .url _
  all_goals first
    | simp at h; done
    | (simp only [Option.map_eq_some_iff] at h
       obtain ⟨x, h, rfl⟩ := h
       first
         | exact .blur (blur_sound h ha)
         | exact .brightness (amount_sound h ha)
         | exact .contrast (amount_sound h ha)
         | exact .grayscale (amount_sound h ha)
         | exact .invert (amount_sound h ha)
         | exact .opacity (amount_sound h ha)
         | exact .saturate (amount_sound h ha)
         | exact .sepia (amount_sound h ha)
         | exact .hueRotate (rotation_sound h)
         | exact .dropShadow (shadow_sound h ha))

theorem filters_sound {env : Env T N L A C} {al : Allowed N L} : ∀ {cs : List (Comp T U)} {fs : List (Filter N L A C U)},
    parseFilters env cs = (fs, []) → (∀ f ∈ fs, f.Allowed al) → List.Forall₂ (WritesFilter env al) fs cs
  | [], fs, h, _ => by simp only [parseFilters, Prod.mk.injEq] at h; rw [← h.1]; exact .nil
  | c :: cs, fs, h, ha => by
    simp only [parseFilters] at h
    split at h
    · next f hf =>
      simp only [Prod.mk.injEq] at h
      obtain ⟨rfl, h⟩ := h
      exact .cons (filter_sound hf (ha _ (by simp))) (filters_sound (Prod.ext rfl h) fun g hg => ha g (by simp [hg]))
    · simp at h

/-- C205, in part: what is read, unless it is empty or has values that are not allowed, is written by the grammar. -/
theorem parse_sound_partial {env : Env T N L A C} {al : Allowed N L} {f : FList N L A C U} {cs : List (Comp T U)} (h : parse env cs = some f)
    (hne : cs ≠ []) (ha : ∀ fs, f = .filters fs → ∀ g ∈ fs, g.Allowed al) : Writes env al f cs := by
  unfold parse at h
  split at h
  · split at h
    · simp only [Option.some.injEq] at h; subst h; exact .none
    · simp at h
  · split at h
    · next fs heq =>
      simp only [Option.some.injEq] at h
      subst h
      have h1 := filters_sound heq (ha fs rfl)
      refine .filters h1 ?_
      rintro rfl
      cases h1
      exact hne rfl
    · simp at h

/-- An empty `filter:` is read, and printed as it is: it replaces a valid declaration before it, and every browser ignores it. -/
theorem parse_empty_wrong (env : Env T N L A C) (al : Allowed N L) : parse env ([] : List (Comp T U)) = some (.filters []) ∧
    print env (.filters [] : FList N L A C U) = [] ∧ ∀ f : FList N L A C U, ¬ Writes env al f [] := by
  refine ⟨rfl, rfl, fun f h => ?_⟩
  cases h with
  | filters h hne => cases h; exact hne rfl

/-- Values that are not allowed are read: nothing looks at the sign. -/
theorem parse_negative_wrong (env : Env T N L A C) (al : Allowed N L) (t : T) (n : N) (h : env.num t = some n) (hn : ¬ al.num n) :
    parse env [(Comp.fn .brightness [t] : Comp T U)] = some (.filters [.brightness n]) ∧
      ∀ f : FList N L A C U, ¬ Writes env al f [.fn .brightness [t]] := by
  refine ⟨by simp [parse, parseFilters, parseFilter, optional, h], fun f hf => ?_⟩
  cases hf with
  | filters hf _ =>
    cases hf with
    | cons h1 _ =>
      cases h1 with
      | brightness h2 =>
        cases h2 with
        | given h3 h4 => rw [h] at h3; cases h3; exact hn h4

/-! ## Printing -/

theorem amount_print {N' L' A' C' : Type} {env : Env T N L A C} {al : Allowed N L} {n : N → N'} {l : L → L'} {a : A → A'} {c : C → C'}
    (hp : env.Prints al n l a c) (x : N) (hx : al.num x) : ∃ x', Amount env al x' (optArg env.printNum env.isOne x) ∧ n x' = n x := by
  unfold optArg
  split
  · next h => exact ⟨_, .missing, (hp.one x h).symm⟩
  · obtain ⟨x', h1, h2, h3⟩ := hp.num x
    exact ⟨x', .given h1 (h3 hx), h2⟩

theorem blur_print {N' L' A' C' : Type} {env : Env T N L A C} {al : Allowed N L} {n : N → N'} {l : L → L'} {a : A → A'} {c : C → C'}
    (hp : env.Prints al n l a c) (x : L) (hx : al.blur x) : ∃ x', Blur env al x' (optArg env.printLen env.isZeroLen x) ∧ l x' = l x := by
  unfold optArg
  split
  · next h => exact ⟨_, .missing, (hp.zeroLen x h).symm⟩
  · obtain ⟨x', h1, h2, h3⟩ := hp.len x
    exact ⟨x', .given h1 (h3 hx), h2⟩

theorem rotation_print {N' L' A' C' : Type} {env : Env T N L A C} {al : Allowed N L} {n : N → N'} {l : L → L'} {a : A → A'} {c : C → C'}
    (hp : env.Prints al n l a c) (x : A) : ∃ x', Rotation env x' (optArg env.printAng env.isZeroAng x) ∧ a x' = a x := by
  unfold optArg
  split
  · next h => exact ⟨_, .missing, (hp.zeroAng x h).symm⟩
  · obtain ⟨x', h1, h2⟩ := hp.ang x
    exact ⟨x', .given h1, h2⟩

theorem shadow_print {N' L' A' C' : Type} {env : Env T N L A C} {al : Allowed N L} {n : N → N'} {l : L → L'} {a : A → A'} {c : C → C'}
    (hp : env.Prints al n l a c) (s : Shadow L C) (hs : al.blur s.blur) : ∃ s', WritesShadow env al s' (printShadow env s) ∧
      c s'.color = c s.color ∧ l s'.x = l s.x ∧ l s'.y = l s.y ∧ l s'.blur = l s.blur := by
  obtain ⟨x', hx1, hx2, _⟩ := hp.len s.x
  obtain ⟨y', hy1, hy2, _⟩ := hp.len s.y
  have hl : ∃ z', Lengths env al x' y' z' (env.printLen s.x :: env.printLen s.y :: if env.isZeroLen s.blur then [] else [env.printLen s.blur]) ∧
      l z' = l s.blur := by
    split
    · next h => exact ⟨_, .two hx1 hy1, (hp.zeroLen _ h).symm⟩
    · obtain ⟨z', h1, h2, h3⟩ := hp.len s.blur
      exact ⟨z', .three hx1 hy1 h1 (h3 hs), h2⟩
  obtain ⟨z', hz1, hz2⟩ := hl
  cases hc : env.isCurrent s.color
  · obtain ⟨c', h1, h2⟩ := hp.col s.color hc
    refine ⟨⟨c', x', y', z'⟩, ?_, h2, hx2, hy2, hz2⟩
    have := WritesShadow.after hz1 h1
    simpa [printShadow, hc] using this
  · refine ⟨⟨env.current, x', y', z'⟩, ?_, (hp.current _ hc).symm, hx2, hy2, hz2⟩
    have := WritesShadow.plain hz1
    simpa [printShadow, hc] using this

theorem filter_print {N' L' A' C' : Type} {env : Env T N L A C} {al : Allowed N L} {n : N → N'} {l : L → L'} {a : A → A'} {c : C → C'}
    (hp : env.Prints al n l a c) (f : Filter N L A C U) (hf : f.Allowed al) :
    ∃ f' : Filter N L A C U, WritesFilter env al f' (printFilter env f) ∧ f'.map n l a c = f.map n l a c := by
  cases f with
  | blur x => obtain ⟨x', h1, h2⟩ := blur_print hp x hf; exact ⟨_, .blur h1, by simp [Filter.map, h2]⟩
  | brightness x => obtain ⟨x', h1, h2⟩ := amount_print hp x hf; exact ⟨_, .brightness h1, by simp [Filter.map, h2]⟩
  | contrast x => obtain ⟨x', h1, h2⟩ := amount_print hp x hf; exact ⟨_, .contrast h1, by simp [Filter.map, h2]⟩
  | grayscale x => obtain ⟨x', h1, h2⟩ := amount_print hp x hf; exact ⟨_, .grayscale h1, by simp [Filter.map, h2]⟩
  | hueRotate x => obtain ⟨x', h1, h2⟩ := rotation_print hp x; exact ⟨_, .hueRotate h1, by simp [Filter.map, h2]⟩
  | invert x => obtain ⟨x', h1, h2⟩ := amount_print hp x hf; exact ⟨_, .invert h1, by simp [Filter.map, h2]⟩
  | opacity x => obtain ⟨x', h1, h2⟩ := amount_print hp x hf; exact ⟨_, .opacity h1, by simp [Filter.map, h2]⟩
  | saturate x => obtain ⟨x', h1, h2⟩ := amount_print hp x hf; exact ⟨_, .saturate h1, by simp [Filter.map, h2]⟩
  | sepia x => obtain ⟨x', h1, h2⟩ := amount_print hp x hf; exact ⟨_, .sepia h1, by simp [Filter.map, h2]⟩
  | dropShadow s => obtain ⟨s', h1, h2, h3, h4, h5⟩ := shadow_print hp s hf; exact ⟨_, .dropShadow h1, by simp [Filter.map, h2, h3, h4, h5]⟩
  | url u => exact ⟨_, .url u, rfl⟩

theorem filters_print {N' L' A' C' : Type} {env : Env T N L A C} {al : Allowed N L} {n : N → N'} {l : L → L'} {a : A → A'} {c : C → C'}
    (hp : env.Prints al n l a c) : ∀ (fs : List (Filter N L A C U)) (_ : ∀ f ∈ fs, f.Allowed al),
    ∃ fs' : List (Filter N L A C U), List.Forall₂ (WritesFilter env al) fs' (fs.map (printFilter env)) ∧ fs'.map (Filter.map n l a c) = fs.map (Filter.map n l a c)
  | [], _ => ⟨[], .nil, rfl⟩
  | f :: fs, h => by
    obtain ⟨f', h1, h2⟩ := filter_print hp f (h f (by simp))
    obtain ⟨fs', h3, h4⟩ := filters_print hp fs fun g hg => h g (by simp [hg])
    exact ⟨f' :: fs', .cons h1 h3, by simp [h2, h4]⟩

/-- C206: what is printed for filters, except for the empty list, writes filters that do the same, and reads back as these. -/
theorem print_same {N' L' A' C' : Type} {env : Env T N L A C} {al : Allowed N L} {n : N → N'} {l : L → L'} {a : A → A'} {c : C → C'}
    (ok : env.Ok al) (hp : env.Prints al n l a c) (f : FList N L A C U) (hne : f ≠ .filters [])
    (ha : ∀ fs, f = .filters fs → ∀ g ∈ fs, g.Allowed al) :
    ∃ f', Writes env al f' (print env f) ∧ parse env (print env f) = some f' ∧ f'.map n l a c = f.map n l a c := by
  cases f with
  | none => exact ⟨.none, .none, rfl, rfl⟩
  | filters fs =>
    obtain ⟨fs', h1, h2⟩ := filters_print hp fs (ha fs rfl)
    have hw : Writes env al (.filters fs') (print env (.filters fs)) := by
      refine .filters h1 ?_
      rintro rfl
      cases fs with
      | nil => exact hne rfl
      | cons f fs => simp at h2
    exact ⟨_, hw, parse_complete ok hw, by simp [FList.map, h2]⟩

/-! ## Examples -/

/-- Component values of the example: numbers (in percent, and with or without the sign), pixels, degrees and colours. -/
inductive ExTok
  | num (n : Int) | pct (n : Int) | px (n : Int) | deg (n : Int) | col (n : Nat)
deriving DecidableEq

/-- Numbers and percentages mean the same in hundredths; colour 0 is `currentColor`. -/
def exampleEnv : Env ExTok (Bool × Int) Int Int Nat where
  len | .px n => some n | .num 0 => some 0 | _ => none
  num | .num n => some (false, 100 * n) | .pct n => some (true, n) | _ => none
  ang | .deg n => some n | .num 0 => some 0 | _ => none
  col | .col n => some n | _ => none
  printLen n := if n = 0 then .num 0 else .px n
  printNum n := .pct n.2
  printAng := .deg
  printCol := .col
  zeroLen := 0
  one := (false, 100)
  zeroAng := 0
  current := 0
  isZeroLen n := n = 0
  isOne n := n.2 = 100
  isZeroAng n := n = 0
  isCurrent c := c = 0

/-- Values that are not negative. -/
def exampleAllowed : Allowed (Bool × Int) Int := ⟨fun n => 0 ≤ n.2, fun l => 0 ≤ l⟩

example : exampleEnv.Ok exampleAllowed where
  one := by simp [exampleEnv, exampleAllowed]
  zero := by simp [exampleEnv, exampleAllowed]
  apart t c h := by cases t <;> simp [exampleEnv] at h ⊢

example : exampleEnv.Prints exampleAllowed (fun n => n.2) id id id where
  num x := ⟨(true, x.2), rfl, rfl, id⟩
  len x := by
    refine ⟨x, ?_, rfl, id⟩
    by_cases h : x = 0
    · subst h; rfl
    · simp [exampleEnv, h]
  ang x := ⟨x, rfl, rfl⟩
  col x _ := ⟨x, rfl, rfl⟩
  one x h := by simpa [exampleEnv] using h
  zeroLen x h := by simpa [exampleEnv] using h
  zeroAng x h := by simpa [exampleEnv] using h
  current x h := by simpa [exampleEnv] using h

/-- `brightness(100%) drop-shadow(c5 1px 2px 0) url(#1) blur(-1px)`. -/
example : (parse exampleEnv [.fn .brightness [.pct 100], .fn .dropShadow [.col 5, .px 1, .px 2, .num 0], .url 1] : Option (FList _ _ _ _ Nat)) =
      some (.filters [.brightness (true, 100), .dropShadow ⟨5, 1, 2, 0⟩, .url 1]) ∧
    print exampleEnv (.filters [.brightness (true, 100), .dropShadow ⟨5, 1, 2, 0⟩, .url 1] : FList _ _ _ _ Nat) =
      [.fn .brightness [], .fn .dropShadow [.px 1, .px 2, .col 5], .url 1] ∧
    exampleEnv.num (.pct (-1)) = some (true, -1) ∧ ¬ exampleAllowed.num (true, -1) :=
  ⟨rfl, rfl, rfl, by simp [exampleAllowed]⟩

end Verif.Filters
