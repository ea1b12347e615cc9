import Verif.Fallback.Lemmas
/-!
# Properties C96–C100: color fallbacks
-/
namespace Verif.Fallback
open Verif.Targets

/-! ## C96: crashes -/

/-- **C96 (partial).** Computing fallbacks does not crash for values whose colors have no keywords. Not covered: values with `currentColor` or system colors, also as the default of a shadow, for which it crashes
exactly if some other color needs a fallback (`C96_crash`), except in box shadows. -/
theorem C96_no_crash_partial {V : Type} (conv : Kind → Space → V → V) (m : Mode) (t : Targets) (cs : List (Color V)) (h : ∀ c ∈ cs, c.Concrete) :
    ∃ r, getFallbacks conv m t cs = some r := by
  have hv : ∀ k, ∃ x, version conv m k cs = some x := by
    intro k
    refine mapM_some fun c hc => ?_
    unfold fallback
    cases m with
    | direct => exact convert_concrete conv k (h c hc)
    | keepRgba =>
      simp only
      split
      · exact ⟨_, rfl⟩
      · exact convert_concrete conv k (h c hc)
    | keepFailed => exact ⟨_, rfl⟩
  obtain ⟨x, hx⟩ := hv .rgb
  obtain ⟨y, hy⟩ := hv .p3
  obtain ⟨z, hz⟩ := hv .lab
  unfold getFallbacks
  rw [hx, hy, hz]
  cases (needs t cs).rgb <;> cases (needs t cs).p3 <;> cases (needs t cs).lab <;> simp

/-- **C96, what goes wrong.** Where conversions are unwrapped, there is a crash exactly if a fallback is needed and one of the colors has a keyword. -/
theorem C96_crash {V : Type} (conv : Kind → Space → V → V) (m : Mode) (hm : m ≠ .keepFailed) (t : Targets) (cs : List (Color V)) :
    getFallbacks conv m t cs = none ↔ ((needs t cs).rgb = true ∨ (needs t cs).p3 = true ∨ (needs t cs).lab = true) ∧ ∃ c ∈ cs, ¬ c.Concrete := by
  constructor
  · intro h
    have hk : ∃ c ∈ cs, ¬ c.Concrete := by
      by_contra hn
      push Not at hn
      obtain ⟨r, hr⟩ := C96_no_crash_partial conv m t cs hn
      rw [hr] at h; cases h
    refine ⟨?_, hk⟩
    by_contra hn
    push Not at hn
    obtain ⟨h1, h2, h3⟩ := hn
    unfold getFallbacks at h
    simp [h1, h2, h3] at h
  · rintro ⟨hn, c, hc, hk⟩
    have hv : ∀ k, version conv m k cs = none := by
      intro k
      refine mapM_none hc ?_
      unfold fallback
      cases m with
      | direct => exact convert_not conv k hk
      | keepRgba =>
        simp only
        split
        · exact absurd trivial hk
        · exact convert_not conv k hk
      | keepFailed => exact absurd rfl hm
    unfold getFallbacks
    rw [hv, hv, hv]
    rcases hn with h | h | h
    · simp [h]
    · cases (needs t cs).rgb <;> simp [h]
    · cases (needs t cs).rgb <;> cases (needs t cs).p3 <;> simp [h]

/-- Chrome 90 as the only target. -/
def chrome90 : Targets := ⟨some (one .chrome (90 * 65536)), 0#32, 0#32⟩

/-- **C96, what goes wrong.** `text-shadow: 1px 1px lab(50% 0 0), 2px 2px` crashes for Chrome 90: the second shadow has the color `currentColor`. So does `linear-gradient(currentColor, lab(50% 0 0))`. -/
theorem C96_text_shadow : getFallbacks (fun _ _ v => v) .direct chrome90 [.leaf .lab (), .keyword cs!"currentcolor"] = none ∧
    getFallbacks (fun _ _ v => v) .keepRgba chrome90 [.keyword cs!"currentcolor", .leaf .lab ()] = none := by
  constructor
  · rw [C96_crash _ _ (by decide)]
    exact ⟨Or.inl (by decide), _, List.mem_cons_of_mem _ List.mem_cons_self, fun h => h⟩
  · rw [C96_crash _ _ (by decide)]
    exact ⟨Or.inl (by decide), _, List.mem_cons_self, fun h => h⟩

/-! ## C97: every target understands something -/

/-- **C97 (partial).** Every browser that is a target, in the asked version or a newer one, understands at least one of the values that are emitted. Features that are excluded, for example within `@supports`, are assumed
to be supported. Not covered: box shadows with a keyword inside of `light-dark()`; see `C97_box_shadow`. -/
theorem C97_covered_partial {V : Type} (conv : Kind → Space → V → V) (m : Mode) (t : Targets) (cs : List (Color V)) {res : List (List (Color V))} {last : List (Color V)}
    (h : getFallbacks conv m t cs = some (res, last)) (hm : m = .keepFailed → ∀ c ∈ cs, c.Plain) {b : Browser} {v : Nat} (ht : IsTarget t b v)
    (hx : ∀ f, ColorFeature f → Flagged t.excl f → Supports b v f) : ∃ x ∈ res ++ [last], UnderstandsAll b v x := by
  obtain ⟨r, p, rfl, hr, hp, hl⟩ := getFallbacks_some h
  have sup : ∀ f, ColorFeature f → compiles t f = false → Supports b v f := fun f hf hc => not_compiles hf hc ht (hx f hf)
  rcases hr with ⟨_, x, hvx, rfl⟩ | ⟨hr, rfl⟩
  · exact ⟨x, by simp, versions_understood (k := .rgb) trivial (version_forall₂ hm hvx)⟩
  · -- no color has the kind RGB
    have nrgb : ∀ c ∈ cs, ∀ s ∈ c.spaces, (kindsOf t s).rgb = false := by
      intro c hc s hs
      by_contra hn
      have hn : (kindsOf t s).rgb = true := by simpa using hn
      have : (needs t cs).rgb = true := by
        rw [needs_rgb]
        refine ⟨c, hc, ?_⟩
        unfold necessary
        rw [(necessary_bits _).1]
        refine ⟨(possible_rgb t c).2 ⟨s, hs, hn⟩, ?_⟩
        rcases (kindsOf_facts t s).1 hn with h | h
        · exact Or.inl ((possible_p3 t c).2 ⟨s, hs, h⟩)
        · exact Or.inr (Or.inl ((possible_lab t c).2 ⟨s, hs, h⟩))
      rw [this] at hr; cases hr
    rcases hp with ⟨hp, x, hvx, rfl⟩ | ⟨hp, rfl⟩
    · refine ⟨x, by simp, versions_understood (k := .p3) ?_ (version_forall₂ hm hvx)⟩
      rw [needs_p3] at hp
      obtain ⟨c, hc, hp⟩ := hp
      unfold necessary at hp
      rw [(necessary_bits _).2.1] at hp
      obtain ⟨s, hs, hsp⟩ := (possible_p3 t c).1 hp.1
      exact sup _ (Or.inr (Or.inr (Or.inl rfl))) ((kindsOf_facts t s).2.1 hsp (nrgb c hc s hs)).2
    · have np3 : ∀ c ∈ cs, ∀ s ∈ c.spaces, (kindsOf t s).p3 = false := by
        intro c hc s hs
        by_contra hn
        have hn : (kindsOf t s).p3 = true := by simpa using hn
        have : (needs t cs).p3 = true := by
          rw [needs_p3]
          refine ⟨c, hc, ?_⟩
          unfold necessary
          rw [(necessary_bits _).2.1]
          exact ⟨(possible_p3 t c).2 ⟨s, hs, hn⟩, Or.inl ((possible_lab t c).2 ⟨s, hs, ((kindsOf_facts t s).2.1 hn (nrgb c hc s hs)).1⟩)⟩
        rw [this] at hp; cases hp
      refine ⟨last, by simp, ?_⟩
      have labOf : ∀ c ∈ cs, ∀ s ∈ c.spaces, (kindsOf t s).lab = true → Supports b v .labColors := fun c hc s hs hsl =>
        sup _ (Or.inl rfl) ((kindsOf_facts t s).2.2.1 hsl (nrgb c hc s hs) (np3 c hc s hs))
      rcases hl with ⟨hl, hvl⟩ | ⟨hl, rfl⟩
      · refine versions_understood (k := .lab) ?_ (version_forall₂ hm hvl)
        rw [needs_lab] at hl
        obtain ⟨c, hc, hl⟩ := hl
        unfold necessary at hl
        rw [(necessary_bits _).2.2.1] at hl
        obtain ⟨s, hs, hsl⟩ := (possible_lab t c).1 hl.1
        exact labOf c hc s hs hsl
      · intro c hc
        rw [understands_spaces]
        intro s hs
        have nok : (kindsOf t s).oklab = false := by
          by_contra hn
          have hn : (kindsOf t s).oklab = true := by simpa using hn
          have : (needs t last).lab = true := by
            rw [needs_lab]
            refine ⟨c, hc, ?_⟩
            unfold necessary
            rw [(necessary_bits _).2.2.1]
            exact ⟨(possible_lab t c).2 ⟨s, hs, ((kindsOf_facts t s).2.2.2.1 hn).2⟩, (possible_oklab t c).2 ⟨s, hs, hn⟩⟩
          rw [this] at hl; cases hl
        obtain ⟨-, -, -, -, f5, f6, f7, f8⟩ := kindsOf_facts t s
        cases hlab : (kindsOf t s).lab with
        | true =>
          have lab := labOf c hc s hs hlab
          cases s with
          | rgba => trivial
          | float => trivial
          | lab => exact lab
          | oklab => exact absurd rfl (f5 hlab nok).1
          | p3 => exact sup _ (Or.inr (Or.inr (Or.inl rfl))) (f6 hlab rfl)
          | predefined => exact lab_color lab
        | false =>
          have e : kindsOf t s = .empty := by
            have h1 := nrgb c hc s hs
            have h2 := np3 c hc s hs
            revert h1 h2 nok hlab
            generalize kindsOf t s = k
            obtain ⟨k1, k2, k3, k4⟩ := k
            simp only [Kinds.empty, Kinds.mk.injEq]
            intro a b c d; exact ⟨c, d, b, a⟩
          obtain ⟨g1, g2, g3, g4⟩ := f7 e
          cases s with
          | rgba => trivial
          | float => trivial
          | lab => exact sup _ (Or.inl rfl) (g1 rfl)
          | oklab => exact sup _ (Or.inr (Or.inl rfl)) (g2 rfl)
          | p3 => exact sup _ (Or.inr (Or.inr (Or.inl rfl))) (g3 rfl)
          | predefined => exact sup _ (Or.inr (Or.inr (Or.inr rfl))) (g4 rfl)

/-- **C97, what goes wrong.** `box-shadow: 0 0 light-dark(currentColor, lab(50% 0 0))` is emitted twice for Chrome 90, which understands neither copy. -/
theorem C97_box_shadow : getFallbacks (fun _ _ v => v) .keepFailed chrome90 [.lightDark (.keyword cs!"currentcolor") (.leaf .lab ())] =
      some ([[.lightDark (.keyword cs!"currentcolor") (.leaf .lab ())]], [.lightDark (.keyword cs!"currentcolor") (.leaf .lab ())]) ∧
    IsTarget chrome90 .chrome (90 * 65536) ∧ ¬ UnderstandsAll .chrome (90 * 65536) [Color.lightDark (.keyword cs!"currentcolor") (.leaf .lab ())] := by
  refine ⟨by rfl, ⟨_, _, rfl, rfl, Nat.le_refl _⟩, fun h => ?_⟩
  have := (h _ List.mem_cons_self).2
  exact absurd this (by unfold Understands Notation Supports; decide)

/-! ## C98: the best one is used -/

/-- **C98.** A browser, target or not, that understands the colors of the original value understands the last value that is emitted, which it therefore uses; that value is the original one, or the original one
with colors converted to Lab, which loses nothing. -/
theorem C98_best {V : Type} (conv : Kind → Space → V → V) (m : Mode) (t : Targets) (cs : List (Color V)) {res : List (List (Color V))} {last : List (Color V)}
    (h : getFallbacks conv m t cs = some (res, last)) :
    (last = cs ∨ Versions conv .lab cs last) ∧ ∀ b v, UnderstandsAll b v cs → UnderstandsAll b v last := by
  obtain ⟨r, p, rfl, -, -, hl⟩ := getFallbacks_some h
  rcases hl with ⟨hl, hvl⟩ | ⟨-, rfl⟩
  · have hf := version_kept hvl
    refine ⟨Or.inr hf, fun b v hb => kept_understood (k := .lab) ?_ hf hb⟩
    rw [needs_lab] at hl
    obtain ⟨c, hc, hl⟩ := hl
    unfold necessary at hl
    rw [(necessary_bits _).2.2.1] at hl
    obtain ⟨s, hs, hso⟩ := (possible_oklab t c).1 hl.2
    have e := ((kindsOf_facts t s).2.2.2.1 hso).1
    subst e
    exact oklab_lab (understands_spaces.1 (hb c hc) _ hs)
  · exact ⟨Or.inl rfl, fun _ _ hb => hb⟩

/-! ## C99: nothing is added without need -/

theorem kindsOf_empty {t : Targets} {s : Space} (hi : ∀ f, ColorFeature f → ¬ Flagged t.incl f) (h : ∀ b v, IsTarget t b v → Notation b v s) : kindsOf t s = .empty := by
  have c0 : ∀ f, ColorFeature f → (∀ b v, IsTarget t b v → Supports b v f) → compiles t f = false := fun f hf hs => compiles_false hf (hi f hf) hs
  unfold kindsOf start
  cases s with
  | rgba => rfl
  | float => rfl
  | lab => simp [c0 .labColors (Or.inl rfl) h]
  | oklab => simp [c0 .oklabColors (Or.inr (Or.inl rfl)) h]
  | p3 =>
    simp [c0 .p3Colors (Or.inr (Or.inr (Or.inl rfl))) h, c0 .colorFunction (Or.inr (Or.inr (Or.inr rfl))) (fun b v hb => p3_color (h b v hb))]
  | predefined => simp [c0 .colorFunction (Or.inr (Or.inr (Or.inr rfl))) h]

/-- **C99.** If all targets understand the colors, and no feature is asked to be compiled nevertheless, nothing is added and the value is unchanged. -/
theorem C99_minimal {V : Type} (conv : Kind → Space → V → V) (m : Mode) (t : Targets) (cs : List (Color V)) (hi : ∀ f, ColorFeature f → ¬ Flagged t.incl f)
    (h : ∀ b v, IsTarget t b v → UnderstandsAll b v cs) : getFallbacks conv m t cs = some ([], cs) := by
  have e : ∀ c ∈ cs, ∀ s ∈ c.spaces, kindsOf t s = .empty := fun c hc s hs => kindsOf_empty hi fun b v hb => understands_spaces.1 (h b v hb c hc) s hs
  have n1 : (needs t cs).rgb = false := by
    rw [Bool.eq_false_iff, Ne, needs_rgb]
    rintro ⟨c, hc, hn⟩
    unfold necessary at hn
    rw [(necessary_bits _).1] at hn
    obtain ⟨s, hs, hk⟩ := (possible_rgb t c).1 hn.1
    rw [e c hc s hs] at hk; cases hk
  have n2 : (needs t cs).p3 = false := by
    rw [Bool.eq_false_iff, Ne, needs_p3]
    rintro ⟨c, hc, hn⟩
    unfold necessary at hn
    rw [(necessary_bits _).2.1] at hn
    obtain ⟨s, hs, hk⟩ := (possible_p3 t c).1 hn.1
    rw [e c hc s hs] at hk; cases hk
  have n3 : (needs t cs).lab = false := by
    rw [Bool.eq_false_iff, Ne, needs_lab]
    rintro ⟨c, hc, hn⟩
    unfold necessary at hn
    rw [(necessary_bits _).2.2.1] at hn
    obtain ⟨s, hs, hk⟩ := (possible_lab t c).1 hn.1
    rw [e c hc s hs] at hk; cases hk
  unfold getFallbacks
  simp [n1, n2, n3]

/-- The lowest versions of the targets: no target browser in the version that is asked for supports the feature. -/
def NoneSupports (t : Targets) (f : CompatFeature) : Prop := ∀ br b v, t.browsers = some br → br b = some v → ¬ Supports b v f

theorem partially_false {t : Targets} {f : CompatFeature} (h : NoneSupports t f) : partially t f = false := by
  unfold partially
  cases hb : t.browsers with
  | none => rfl
  | some br =>
    rw [Bool.eq_false_iff]
    intro hp
    unfold CompatFeature.isPartiallyCompatible at hp
    rw [List.any_eq_true] at hp
    obtain ⟨b, -, hb'⟩ := hp
    rw [Bool.and_eq_true, Option.isSome_iff_exists] at hb'
    obtain ⟨⟨v, hv⟩, hc⟩ := hb'
    refine h br b v hb hv ?_
    unfold Supports
    have e : br.only b = one b v := by
      funext x
      unfold Browsers.only one
      by_cases hx : x = b
      · subst hx; simp [hv]
      · simp [hx]
    rw [← e]
    exact hc

/-- **C99, no needless fallbacks of a kind.** If all targets understand Lab, values without Display P3 colors get no RGB and no P3 fallbacks. If all targets understand Display P3 and none understands Lab, no value gets an RGB fallback. -/
theorem C99_kinds {V : Type} (conv : Kind → Space → V → V) (m : Mode) (t : Targets) (cs : List (Color V)) {res : List (List (Color V))} {last : List (Color V)}
    (hi : ∀ f, ColorFeature f → ¬ Flagged t.incl f) (h : getFallbacks conv m t cs = some (res, last)) :
    ((∀ b v, IsTarget t b v → Supports b v .labColors) → (∀ c ∈ cs, .p3 ∉ c.spaces) → res = []) ∧
    ((∀ b v, IsTarget t b v → Supports b v .p3Colors) → NoneSupports t .labColors → res = [] ∨ ∃ p, res = [p] ∧ Versions conv .p3 cs p) := by
  have c0 : ∀ f, ColorFeature f → (∀ b v, IsTarget t b v → Supports b v f) → compiles t f = false := fun f hf hs => compiles_false hf (hi f hf) hs
  obtain ⟨r, p, rfl, hr, hp, -⟩ := getFallbacks_some h
  refine ⟨fun hl hn => ?_, fun h3 hl => ?_⟩
  · have cl := c0 .labColors (Or.inl rfl) hl
    have cc := c0 .colorFunction (Or.inr (Or.inr (Or.inr rfl))) fun b v hb => lab_color (hl b v hb)
    have k : ∀ s, s ≠ .p3 → (kindsOf t s).rgb = false ∧ (kindsOf t s).p3 = false := by
      intro s hs
      unfold kindsOf start reduce
      cases s <;> simp [cl, cc, Kinds.empty] at hs ⊢
      cases compiles t .oklabColors <;> simp
    have n1 : (needs t cs).rgb = false := by
      rw [Bool.eq_false_iff, Ne, needs_rgb]
      rintro ⟨c, hc, hn'⟩
      unfold necessary at hn'
      rw [(necessary_bits _).1] at hn'
      obtain ⟨s, hs, hk⟩ := (possible_rgb t c).1 hn'.1
      rw [(k s (fun e => hn c hc (e ▸ hs))).1] at hk; cases hk
    have n2 : (needs t cs).p3 = false := by
      rw [Bool.eq_false_iff, Ne, needs_p3]
      rintro ⟨c, hc, hn'⟩
      unfold necessary at hn'
      rw [(necessary_bits _).2.1] at hn'
      obtain ⟨s, hs, hk⟩ := (possible_p3 t c).1 hn'.1
      rw [(k s (fun e => hn c hc (e ▸ hs))).2] at hk; cases hk
    rw [n1] at hr; rw [n2] at hp
    rcases hr with ⟨e, -⟩ | ⟨-, rfl⟩
    · cases e
    rcases hp with ⟨e, -⟩ | ⟨-, rfl⟩
    · cases e
    rfl
  · have cp := c0 .p3Colors (Or.inr (Or.inr (Or.inl rfl))) h3
    have cc := c0 .colorFunction (Or.inr (Or.inr (Or.inr rfl))) fun b v hb => p3_color (h3 b v hb)
    have pl := partially_false hl
    have k : ∀ s, (kindsOf t s).rgb = false := by
      intro s
      unfold kindsOf start reduce
      cases s <;> simp [cp, cc, pl, Kinds.empty]
      · cases compiles t .labColors <;> simp
      · cases compiles t .oklabColors <;> cases compiles t .labColors <;> simp
    have n1 : (needs t cs).rgb = false := by
      rw [Bool.eq_false_iff, Ne, needs_rgb]
      rintro ⟨c, hc, hn'⟩
      unfold necessary at hn'
      rw [(necessary_bits _).1] at hn'
      obtain ⟨s, hs, hk⟩ := (possible_rgb t c).1 hn'.1
      rw [k s] at hk; cases hk
    rw [n1] at hr
    rcases hr with ⟨e, -⟩ | ⟨-, rfl⟩
    · cases e
    rcases hp with ⟨-, y, hy, rfl⟩ | ⟨-, rfl⟩
    · exact Or.inr ⟨y, rfl, version_kept hy⟩
    · exact Or.inl rfl

/-- Non-vacuity of `C99_kinds`: Safari 14, which supports Display P3 and not Lab, gets a P3 fallback only. -/
example : NoneSupports ⟨some (one .safari (14 * 65536)), 0#32, 0#32⟩ .labColors ∧
    getFallbacks (fun _ _ v => v) .keepRgba ⟨some (one .safari (14 * 65536)), 0#32, 0#32⟩ [.leaf .lab 1] = some ([[.leaf .p3 1]], [.leaf .lab 1]) := by
  refine ⟨?_, by rfl⟩
  intro br b v hb hv
  cases hb
  unfold one at hv
  split at hv
  · cases hv
    rename_i e; subst e
    unfold Supports; decide
  · cases hv

/-! ## C100: the values that are added -/

/-- **C100.** The values that are added are the original value with its colors in sRGB, and then with its colors in Display P3, each at most once: each color is converted from the color at the same place. -/
theorem C100_versions {V : Type} (conv : Kind → Space → V → V) (m : Mode) (t : Targets) (cs : List (Color V)) {res : List (List (Color V))} {last : List (Color V)}
    (h : getFallbacks conv m t cs = some (res, last)) :
    res = [] ∨ (∃ r, res = [r] ∧ Versions conv .rgb cs r) ∨ (∃ p, res = [p] ∧ Versions conv .p3 cs p) ∨
      ∃ r p, res = [r, p] ∧ Versions conv .rgb cs r ∧ Versions conv .p3 cs p := by
  obtain ⟨r, p, rfl, hr, hp, -⟩ := getFallbacks_some h
  rcases hr with ⟨-, x, hx, rfl⟩ | ⟨-, rfl⟩ <;> rcases hp with ⟨-, y, hy, rfl⟩ | ⟨-, rfl⟩
  · exact Or.inr (Or.inr (Or.inr ⟨x, y, rfl, version_kept hx, version_kept hy⟩))
  · exact Or.inr (Or.inl ⟨x, rfl, version_kept hx⟩)
  · exact Or.inr (Or.inr (Or.inl ⟨y, rfl, version_kept hy⟩))
  · exact Or.inl rfl

/-- Chrome 90, Safari 14 and Firefox 100 as targets. -/
def mixed : Targets := ⟨some (fun b => match b with | .chrome => some (90 * 65536) | .safari => some (14 * 65536) | .firefox => some (100 * 65536) | _ => none), 0#32, 0#32⟩

/-- Non-vacuity of C97–C100: `oklch()` next to `red` for Chrome 90, Safari 14 and Firefox 100 gives an RGB, a P3 and a Lab value. For Safari 14 the P3 value is the best one. -/
example : getFallbacks (fun _ _ v => v) .keepRgba mixed [.leaf .oklab 1, .leaf .rgba 2] =
      some ([[.leaf .rgba 1, .leaf .rgba 2], [.leaf .p3 1, .leaf .rgba 2]], [.leaf .lab 1, .leaf .rgba 2]) ∧
    IsTarget mixed .safari (14 * 65536) ∧ UnderstandsAll .safari (14 * 65536) [Color.leaf .p3 1, .leaf .rgba 2] ∧
    UnderstandsAll .chrome (120 * 65536) [Color.leaf .oklab 1, .leaf .rgba 2] := by
  refine ⟨by rfl, ⟨_, _, rfl, rfl, Nat.le_refl _⟩, ?_, ?_⟩ <;>
  · intro c hc
    simp only [List.mem_cons, List.not_mem_nil, or_false] at hc
    rcases hc with rfl | rfl
    · unfold Understands Notation Supports; decide
    · trivial

end Verif.Fallback
