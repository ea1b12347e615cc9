import Verif.Shorthand.Ease
/-!
`animation`, `animation-range`, `transition`: printing and reading.
-/
namespace Verif.Shorthand

theorem tryOne_none {α} {slot : Option α} {p : Parser α} {i} (h : p i = none) : tryOne slot p i = none := by
  cases slot <;> simp [tryOne, h]

theorem tryOne_some {α} (v : α) (p : Parser α) (i) : tryOne (some v) p i = none := rfl

theorem tryOne_ws {α} (slot : Option α) (p : Parser α) (i) (h : p (.ws :: i) = p i) :
    tryOne slot p (.ws :: i) = tryOne slot p i := by
  cases slot <;> simp [tryOne, h]

/-! ### First tokens -/

theorem Plain.easing_none {α V N} {c : Codec α} {sem : α → V} (P : Plain c sem) (p : EasingParts N) (a r) :
    Easing.parse p (c.print a ++ r) = none := by
  obtain ⟨t, l, e, h⟩ := P.first a
  rw [e]
  rcases h with ⟨s, rfl⟩ | ⟨f, rfl, hf⟩
  · rfl
  · have h1 : lower f ≠ cs!"cubic-bezier" := fun h => hf (h ▸ by decide)
    have h2 : lower f ≠ cs!"steps" := fun h => hf (h ▸ by decide)
    simp only [List.cons_append, Easing.parse, next, h1, h2, if_false]

/-- The first token of an easing function: one of its keywords, or one of its two functions. -/
theorem Easing.first {N} [DecidableEq N] (p : EasingParts N) (m : Bool) (e : Easing N) :
    ∃ t l, e.print p m = t :: l ∧ ((∃ s ∈ easingKeywords, t = .ident s) ∨
      t = .func cs!"cubic-bezier" ∨ t = .func cs!"steps") := by
  cases e with
  | linear => exact ⟨_, _, rfl, .inl ⟨_, by decide, rfl⟩⟩
  | ease => exact ⟨_, _, rfl, .inl ⟨_, by decide, rfl⟩⟩
  | easeIn => exact ⟨_, _, rfl, .inl ⟨_, by decide, rfl⟩⟩
  | easeOut => exact ⟨_, _, rfl, .inl ⟨_, by decide, rfl⟩⟩
  | easeInOut => exact ⟨_, _, rfl, .inl ⟨_, by decide, rfl⟩⟩
  | cubicBezier x1 y1 x2 y2 =>
    simp only [print]
    split
    · exact ⟨_, _, rfl, .inl ⟨_, by decide, rfl⟩⟩
    · split
      · exact ⟨_, _, rfl, .inl ⟨_, by decide, rfl⟩⟩
      · split
        · exact ⟨_, _, rfl, .inl ⟨_, by decide, rfl⟩⟩
        · split
          · exact ⟨_, _, rfl, .inl ⟨_, by decide, rfl⟩⟩
          · exact ⟨_, _, rfl, .inr (.inl rfl)⟩
  | steps n s =>
    simp only [print]
    split
    · exact ⟨_, _, rfl, .inl ⟨_, by decide, rfl⟩⟩
    · split
      · exact ⟨_, _, rfl, .inl ⟨_, by decide, rfl⟩⟩
      · exact ⟨_, _, rfl, .inr (.inr rfl)⟩

theorem Plain.on_easing {α V N} [DecidableEq N] {c : Codec α} {sem : α → V} (P : Plain c sem)
    (p : EasingParts N) (m : Bool) (e : Easing N) (r) : c.parse (e.print p m ++ r) = none := by
  obtain ⟨t, l, et, h⟩ := e.first p m
  rw [et]
  rcases h with ⟨s, _, rfl⟩ | rfl | rfl
  · exact P.no_ident _ _
  · exact P.no_func _ _ (by decide)
  · exact P.no_func _ _ (by decide)

theorem Easing.ident_none {N} (p : EasingParts N) {s r} (h : lower s ∉ easingKeywords) :
    Easing.parse p (.ident s :: r) = none := by
  simp only [easingKeywords, List.mem_cons, List.not_mem_nil, or_false, not_or] at h
  simp [Easing.parse, next, Easing.ofKeyword, h]

theorem Count.back {N V} {num : Codec N} {sem : N → V} (H : Plain num sem) (c : Count N) (r) :
    ∃ c', Count.parse num (c.print num ++ r) = some (c', r) ∧ c'.map sem = c.map sem := by
  cases c with
  | number n =>
    obtain ⟨n', e, h⟩ := H.back n r
    exact ⟨.number n', by simp [parse, print, e], by simp [map, h]⟩
  | infinite =>
    refine ⟨.infinite, ?_, rfl⟩
    simp only [parse, print, List.cons_append, List.nil_append, H.no_ident]
    rfl

theorem Count.sep {N V} {num : Codec N} {sem : N → V} (H : Plain num sem) (c : Count N) :
    Separated (c.print num) := by
  cases c with
  | number n => exact H.sep n
  | infinite => trivial

theorem Count.ident_none {N V} {num : Codec N} {sem : N → V} (H : Plain num sem) {s r}
    (h : lower s ≠ cs!"infinite") : Count.parse num (.ident s :: r) = none := by
  simp [parse, H.no_ident, expectIdent, next, h]

theorem Count.ends {N V} {num : Codec N} {sem : N → V} (H : Plain num sem) {r} (h : Ends r) :
    Count.parse num r = none := by
  simp [parse, H.stop r h, expectIdent_ends h]

theorem Count.parse_ws {N V} {num : Codec N} {sem : N → V} (H : Plain num sem) (i) :
    Count.parse num (.ws :: i) = Count.parse num i := by
  simp only [parse, H.skip]; rfl

theorem AnimName.parse_ws (i) : AnimName.parse (.ws :: i) = AnimName.parse i := rfl

theorem AnimName.ends {r} (h : Ends r) : AnimName.parse r = Option.none := by
  rcases h with rfl | ⟨l, rfl | rfl⟩ <;> rfl

theorem Timeline.parse_ws {T V} {lp : Codec T} {sem : T → V} (_H : Plain lp sem) (i) :
    Timeline.parse lp (.ws :: i) = Timeline.parse lp i := rfl

theorem Timeline.ends {T} (lp : Codec T) {r} (h : Ends r) :
    Timeline.parse lp r = Option.none := by
  rcases h with rfl | ⟨l, rfl | rfl⟩ <;> rfl

theorem lower_dashes (l : Str) : lower ('-' :: '-' :: l) = '-' :: '-' :: lower l := rfl

theorem Timeline.back {T V} [DecidableEq T] {lp : Codec T} {sem : T → V} (H : Plain lp sem) (t : Timeline T)
    (ht : t.Ok) (r) :
    ∃ t', Timeline.parse lp (t.print lp ++ r) = some (t', r) ∧ t'.map sem = t.map sem := by
  cases t with
  | auto => exact ⟨.auto, rfl, rfl⟩
  | none => exact ⟨.none, rfl, rfl⟩
  | dashed s =>
    obtain ⟨l, rfl⟩ := ht
    refine ⟨.dashed _, ?_, rfl⟩
    have h1 : '-' :: '-' :: lower l ≠ cs!"auto" := by intro h; cases h
    have h2 : '-' :: '-' :: lower l ≠ cs!"none" := by intro h; cases h
    simp [print, parse, next, lower_dashes, parseDashed]
  | scroll s =>
    refine ⟨.scroll s, ?_, rfl⟩
    have h1 : ∃ l, s.print = .func cs!"scroll" :: l := ⟨_, rfl⟩
    obtain ⟨l, el⟩ := h1
    have := (C63_scroll s r).1
    simp only [print, parse, this]
    rw [el]; rfl
  | view v =>
    obtain ⟨⟨v', e, h⟩, -⟩ := C63_view lp sem H v r
    refine ⟨.view v', ?_, by simp [map, h]⟩
    have h1 : ∃ l, v.print lp = .func cs!"view" :: l := ⟨_, rfl⟩
    obtain ⟨l, el⟩ := h1
    simp only [print, parse, e]
    rw [el]; rfl

theorem Timeline.sep {T V} [DecidableEq T] {lp : Codec T} {sem : T → V} (H : Plain lp sem) (t : Timeline T) :
    Separated (t.print lp) := by
  cases t with
  | scroll s => exact (C63_scroll s []).2
  | view v => exact (C63_view lp sem H v []).2
  | _ => trivial

/-! ### Parts of a loop -/

/-- White space before a part. -/
def Ws (w : List Tok) : Prop := w = [] ∨ w = [.ws]

/-- One optional part of a shorthand: it is printed with a space after it if `c` holds. -/
theorem opt_part {σ α} {step : σ → List Tok → σ × List Tok × Bool}
    (hws : ∀ s i, (step s i).2.2 = true → step s (.ws :: i) = step s i)
    {c : Prop} [Decidable c] (P x : List Tok) {w : List Tok} (hw : Ws w) (s : σ) (upd : α → σ) (ok : α → Prop)
    (h : c → ∃ v, ok v ∧ step s (P ++ .ws :: x) = (upd v, .ws :: x, true)) :
    ∃ n, n ≤ 1 ∧ ∃ w', Ws w' ∧ ∃ o : Option α, (c → ∃ v, o = some v ∧ ok v) ∧ (¬c → o = none) ∧
      Reach step n s (w ++ ((if c then P ++ [.ws] else []) ++ x)) (o.elim s upd) (w' ++ x) := by
  by_cases hc : c
  · obtain ⟨v, hv, e⟩ := h hc
    refine ⟨1, by omega, [.ws], .inr rfl, some v, fun _ => ⟨v, rfl, hv⟩, fun h => absurd hc h, ?_⟩
    simp only [hc, if_true, List.append_assoc, List.cons_append, List.nil_append, Option.elim]
    apply Reach.one
    rcases hw with rfl | rfl
    · exact e
    · show step s (.ws :: (P ++ .ws :: x)) = _
      rw [hws _ _ (by rw [e]), e]
  · refine ⟨0, by omega, w, hw, none, fun h => absurd h hc, fun _ => rfl, ?_⟩
    simp only [hc, if_false, List.nil_append, Option.elim]
    exact .refl _ _

theorem Animation.step_ws {M N T U V W} {p : AnimParts M N T} {time : M → U} {num : N → V} {h : Nat → V}
    {lp : T → W} (H : AnimLaw p time num h lp) (s : AnimSlots M N T) (i)
    (e : (Animation.step p s i).2.2 = true) : Animation.step p s (.ws :: i) = Animation.step p s i := by
  have e1 := fun slot => tryOne_ws slot p.time.parse i (H.times.skip i)
  have e2 := fun slot => tryOne_ws slot (Easing.parse p.easing) i rfl
  have e3 := fun slot => tryOne_ws slot (Count.parse p.easing.num) i (Count.parse_ws H.easings.numbers i)
  have e4 := fun slot => tryOne_ws slot (Kw.parse (α := Direction)) i rfl
  have e5 := fun slot => tryOne_ws slot (Kw.parse (α := FillMode)) i rfl
  have e6 := fun slot => tryOne_ws slot (Kw.parse (α := PlayState)) i rfl
  have e7 := fun slot => tryOne_ws slot AnimName.parse i rfl
  have e8 := fun slot => tryOne_ws slot (Timeline.parse p.lp) i rfl
  simp only [Animation.step, e1, e2, e3, e4, e5, e6, e7, e8] at e ⊢
  split
  · rfl
  split
  · rfl
  split
  · rfl
  split
  · rfl
  split
  · rfl
  split
  · rfl
  split
  · rfl
  split
  · rfl
  split
  · rfl
  · simp_all

theorem easingKeywords_isIdent (s : Str) : Easing.isIdent s = true ↔ s ∈ easingKeywords := by
  simp [Easing.isIdent, easingKeywords]

theorem Count.on_ident {N V} {num : Codec N} {sem : N → V} (H : Plain num sem) {s r} (h : lower s ≠ cs!"infinite") :
    Count.parse num (.ident s :: r) = none := Count.ident_none H h

theorem Count.first {N V} {num : Codec N} {sem : N → V} (H : Plain num sem) (c : Count N) :
    ∃ t l, c.print num = t :: l ∧
      ((∃ s, t = .other s) ∨ (∃ f, t = .func f ∧ lower f ∉ otherFunctions) ∨ t = .ident cs!"infinite") := by
  cases c with
  | number n =>
    obtain ⟨t, l, e, h⟩ := H.first n
    exact ⟨t, l, e, h.elim .inl (fun h => .inr (.inl h))⟩
  | infinite => exact ⟨_, _, rfl, .inr (.inr rfl)⟩

section
variable {M N T U V W : Type} {p : AnimParts M N T} {time : M → U} {num : N → V} {h : Nat → V} {lp : T → W}

/-- Reading a keyword that is not one of an easing function or `infinite`: the slots before the direction
do not take it. -/
theorem Animation.front_none (H : AnimLaw p time num h lp) {k : Str} (h1 : lower k ∉ easingKeywords)
    (h2 : lower k ≠ cs!"infinite") (x) :
    p.time.parse (.ident k :: x) = none ∧ Easing.parse p.easing (.ident k :: x) = none ∧
    Count.parse p.easing.num (.ident k :: x) = none :=
  ⟨H.times.no_ident _ _, Easing.ident_none _ h1, Count.ident_none H.easings.numbers h2⟩

theorem Animation.read_direction (H : AnimLaw p time num h lp) (s : AnimSlots M N T) (hs : s.direction = none)
    (d : Direction) (x) :
    Animation.step p s (Kw.print d ++ x) = ({ s with direction := some d }, x, true) := by
  obtain ⟨e1, e2, e3⟩ := front_none H (k := Kw.name d) (x := x) (by cases d <;> decide) (by cases d <;> decide)
  simp only [step, Kw.print, List.cons_append, List.nil_append, tryOne_none e1, tryOne_none e2, tryOne_none e3, hs]
  simp [tryOne, kw_back']

theorem Animation.read_fill (H : AnimLaw p time num h lp) (s : AnimSlots M N T) (hs : s.fill = none)
    (d : FillMode) (x) :
    Animation.step p s (Kw.print d ++ x) = ({ s with fill := some d }, x, true) := by
  obtain ⟨e1, e2, e3⟩ := front_none H (k := Kw.name d) (x := x) (by cases d <;> decide) (by cases d <;> decide)
  have e4 : (Kw.parse : Parser Direction) (.ident (Kw.name d) :: x) = none := by cases d <;> rfl
  simp only [step, Kw.print, List.cons_append, List.nil_append, tryOne_none e1, tryOne_none e2, tryOne_none e3,
    tryOne_none e4, hs]
  simp [tryOne, kw_back']

theorem Animation.read_play (H : AnimLaw p time num h lp) (s : AnimSlots M N T) (hs : s.play = none)
    (d : PlayState) (x) :
    Animation.step p s (Kw.print d ++ x) = ({ s with play := some d }, x, true) := by
  obtain ⟨e1, e2, e3⟩ := front_none H (k := Kw.name d) (x := x) (by cases d <;> decide) (by cases d <;> decide)
  have e4 : (Kw.parse : Parser Direction) (.ident (Kw.name d) :: x) = none := by cases d <;> rfl
  have e5 : (Kw.parse : Parser FillMode) (.ident (Kw.name d) :: x) = none := by cases d <;> rfl
  simp only [step, Kw.print, List.cons_append, List.nil_append, tryOne_none e1, tryOne_none e2, tryOne_none e3,
    tryOne_none e4, tryOne_none e5, hs]
  simp [tryOne, kw_back']

theorem Animation.read_count (H : AnimLaw p time num h lp) (s : AnimSlots M N T) (hs : s.count = none)
    (c : Count N) (x) : ∃ c', c'.map num = c.map num ∧
    Animation.step p s (c.print p.easing.num ++ x) = ({ s with count := some c' }, x, true) := by
  obtain ⟨c', e, hc⟩ := Count.back H.easings.numbers c x
  refine ⟨c', hc, ?_⟩
  have e1 : p.time.parse (c.print p.easing.num ++ x) = none := by
    cases c with
    | number n => exact H.apart n x
    | infinite => exact H.times.no_ident _ _
  have e2 : Easing.parse p.easing (c.print p.easing.num ++ x) = none := by
    cases c with
    | number n => exact H.easings.numbers.easing_none _ _ _
    | infinite => rfl
  simp only [step, tryOne_none e1, tryOne_none e2, hs]
  simp [tryOne, e]

theorem Animation.read_delay (H : AnimLaw p time num h lp) (s : AnimSlots M N T) (hs : s.delay = none)
    {d0 : M} (hd : s.duration = some d0) (d : M) (x) : ∃ d', time d' = time d ∧
    Animation.step p s (p.time.print d ++ x) = ({ s with delay := some d' }, x, true) := by
  obtain ⟨d', e, hc⟩ := H.times.back d x
  refine ⟨d', hc, ?_⟩
  have e2 : Easing.parse p.easing (p.time.print d ++ x) = none := H.times.easing_none _ _ _
  simp only [step, hd, tryOne_some, tryOne_none e2, hs]
  simp [tryOne, e]

theorem Animation.read_timing [DecidableEq N] (H : AnimLaw p time num h lp) (s : AnimSlots M N T)
    (hs : s.timing = none) (m : Bool) (f : Easing N) (x) : ∃ f', f'.curve num h = f.curve num h ∧
    Animation.step p s (f.print p.easing m ++ x) = ({ s with timing := some f' }, x, true) := by
  obtain ⟨⟨f', e, hc⟩, -⟩ := C66_easing p.easing num h H.easings m f x
  refine ⟨f', hc, ?_⟩
  have e1 := H.times.on_easing p.easing m f x
  simp only [step, tryOne_none e1, hs]
  simp [tryOne, e]

theorem Animation.read_duration (H : AnimLaw p time num h lp) (d : M) (x) : ∃ d', time d' = time d ∧
    Animation.step p ({} : AnimSlots M N T) (p.time.print d ++ x) = ({ duration := some d' }, x, true) := by
  obtain ⟨d', e, hc⟩ := H.times.back d x
  exact ⟨d', hc, by simp [step, tryOne, e]⟩

/-- Where nothing is left to read. -/
theorem Animation.stop (H : AnimLaw p time num h lp) (s : AnimSlots M N T) {r} (hr : Ends r) :
    Animation.step p s r = (s, r, false) := by
  simp only [step, tryOne_none (H.times.stop r hr), tryOne_none (Easing.ends p.easing hr),
    tryOne_none (Count.ends H.easings.numbers hr), tryOne_none (kw_ends (α := Direction) hr),
    tryOne_none (kw_ends (α := FillMode) hr), tryOne_none (kw_ends (α := PlayState) hr),
    tryOne_none (AnimName.ends hr), tryOne_none (Timeline.ends p.lp hr)]

/-- A keyword of the time line or name: the slots that are empty do not take it. -/
theorem Animation.read_timeline [DecidableEq T] (H : AnimLaw p time num h lp) (s : AnimSlots M N T)
    {n0 : AnimName} (hn : s.name = some n0) (hs : s.timeline = none) (t : Timeline T) (ht : t.Ok)
    (hf : t = .none → s.fill ≠ none) (x) : ∃ t', t'.map lp = t.map lp ∧
    Animation.step p s (t.print p.lp ++ x) = ({ s with timeline := some t' }, x, true) := by
  obtain ⟨t', e, hc⟩ := Timeline.back H.lengths t ht x
  refine ⟨t', hc, ?_⟩
  have func : ∀ f l, lower f ∈ [cs!"scroll", cs!"view"] →
      p.time.parse (.func f :: l) = none ∧ Easing.parse p.easing (.func f :: l) = none ∧
      Count.parse p.easing.num (.func f :: l) = none ∧ (Kw.parse : Parser Direction) (.func f :: l) = none ∧
      (s.fill = none → (Kw.parse : Parser FillMode) (.func f :: l) = none) ∧
      (Kw.parse : Parser PlayState) (.func f :: l) = none := by
    intro f l hf
    have ho : lower f ∈ otherFunctions := by
      simp only [List.mem_cons, List.not_mem_nil, or_false] at hf
      rcases hf with h | h <;> (rw [h]; decide)
    refine ⟨H.times.no_func _ _ ho, ?_, ?_, rfl, fun _ => rfl, rfl⟩
    · have h1 : lower f ≠ cs!"cubic-bezier" := by rintro h; rw [h] at hf; revert hf; decide
      have h2 : lower f ≠ cs!"steps" := by rintro h; rw [h] at hf; revert hf; decide
      simp only [Easing.parse, next, h1, h2, if_false]
    · simp [Count.parse, H.easings.numbers.no_func _ _ ho, expectIdent, next]
  have key : p.time.parse (t.print p.lp ++ x) = none ∧ Easing.parse p.easing (t.print p.lp ++ x) = none ∧
      Count.parse p.easing.num (t.print p.lp ++ x) = none ∧
      (Kw.parse : Parser Direction) (t.print p.lp ++ x) = none ∧
      (s.fill = none → (Kw.parse : Parser FillMode) (t.print p.lp ++ x) = none) ∧
      (Kw.parse : Parser PlayState) (t.print p.lp ++ x) = none := by
    cases t with
    | auto =>
      obtain ⟨e1, e2, e3⟩ := front_none H (k := cs!"auto") (x := x) (by decide) (by decide)
      exact ⟨e1, e2, e3, rfl, fun _ => rfl, rfl⟩
    | none =>
      obtain ⟨e1, e2, e3⟩ := front_none H (k := cs!"none") (x := x) (by decide) (by decide)
      exact ⟨e1, e2, e3, rfl, fun h => absurd h (hf rfl), rfl⟩
    | dashed k =>
      obtain ⟨l, rfl⟩ := ht
      obtain ⟨e1, e2, e3⟩ := front_none H (k := '-' :: '-' :: l) (x := x)
        (by simp [lower_dashes, easingKeywords]) (by simp [lower_dashes])
      exact ⟨e1, e2, e3, kw_ident_none (by simp [Kw.isIdent, Kw.all, Kw.name, lower_dashes]),
        fun _ => kw_ident_none (by simp [Kw.isIdent, Kw.all, Kw.name, lower_dashes]),
        kw_ident_none (by simp [Kw.isIdent, Kw.all, Kw.name, lower_dashes])⟩
    | scroll v => exact func cs!"scroll" _ (by decide)
    | view v => exact func cs!"view" _ (by decide)
  obtain ⟨e1, e2, e3, e4, e5, e6⟩ := key
  have e5' : tryOne s.fill Kw.parse (t.print p.lp ++ x) = none := by
    cases hfill : s.fill with
    | none => exact tryOne_none (e5 hfill)
    | some v => rfl
  simp only [step, tryOne_none e1, tryOne_none e2, tryOne_none e3, tryOne_none e4, e5', tryOne_none e6, hn, hs,
    tryOne_some]
  simp [tryOne, e]

/-- What a name must be like, given the slots that are filled. -/
theorem Animation.read_name (H : AnimLaw p time num h lp) (s : AnimSlots M N T) (hs : s.name = none)
    (n : AnimName) (k : Str) (hk : n.key = some k)
    (hi : n = .ident k → lower k ∉ [cs!"none", cs!"initial", cs!"inherit", cs!"unset", cs!"default",
      cs!"revert", cs!"revert-layer"])
    (h1 : s.timing = none → lower k ∉ easingKeywords) (h2 : s.count = none → lower k ≠ cs!"infinite")
    (h3 : s.direction = none → Kw.isIdent Direction k = false)
    (h4 : s.fill = none → lower k ≠ cs!"none" → Kw.isIdent FillMode k = false)
    (h5 : s.play = none → Kw.isIdent PlayState k = false) (x) : ∃ n', n'.key = n.key ∧
    Animation.step p s (n.print ++ x) = ({ s with name := some n' }, x, true) := by
  have id : lower k ∉ [cs!"none", cs!"initial", cs!"inherit", cs!"unset", cs!"default",
      cs!"revert", cs!"revert-layer"] →
      Animation.step p s (.ident k :: x) = ({ s with name := some (.ident k) }, x, true) := by
    intro hk
    simp only [List.mem_cons, List.not_mem_nil, or_false, not_or] at hk
    have e2 : tryOne s.timing (Easing.parse p.easing) (.ident k :: x) = none := by
      cases hh : s.timing with
      | none => exact tryOne_none (Easing.ident_none _ (h1 hh))
      | some v => rfl
    have e3 : tryOne s.count (Count.parse p.easing.num) (.ident k :: x) = none := by
      cases hh : s.count with
      | none => exact tryOne_none (Count.ident_none H.easings.numbers (h2 hh))
      | some v => rfl
    have e4 : tryOne s.direction Kw.parse (.ident k :: x) = none := by
      cases hh : s.direction with
      | none => exact tryOne_none (kw_ident_none (h3 hh))
      | some v => rfl
    have e5 : tryOne s.fill Kw.parse (.ident k :: x) = none := by
      cases hh : s.fill with
      | none => exact tryOne_none (kw_ident_none (h4 hh hk.1))
      | some v => rfl
    have e6 : tryOne s.play Kw.parse (.ident k :: x) = none := by
      cases hh : s.play with
      | none => exact tryOne_none (kw_ident_none (h5 hh))
      | some v => rfl
    have e7 : AnimName.parse (.ident k :: x) = some (.ident k, x) := by
      simp [AnimName.parse, expectIdent, next, parseCustomIdent, hk]
    simp only [step, tryOne_none (H.times.no_ident k x), e2, e3, e4, e5, e6, hs]
    simp [tryOne, e7]
  cases n with
  | none => cases hk
  | ident s' => cases hk; exact ⟨.ident k, rfl, id (hi rfl)⟩
  | string s' =>
    cases hk
    simp only [AnimName.print]
    split
    · refine ⟨.string k, rfl, ?_⟩
      have ec : Count.parse p.easing.num (.str k :: x) = none := by
        simp [Count.parse, H.easings.numbers.no_str, expectIdent, next]
      have e2 : Easing.parse p.easing (.str k :: x) = none := rfl
      have e4 : (Kw.parse : Parser Direction) (.str k :: x) = none := rfl
      have e5 : (Kw.parse : Parser FillMode) (.str k :: x) = none := rfl
      have e6 : (Kw.parse : Parser PlayState) (.str k :: x) = none := rfl
      have e7 : AnimName.parse (.str k :: x) = some (.string k, x) := rfl
      simp only [List.cons_append, List.nil_append, step, tryOne_none (H.times.no_str k x), tryOne_none e2,
        tryOne_none ec, tryOne_none e4, tryOne_none e5, tryOne_none e6, hs]
      simp [tryOne, e7]
    · rename_i hk
      exact ⟨.ident k, rfl, id hk⟩

end

/-- The front part and what is read of it. -/
theorem Animation.front_read {M N T U V W} [DecidableEq N] {p : AnimParts M N T} {time : M → U} {num : N → V}
    {h : Nat → V} {lp : T → W} (H : AnimLaw p time num h lp) (m : Bool) (a : Animation M N T) (k : Str)
    (x : List Tok) :
    ∃ n, n ≤ 7 ∧ ∃ w, Ws w ∧ ∃ s : AnimSlots M N T,
      Reach (Animation.step p) n {} (a.front p m k ++ x) s (w ++ x) ∧
      s.name = none ∧ s.timeline = none ∧
      time (s.duration.getD p.zero) = time a.duration ∧
      time (s.delay.getD p.zero) = time a.delay ∧
      (s.timing.getD .ease).curve num h = a.timing.curve num h ∧
      (s.count.getD (.number (p.easing.lit 100))).map num = a.count.map num ∧
      s.direction.getD .normal = a.direction ∧ s.fill.getD .none = a.fill ∧ s.play.getD .running = a.play ∧
      (s.timing = none → Easing.isIdent k = false) ∧ (s.count = none → k ≠ cs!"infinite") ∧
      (s.direction = none → Kw.isIdent Direction k = false) ∧
      (s.fill = none → a.fill = .none ∧ (lower k ≠ cs!"none" → Kw.isIdent FillMode k = false)) ∧
      (s.play = none → Kw.isIdent PlayState k = false) := by
  have hws := Animation.step_ws H
  simp only [Animation.front, List.append_assoc]
  obtain ⟨n1, hn1, w1, hw1, o1, h1, h1', r1⟩ := opt_part hws
    (c := (!p.isZero a.duration || !p.isZero a.delay) = true) (p.time.print a.duration) (hw := .inl rfl)
    (s := ({} : AnimSlots M N T)) (upd := fun v => { duration := some v }) (ok := fun v => time v = time a.duration)
    (h := fun _ => Animation.read_duration H _ _) (x := _)
  rw [show o1.elim ({} : AnimSlots M N T) (fun v => { duration := some v }) = { duration := o1 } from by
    cases o1 <;> rfl] at r1
  obtain ⟨n2, hn2, w2, hw2, o2, h2, h2', r2⟩ := opt_part hws
    (c := (!a.timing.isEase p.easing || Easing.isIdent k) = true) (a.timing.print p.easing m) (hw := hw1)
    (s := ({ duration := o1 } : AnimSlots M N T)) (upd := fun v => { duration := o1, timing := some v })
    (ok := fun v => v.curve num h = a.timing.curve num h)
    (h := fun _ => Animation.read_timing H _ rfl _ _ _) (x := _)
  rw [show o2.elim ({ duration := o1 } : AnimSlots M N T) (fun v => { duration := o1, timing := some v }) =
    { duration := o1, timing := o2 } from by cases o2 <;> rfl] at r2
  obtain ⟨n3, hn3, w3, hw3, o3, h3, h3', r3⟩ := opt_part hws
    (c := (!p.isZero a.delay) = true) (p.time.print a.delay) (hw := hw2)
    (s := ({ duration := o1, timing := o2 } : AnimSlots M N T))
    (upd := fun v => { duration := o1, timing := o2, delay := some v })
    (ok := fun v => time v = time a.delay)
    (h := fun hc => by
      obtain ⟨v, hv, _⟩ := h1 (by simp at hc ⊢; exact .inr hc)
      exact Animation.read_delay H _ rfl (d0 := v) hv _ _) (x := _)
  rw [show o3.elim ({ duration := o1, timing := o2 } : AnimSlots M N T)
      (fun v => { duration := o1, timing := o2, delay := some v }) =
    { duration := o1, timing := o2, delay := o3 } from by cases o3 <;> rfl] at r3
  obtain ⟨n4, hn4, w4, hw4, o4, h4, h4', r4⟩ := opt_part hws
    (c := a.count ≠ .number (p.easing.lit 100) ∨ k = cs!"infinite") (a.count.print p.easing.num) (hw := hw3)
    (s := ({ duration := o1, timing := o2, delay := o3 } : AnimSlots M N T))
    (upd := fun v => { duration := o1, timing := o2, delay := o3, count := some v })
    (ok := fun v => v.map num = a.count.map num)
    (h := fun _ => Animation.read_count H _ rfl _ _) (x := _)
  rw [show o4.elim ({ duration := o1, timing := o2, delay := o3 } : AnimSlots M N T)
      (fun v => { duration := o1, timing := o2, delay := o3, count := some v }) =
    { duration := o1, timing := o2, delay := o3, count := o4 } from by cases o4 <;> rfl] at r4
  obtain ⟨n5, hn5, w5, hw5, o5, h5, h5', r5⟩ := opt_part hws
    (c := a.direction ≠ .normal ∨ Kw.isIdent Direction k = true) (Kw.print a.direction) (hw := hw4)
    (s := ({ duration := o1, timing := o2, delay := o3, count := o4 } : AnimSlots M N T))
    (upd := fun v => { duration := o1, timing := o2, delay := o3, count := o4, direction := some v })
    (ok := fun v => v = a.direction)
    (h := fun _ => ⟨_, rfl, Animation.read_direction H _ rfl _ _⟩) (x := _)
  rw [show o5.elim ({ duration := o1, timing := o2, delay := o3, count := o4 } : AnimSlots M N T)
      (fun v => { duration := o1, timing := o2, delay := o3, count := o4, direction := some v }) =
    { duration := o1, timing := o2, delay := o3, count := o4, direction := o5 } from by cases o5 <;> rfl] at r5
  obtain ⟨n6, hn6, w6, hw6, o6, h6, h6', r6⟩ := opt_part hws
    (c := a.fill ≠ .none ∨ (lower k ≠ cs!"none" ∧ Kw.isIdent FillMode k = true)) (Kw.print a.fill) (hw := hw5)
    (s := ({ duration := o1, timing := o2, delay := o3, count := o4, direction := o5 } : AnimSlots M N T))
    (upd := fun v => { duration := o1, timing := o2, delay := o3, count := o4, direction := o5, fill := some v })
    (ok := fun v => v = a.fill)
    (h := fun _ => ⟨_, rfl, Animation.read_fill H _ rfl _ _⟩) (x := _)
  rw [show o6.elim ({ duration := o1, timing := o2, delay := o3, count := o4, direction := o5 } : AnimSlots M N T)
      (fun v => { duration := o1, timing := o2, delay := o3, count := o4, direction := o5, fill := some v }) =
    { duration := o1, timing := o2, delay := o3, count := o4, direction := o5, fill := o6 } from by
      cases o6 <;> rfl] at r6
  obtain ⟨n7, hn7, w7, hw7, o7, h7, h7', r7⟩ := opt_part hws
    (c := a.play ≠ .running ∨ Kw.isIdent PlayState k = true) (Kw.print a.play) (x := x) (hw := hw6)
    (s := ({ duration := o1, timing := o2, delay := o3, count := o4, direction := o5, fill := o6 } :
      AnimSlots M N T))
    (upd := fun v => { duration := o1, timing := o2, delay := o3, count := o4, direction := o5, fill := o6, play := some v })
    (ok := fun v => v = a.play)
    (h := fun _ => ⟨_, rfl, Animation.read_play H _ rfl _ _⟩)
  rw [show o7.elim ({ duration := o1, timing := o2, delay := o3, count := o4, direction := o5, fill := o6 } :
      AnimSlots M N T) (fun v => { duration := o1, timing := o2, delay := o3, count := o4, direction := o5, fill := o6, play := some v }) =
    { duration := o1, timing := o2, delay := o3, count := o4, direction := o5, fill := o6, play := o7 } from by
      cases o7 <;> rfl] at r7
  refine ⟨n1 + (n2 + (n3 + (n4 + (n5 + (n6 + n7))))), by omega, w7, hw7, _,
    r1.trans (r2.trans (r3.trans (r4.trans (r5.trans (r6.trans r7))))), rfl, rfl, ?_, ?_, ?_, ?_, ?_, ?_, ?_, ?_,
    ?_, ?_, ?_, ?_⟩
  · by_cases hc : (!p.isZero a.duration || !p.isZero a.delay) = true
    · obtain ⟨v, rfl, hv⟩ := h1 hc; exact hv
    · cases h1' hc; exact (H.zero _ (by simp at hc; exact hc.1)).symm
  · by_cases hc : (!p.isZero a.delay) = true
    · obtain ⟨v, rfl, hv⟩ := h3 hc; exact hv
    · cases h3' hc; exact (H.zero _ (by simpa using hc)).symm
  · by_cases hc : (!a.timing.isEase p.easing || Easing.isIdent k) = true
    · obtain ⟨v, rfl, hv⟩ := h2 hc; exact hv
    · cases h2' hc
      simp only [Bool.or_eq_true, not_or, Bool.not_eq_true, Bool.not_eq_false'] at hc
      have := hc.1
      simp only [Easing.isEase, Bool.or_eq_true, decide_eq_true_eq] at this
      rcases this with e | e <;> rw [e] <;> simp [Easing.curve, H.easings.lit]
  · by_cases hc : a.count ≠ .number (p.easing.lit 100) ∨ k = cs!"infinite"
    · obtain ⟨v, rfl, hv⟩ := h4 hc; exact hv
    · cases h4' hc
      simp only [not_or, Classical.not_not] at hc
      rw [hc.1]; rfl
  · by_cases hc : a.direction ≠ .normal ∨ Kw.isIdent Direction k = true
    · obtain ⟨v, rfl, hv⟩ := h5 hc; exact hv
    · cases h5' hc
      simp only [not_or, Classical.not_not] at hc
      exact hc.1.symm
  · by_cases hc : a.fill ≠ .none ∨ (lower k ≠ cs!"none" ∧ Kw.isIdent FillMode k = true)
    · obtain ⟨v, rfl, hv⟩ := h6 hc; exact hv
    · cases h6' hc
      simp only [not_or, Classical.not_not] at hc
      exact hc.1.symm
  · by_cases hc : a.play ≠ .running ∨ Kw.isIdent PlayState k = true
    · obtain ⟨v, rfl, hv⟩ := h7 hc; exact hv
    · cases h7' hc
      simp only [not_or, Classical.not_not] at hc
      exact hc.1.symm
  · intro ho
    by_cases hc : (!a.timing.isEase p.easing || Easing.isIdent k) = true
    · obtain ⟨v, hv, _⟩ := h2 hc; rw [show o2 = none from ho] at hv; cases hv
    · simp only [Bool.or_eq_true, not_or, Bool.not_eq_true] at hc; exact hc.2
  · intro ho
    by_cases hc : a.count ≠ .number (p.easing.lit 100) ∨ k = cs!"infinite"
    · obtain ⟨v, hv, _⟩ := h4 hc; rw [show o4 = none from ho] at hv; cases hv
    · exact fun e => hc (.inr e)
  · intro ho
    by_cases hc : a.direction ≠ .normal ∨ Kw.isIdent Direction k = true
    · obtain ⟨v, hv, _⟩ := h5 hc; rw [show o5 = none from ho] at hv; cases hv
    · simp only [not_or, Bool.not_eq_true] at hc; exact hc.2
  · intro ho
    by_cases hc : a.fill ≠ .none ∨ (lower k ≠ cs!"none" ∧ Kw.isIdent FillMode k = true)
    · obtain ⟨v, hv, _⟩ := h6 hc; rw [show o6 = none from ho] at hv; cases hv
    · simp only [not_or, Classical.not_not, not_and, Bool.not_eq_true] at hc; exact hc
  · intro ho
    by_cases hc : a.play ≠ .running ∨ Kw.isIdent PlayState k = true
    · obtain ⟨v, hv, _⟩ := h7 hc; rw [show o7 = none from ho] at hv; cases hv
    · simp only [not_or, Bool.not_eq_true] at hc; exact hc.2

theorem sep_opt {c : Prop} [Decidable c] {P x : List Tok} (hP : Separated P) (hx : Separated x) :
    Separated ((if c then P ++ [.ws] else []) ++ x) := by
  split
  · simp only [List.append_assoc, List.cons_append, List.nil_append]
    exact sep_append_ws hP hx
  · exact hx

theorem Animation.front_sep {M N T U V W} [DecidableEq N] {p : AnimParts M N T} {time : M → U} {num : N → V}
    {h : Nat → V} {lp : T → W} (H : AnimLaw p time num h lp) (m : Bool) (a : Animation M N T) (k : Str)
    {x : List Tok} (hx : Separated x) : Separated (a.front p m k ++ x) := by
  simp only [Animation.front, List.append_assoc]
  refine sep_opt (H.times.sep _) (sep_opt (C66_easing p.easing num h H.easings m a.timing []).2
    (sep_opt (H.times.sep _) (sep_opt ?_ (sep_opt trivial (sep_opt trivial (sep_opt trivial hx))))))
  cases a.count with
  | number n => exact H.easings.numbers.sep _
  | infinite => trivial

theorem AnimName.print_eq (n : AnimName) :
    n.print = [.ident cs!"none"] ∨ ∃ k, n.key = some k ∧ (n.print = [.ident k] ∨ n.print = [.str k]) := by
  cases n with
  | none => exact .inl rfl
  | ident s => exact .inr ⟨s, rfl, .inl rfl⟩
  | string s =>
    simp only [AnimName.print]
    split
    · exact .inr ⟨s, rfl, .inr rfl⟩
    · exact .inr ⟨s, rfl, .inl rfl⟩

theorem Animation.print_key {M N T} [DecidableEq N] [DecidableEq T] (p : AnimParts M N T) (m : Bool)
    (a : Animation M N T) {k} (hk : a.name.key = some k) :
    a.print p m = a.front p m k ++ (a.name.print ++ if a.timeline ≠ .auto then .ws :: a.timeline.print p.lp else []) := by
  cases hn : a.name with
  | none => rw [hn] at hk; cases hk
  | ident s => rw [hn] at hk; cases hk; simp [Animation.print, hn]
  | string s => rw [hn] at hk; cases hk; simp [Animation.print, hn]

/-- **C65 (partial).** An animation is printed as tokens that stay apart and read back as an animation with the same
meaning, and what follows is left, for the animations that satisfy `Animation.Ok`. What is missing: those that do
not; see the theorems below. -/
theorem C65_animation_partial {M N T U V W} [DecidableEq N] [DecidableEq T] (p : AnimParts M N T) (time : M → U)
    (num : N → V) (h : Nat → V) (lp : T → W) (H : AnimLaw p time num h lp) (m : Bool) (a : Animation M N T)
    (ha : a.Ok p) (r : List Tok) (hr : Ends r) :
    (∃ a', Animation.parse p (a.print p m ++ r) = some (a', r) ∧
      a'.value time num h lp = a.value time num h lp) ∧ Separated (a.print p m) := by
  obtain ⟨ht, ha⟩ := ha
  cases hk : a.name.key with
  | none =>
    have hn : a.name = .none := by cases h : a.name <;> simp_all [AnimName.key]
    rw [hk] at ha
    obtain ⟨i1, i2, i3, i4, i5, i6, i7, i8⟩ := ha
    have e : a.print p m = Kw.print FillMode.none := by simp [Animation.print, hn, AnimName.print, Kw.print, Kw.name]
    rw [e]
    refine ⟨⟨⟨.none, p.zero, .ease, .number (p.easing.lit 100), .normal, .running, p.zero, .none, .auto⟩, ?_, ?_⟩, trivial⟩
    · have := run_reach (Reach.one (Animation.read_fill H ({} : AnimSlots M N T) rfl .none r))
        (Animation.stop H _ hr) 10 (by omega)
      simp only [Animation.parse, this]; rfl
    · simp [Animation.value, hn, i3, i4, i5, i6, i7, i8, H.zero _ i1, H.zero _ i2]
  | some k =>
    rw [hk] at ha
    obtain ⟨hne, hi, hcase, htl⟩ := ha
    rw [Animation.print_key p m a hk]
    constructor
    · simp only [List.append_assoc]
      generalize hx : a.name.print ++ ((if a.timeline ≠ .auto then Tok.ws :: a.timeline.print p.lp else []) ++ r) = x
      obtain ⟨n, hn, w, hw, s, hreach, hs1, hs2, v1, v2, v3, v4, v5, v6, v7, g1, g2, g3, g4, g5⟩ :=
        Animation.front_read H m a k x
      have hws := Animation.step_ws H
      have k1 : s.timing = none → lower k ∉ easingKeywords := by
        intro hh hm
        have := g1 hh
        rw [hcase (.inl hm)] at hm
        rw [(easingKeywords_isIdent k).mpr hm] at this; cases this
      have k2 : s.count = none → lower k ≠ cs!"infinite" := by
        intro hh hm
        have := g2 hh
        rw [hcase (.inr hm)] at hm
        exact this hm
      obtain ⟨n', hn', e⟩ := Animation.read_name H s hs1 a.name k hk hi k1 k2 g3 (fun h => (g4 h).2) g5
        ((if a.timeline ≠ .auto then Tok.ws :: a.timeline.print p.lp else []) ++ r)
      have e' : Animation.step p s (w ++ x) = ({ s with name := some n' },
          (if a.timeline ≠ .auto then Tok.ws :: a.timeline.print p.lp else []) ++ r, true) := by
        subst hx
        rcases hw with rfl | rfl
        · exact e
        · rw [List.singleton_append, hws _ _ (by rw [e]), e]
      have r1 := hreach.trans (Reach.one e')
      by_cases hauto : a.timeline = .auto
      · simp only [hauto, ne_eq, not_true_eq_false, if_false, List.nil_append] at r1
        have := run_reach r1 (Animation.stop H _ hr) 10 (by omega)
        refine ⟨_, by simp only [Animation.parse, this]; rfl, ?_⟩
        simp [Animation.value, hn', hs2, v1, v2, v3, v4, v5, v6, v7, hauto]
      · simp only [hauto, ne_eq, not_false_eq_true, if_true, List.cons_append] at r1
        obtain ⟨t', ht', et⟩ := Animation.read_timeline H { s with name := some n' } rfl hs2 a.timeline ht (by
          intro hnone hf
          obtain ⟨f1, f2⟩ := g4 hf
          rcases htl hnone with h | h
          · exact h f1
          · simp only [List.mem_cons, List.not_mem_nil, or_false] at h
            rcases h with h | h | h <;>
            · have := f2 (by rw [h]; decide)
              simp [Kw.isIdent, Kw.all, Kw.name, h] at this) r
        have et' := hws _ _ (by rw [et])
        rw [et] at et'
        have := run_reach (r1.trans (Reach.one et')) (Animation.stop H _ hr) 10 (by omega)
        refine ⟨_, by simp only [Animation.parse, this]; rfl, ?_⟩
        simp [Animation.value, hn', ht', v1, v2, v3, v4, v5, v6, v7]
    · apply Animation.front_sep H
      rcases AnimName.print_eq a.name with e | ⟨_, _, e | e⟩ <;> rw [e] <;> split <;>
      first
        | exact trivial
        | exact sep_append_ws (a := [_]) trivial (Timeline.sep H.lengths _)

/-- `animation: 1s linear 2s infinite paused linear view(x)`: a name that is a keyword, with a timeline; the
hypotheses hold for it, and this is what is printed. -/
example :
    let a : Animation Str Str Str := ⟨.ident cs!"linear", cs!"1", .ease, .infinite, .normal, .paused, cs!"2", .none,
      .view ⟨.x, .auto, .auto⟩⟩
    AnimLaw sampleAnim id id (fun n => ['h', Char.ofNat n]) id ∧ a.Ok sampleAnim ∧
    a.print sampleAnim true = [.other cs!"t1", .ws, .ident cs!"ease", .ws, .other cs!"t2", .ws,
      .ident cs!"infinite", .ws, .ident cs!"paused", .ws, .ident cs!"linear", .ws, .func cs!"view", .ident cs!"x",
      .close] :=
  ⟨sampleAnim_law, ⟨trivial, by decide, by decide, by decide, by intro h; cases h⟩, by decide⟩

/-- A string that is a CSS-wide keyword stays a string; the fill mode keeps a name like `both` apart. -/
example :
    (⟨.string cs!"inherit", cs!"0", .ease, .number ['h', 'd'], .normal, .running, cs!"0", .none, .auto⟩ :
      Animation Str Str Str).print sampleAnim true = [.str cs!"inherit"] ∧
    (⟨.string cs!"both", cs!"0", .ease, .number ['h', 'd'], .normal, .running, cs!"0", .none, .auto⟩ :
      Animation Str Str Str).print sampleAnim true = [.ident cs!"none", .ws, .ident cs!"both"] :=
  ⟨by decide, by decide⟩

/-- **C65, limit**: an animation without a name loses all its other components: `animation: 3s` is printed as
`none`, which reads back with the duration `0s`. -/
theorem C65_animation_unnamed :
    ∃ a, Animation.parse sampleAnim [.other cs!"t3"] = some (a, []) ∧ a.duration = cs!"3" ∧
      a.print sampleAnim true = [.ident cs!"none"] ∧
      ∃ b, Animation.parse sampleAnim [.ident cs!"none"] = some (b, []) ∧ b.duration = cs!"0" :=
  ⟨_, rfl, rfl, by decide, _, rfl, rfl⟩

/-- **C65, limit**: the check for names that are easing functions is case-sensitive, the parser is not:
`animation: ease Linear` has the name `Linear`, but is printed as `Linear`, which is an easing function. -/
theorem C65_animation_case :
    ∃ a, Animation.parse sampleAnim [.ident cs!"ease", .ws, .ident cs!"Linear"] = some (a, []) ∧
      a.name.key = some cs!"Linear" ∧ a.print sampleAnim true = [.ident cs!"Linear"] ∧
      ∃ b, Animation.parse sampleAnim [.ident cs!"Linear"] = some (b, []) ∧
        b.name.key = Option.none ∧ b.timing = .linear :=
  ⟨_, rfl, rfl, by decide, _, rfl, rfl, rfl⟩

/-- **C65, limit**: a timeline `none` after the name is read as the fill mode. -/
theorem C65_animation_timeline :
    ∃ a, Animation.parse sampleAnim [.ident cs!"none", .ws, .ident cs!"foo", .ws, .ident cs!"none"] = some (a, []) ∧
      a.timeline = .none ∧ a.print sampleAnim true = [.ident cs!"foo", .ws, .ident cs!"none"] ∧
      ∃ b, Animation.parse sampleAnim [.ident cs!"foo", .ws, .ident cs!"none"] = some (b, []) ∧
        b.timeline = .auto :=
  ⟨_, rfl, rfl, by decide, _, rfl, rfl⟩

/-! ### `transition` -/

theorem Transition.step_ws {M N T U V W} {p : AnimParts M N T} {time : M → U} {num : N → V} {h : Nat → V}
    {lp : T → W} (H : AnimLaw p time num h lp) (s : TransSlots M N) (i)
    (e : (Transition.step p s i).2.2 = true) : Transition.step p s (.ws :: i) = Transition.step p s i := by
  have e1 := fun slot => tryOne_ws slot p.time.parse i (H.times.skip i)
  have e2 := fun slot => tryOne_ws slot (Easing.parse p.easing) i rfl
  have e3 := fun slot => tryOne_ws slot parsePropertyId i rfl
  simp only [Transition.step, e1, e2, e3] at e ⊢
  split
  · rfl
  split
  · rfl
  split
  · rfl
  split
  · rfl
  · simp_all

/-- An optional part after a space. -/
theorem opt_after {σ α} {step : σ → List Tok → σ × List Tok × Bool}
    (hws : ∀ s i, (step s i).2.2 = true → step s (.ws :: i) = step s i)
    {c : Prop} [Decidable c] (P x : List Tok) (s : σ) (upd : α → σ) (ok : α → Prop)
    (h : c → ∃ v, ok v ∧ step s (P ++ x) = (upd v, x, true)) :
    ∃ n, n ≤ 1 ∧ ∃ o : Option α, (c → ∃ v, o = some v ∧ ok v) ∧ (¬c → o = none) ∧
      Reach step n s ((if c then .ws :: P else []) ++ x) (o.elim s upd) x := by
  by_cases hc : c
  · obtain ⟨v, hv, e⟩ := h hc
    refine ⟨1, by omega, some v, fun _ => ⟨v, rfl, hv⟩, fun h => absurd hc h, ?_⟩
    simp only [hc, if_true, List.cons_append, Option.elim]
    apply Reach.one
    rw [hws _ _ (by rw [e]), e]
  · refine ⟨0, by omega, none, fun h => absurd h hc, fun _ => rfl, ?_⟩
    simp only [hc, if_false, List.nil_append, Option.elim]
    exact .refl _ _

/-- **C65, `transition` (partial).** A transition is printed as tokens that stay apart and read back as a transition
with the same meaning, and what follows is left, if the name of the property is not that of an easing function. -/
theorem C65_transition_partial {M N T U V W} [DecidableEq N] (p : AnimParts M N T) (time : M → U)
    (num : N → V) (h : Nat → V) (lp : T → W) (H : AnimLaw p time num h lp) (m : Bool) (t : Transition M N)
    (ht : lower t.property ∉ easingKeywords) (r : List Tok) (hr : Ends r) :
    (∃ t', Transition.parse p (t.print p m ++ r) = some (t', r) ∧
      t'.value time num h = t.value time num h) ∧ Separated (t.print p m) := by
  have hws := Transition.step_ws H
  have rd1 : ∀ x, ∃ v, time v = time t.duration ∧
      Transition.step p ({ property := some t.property } : TransSlots M N) (p.time.print t.duration ++ x) =
        ({ property := some t.property, duration := some v }, x, true) := by
    intro x
    obtain ⟨d', e, hc⟩ := H.times.back t.duration x
    exact ⟨d', hc, by simp [Transition.step, tryOne, e]⟩
  have rd2 : ∀ o x, ∃ v, Easing.curve num h v = t.timing.curve num h ∧
      Transition.step p ({ property := some t.property, duration := o } : TransSlots M N)
        (t.timing.print p.easing m ++ x) =
        ({ property := some t.property, duration := o, timing := some v }, x, true) := by
    intro o x
    obtain ⟨⟨f', e, hc⟩, -⟩ := C66_easing p.easing num h H.easings m t.timing x
    have e1 := H.times.on_easing p.easing m t.timing x
    exact ⟨f', hc, by simp only [Transition.step, tryOne_none e1]; simp [tryOne, e]⟩
  constructor
  · simp only [Transition.print, List.append_assoc]
    obtain ⟨n1, hn1, o1, h1, h1', r1⟩ := opt_after hws
      (c := (!p.isZero t.duration || !p.isZero t.delay) = true) (p.time.print t.duration)
      (s := ({ property := some t.property } : TransSlots M N))
      (upd := fun v => { property := some t.property, duration := some v }) (ok := fun v => time v = time t.duration)
      (h := fun _ => rd1 _)
      (x := (if (!t.timing.isEase p.easing) = true then .ws :: t.timing.print p.easing m else []) ++
        ((if (!p.isZero t.delay) = true then .ws :: p.time.print t.delay else []) ++ r))
    rw [show o1.elim ({ property := some t.property } : TransSlots M N)
      (fun v => { property := some t.property, duration := some v }) =
      { property := some t.property, duration := o1 } from by cases o1 <;> rfl] at r1
    obtain ⟨n2, hn2, o2, h2, h2', r2⟩ := opt_after hws
      (c := (!t.timing.isEase p.easing) = true) (t.timing.print p.easing m)
      (s := ({ property := some t.property, duration := o1 } : TransSlots M N))
      (upd := fun v => { property := some t.property, duration := o1, timing := some v })
      (ok := fun v => v.curve num h = t.timing.curve num h)
      (h := fun _ => rd2 _ _)
      (x := (if (!p.isZero t.delay) = true then .ws :: p.time.print t.delay else []) ++ r)
    rw [show o2.elim ({ property := some t.property, duration := o1 } : TransSlots M N)
      (fun v => { property := some t.property, duration := o1, timing := some v }) =
      { property := some t.property, duration := o1, timing := o2 } from by cases o2 <;> rfl] at r2
    obtain ⟨n3, hn3, o3, h3, h3', r3⟩ := opt_after hws
      (c := (!p.isZero t.delay) = true) (p.time.print t.delay)
      (s := ({ property := some t.property, duration := o1, timing := o2 } : TransSlots M N))
      (upd := fun v => { property := some t.property, duration := o1, timing := o2, delay := some v })
      (ok := fun v => time v = time t.delay)
      (h := fun hc => by
        obtain ⟨v, hv, _⟩ := h1 (by simp at hc ⊢; exact .inr hc)
        obtain ⟨d', e, hd⟩ := H.times.back t.delay r
        have e2 : Easing.parse p.easing (p.time.print t.delay ++ r) = none := H.times.easing_none _ _ _
        exact ⟨d', hd, by simp only [Transition.step, hv, tryOne_some, tryOne_none e2]; simp [tryOne, e]⟩)
      (x := r)
    rw [show o3.elim ({ property := some t.property, duration := o1, timing := o2 } : TransSlots M N)
      (fun v => { property := some t.property, duration := o1, timing := o2, delay := some v }) =
      { property := some t.property, duration := o1, timing := o2, delay := o3 } from by cases o3 <;> rfl] at r3
    have e0 : ∀ x, Transition.step p ({} : TransSlots M N) (.ident t.property :: x) =
        ({ property := some t.property }, x, true) := by
      intro x
      simp only [Transition.step, tryOne_none (H.times.no_ident _ _), tryOne_none (Easing.ident_none p.easing ht)]
      rfl
    have stop : ∀ s, Transition.step p s r = (s, r, false) := by
      intro s
      have : parsePropertyId r = none := by rcases hr with rfl | ⟨l, rfl | rfl⟩ <;> rfl
      simp only [Transition.step, tryOne_none (H.times.stop r hr), tryOne_none (Easing.ends p.easing hr),
        tryOne_none this]
    have := run_reach ((Reach.one (e0 _)).trans (r1.trans (r2.trans r3))) (stop _) 5 (by omega)
    refine ⟨_, by simp only [Transition.parse, List.cons_append, List.nil_append, this]; rfl, ?_⟩
    simp only [Transition.value, Option.getD_some, Prod.mk.injEq, true_and]
    refine ⟨?_, ?_, ?_⟩
    · by_cases hc : (!p.isZero t.duration || !p.isZero t.delay) = true
      · obtain ⟨v, rfl, hv⟩ := h1 hc; exact hv
      · cases h1' hc; exact (H.zero _ (by simp at hc; exact hc.1)).symm
    · by_cases hc : (!p.isZero t.delay) = true
      · obtain ⟨v, rfl, hv⟩ := h3 hc; exact hv
      · cases h3' hc; exact (H.zero _ (by simpa using hc)).symm
    · by_cases hc : (!t.timing.isEase p.easing) = true
      · obtain ⟨v, rfl, hv⟩ := h2 hc; exact hv
      · cases h2' hc
        simp only [Bool.not_eq_true, Bool.not_eq_false'] at hc
        simp only [Easing.isEase, Bool.or_eq_true, decide_eq_true_eq] at hc
        rcases hc with e | e <;> rw [e] <;> simp [Easing.curve, H.easings.lit]
  · have hd : ∀ d, Separated (p.time.print d) := H.times.sep
    have he := (C66_easing p.easing num h H.easings m t.timing []).2
    have opt : ∀ {c : Prop} [Decidable c] {a P : List Tok}, Separated a → Separated P →
        Separated (a ++ if c then .ws :: P else []) := by
      intro c _ a P h1 h2
      split
      · exact sep_append_ws h1 h2
      · simpa using h1
    exact opt (opt (opt (a := [_]) trivial (hd _)) he) (hd _)

/-- `transition: opacity 1s linear 2s`. -/
example : AnimLaw sampleAnim id id (fun n => ['h', Char.ofNat n]) id ∧ lower cs!"opacity" ∉ easingKeywords ∧
    (⟨cs!"opacity", cs!"1", cs!"2", .linear⟩ : Transition Str Str).print sampleAnim true =
      [.ident cs!"opacity", .ws, .other cs!"t1", .ws, .ident cs!"linear", .ws, .other cs!"t2"] :=
  ⟨sampleAnim_law, by decide, by decide⟩

/-- **C65, limit**: in `transition: linear ease 1s` the property is called `ease`; it is printed as
`ease 1s linear`, where the property is called `linear`. -/
theorem C65_transition_property :
    ∃ t, Transition.parse sampleAnim [.ident cs!"linear", .ws, .ident cs!"ease", .ws, .other cs!"t1"] = some (t, []) ∧
      t.property = cs!"ease" ∧
      t.print sampleAnim true = [.ident cs!"ease", .ws, .other cs!"t1", .ws, .ident cs!"linear"] ∧
      ∃ t', Transition.parse sampleAnim (t.print sampleAnim true) = some (t', []) ∧ t'.property = cs!"linear" :=
  ⟨_, rfl, rfl, by decide, _, rfl, rfl⟩

/-! ### `animation-range` -/

theorem Attachment.back {T V} [DecidableEq T] {lp : Codec T} {sem : T → V} (H : Plain lp sem) (d : T)
    (a : Attachment T) (r) (hr : ∀ n, a = .range n d → lp.parse r = none) :
    ∃ a', Attachment.parse lp d (a.print lp d ++ r) = some (a', r) ∧ a'.map sem = a.map sem ∧
      ((∃ n o, a' = .range n o) ↔ ∃ n o, a = .range n o) := by
  cases a with
  | normal => exact ⟨.normal, rfl, rfl, by simp⟩
  | lp t =>
    obtain ⟨t', e, h⟩ := H.back t r
    refine ⟨.lp t', ?_, by simp [map, h], by simp⟩
    simp [parse, print, H.expectIdent_none, e]
  | range n o =>
    have hn : ∀ x, expectIdent cs!"normal" (Kw.print n ++ x) = none := by intro x; cases n <;> rfl
    have hl : ∀ x, lp.parse (Kw.print n ++ x) = none := fun x => H.no_ident _ _
    by_cases ho : o = d
    · subst ho
      refine ⟨.range n o, ?_, rfl, by simp⟩
      simp [parse, print, hn, hl, kw_back, hr n rfl]
    · obtain ⟨o', e, h⟩ := H.back o r
      refine ⟨.range n o', ?_, by simp [map, h], by simp⟩
      simp [parse, print, hn, hl, kw_back, ho, H.skip, e]

theorem Attachment.ends {T V} {lp : Codec T} {sem : T → V} (H : Plain lp sem) (d : T) {r} (hr : Ends r) :
    Attachment.parse lp d r = none := by
  simp [parse, expectIdent_ends hr, H.stop r hr, kw_ends hr]

theorem Attachment.parse_ws {T V} {lp : Codec T} {sem : T → V} (H : Plain lp sem) (d : T) (i) :
    Attachment.parse lp d (.ws :: i) = Attachment.parse lp d i := by
  have e1 : ∀ k, expectIdent k (.ws :: i) = expectIdent k i := fun _ => rfl
  simp only [parse, e1, H.skip, kw_ws]

theorem Attachment.sep {T V} [DecidableEq T] {lp : Codec T} {sem : T → V} (H : Plain lp sem) (d : T)
    (a : Attachment T) : Separated (a.print lp d) := by
  cases a with
  | normal => trivial
  | lp t => exact H.sep _
  | range n o =>
    simp only [print]
    split
    · exact sep_append_ws (sep_kw n) (H.sep _)
    · trivial

/-- **C65, `animation-range` (partial).** A printed range means, as the specification reads it, what was printed,
except for the two cases in the hypotheses: a named start with the end `normal`, and a named start at `0%` with an
end that is only a length or percentage. -/
theorem C65_animation_range_partial {T V} [DecidableEq T] (p : RangeParts T) (sem : T → V) (H : Plain p.lp sem)
    (a : AnimationRange T) (h1 : ∀ n o, a.start = .range n o → a.end ≠ .normal)
    (h2 : ∀ n, a.start = .range n p.p0 → ∀ t, a.end ≠ .lp t) (r : List Tok) (hr : Ends r) :
    (∃ b, readRange p (a.print p ++ r) = some (b, r) ∧ b.start.map sem = a.start.map sem ∧
      b.end.map sem = a.end.map sem) ∧ Separated (a.print p) := by
  obtain ⟨s, e⟩ := a
  simp only at h1 h2
  constructor
  · by_cases ho : AnimationRange.omitEnd p ⟨s, e⟩ = true
    · obtain ⟨s', es, hs, hk⟩ := Attachment.back H p.p0 s r (fun _ _ => H.stop r hr)
      simp only [AnimationRange.print, ho, Bool.not_true, Bool.false_eq_true, if_false, List.append_nil, readRange, es,
        Attachment.ends H p.p100 hr]
      cases s with
      | range n o =>
        obtain ⟨n', o', rfl⟩ := hk.mpr ⟨n, o, rfl⟩
        have : e = .range n p.p100 := by
          cases e with
          | normal => exact absurd rfl (h1 n o rfl)
          | lp t => simp [AnimationRange.omitEnd] at ho
          | range m q => simp [AnimationRange.omitEnd] at ho; obtain ⟨rfl, rfl⟩ := ho; rfl
        subst this
        simp only [Attachment.map, Attachment.range.injEq] at hs
        exact ⟨_, rfl, by simp [Attachment.map, hs], by simp [Attachment.map, hs]⟩
      | normal =>
        have : e = .normal := by simpa [AnimationRange.omitEnd] using ho
        subst this
        cases s' with
        | normal => exact ⟨_, rfl, rfl, rfl⟩
        | lp t => cases hs
        | range n o => cases hs
      | lp t =>
        have : e = .normal := by simpa [AnimationRange.omitEnd] using ho
        subst this
        cases s' with
        | normal => cases hs
        | lp t => exact ⟨_, rfl, hs, rfl⟩
        | range n o => cases hs
    · have hstop : ∀ n, s = .range n p.p0 → p.lp.parse (.ws :: (e.print p.lp p.p100 ++ r)) = none := by
        intro n hn
        rw [H.skip]
        cases e with
        | normal => exact H.no_ident _ _
        | lp t => exact absurd rfl (h2 n hn t)
        | range m o => simp only [Attachment.print, List.append_assoc]; exact H.no_ident _ _
      obtain ⟨s', es, hs, -⟩ := Attachment.back H p.p0 s (.ws :: (e.print p.lp p.p100 ++ r)) hstop
      obtain ⟨e', ee, he, -⟩ := Attachment.back H p.p100 e r (fun _ _ => H.stop r hr)
      simp only [AnimationRange.print, ho, Bool.not_false, if_true, List.append_assoc, List.cons_append, readRange,
        es, Attachment.parse_ws H, ee]
      exact ⟨_, rfl, hs, he⟩
  · simp only [AnimationRange.print]
    split
    · exact sep_append_ws (Attachment.sep H _ _) (Attachment.sep H _ _)
    · simpa using Attachment.sep H _ _

/-- Lengths and percentages for ranges. -/
def sampleRange : RangeParts Str := ⟨sample 'l', cs!"0%", cs!"100%"⟩

/-- `animation-range: entry 10% exit`, whose hypotheses hold. -/
example :
    let a : AnimationRange Str := ⟨.range .entry cs!"10%", .range .exit cs!"100%"⟩
    Plain sampleRange.lp id ∧ (∀ n o, a.start = .range n o → a.end ≠ .normal) ∧
    (∀ n, a.start = .range n sampleRange.p0 → ∀ t, a.end ≠ .lp t) ∧
    a.print sampleRange = [.ident cs!"entry", .ws, .other cs!"l10%", .ws, .ident cs!"exit"] := by
  refine ⟨sample_plain _, ?_, ?_, by decide⟩ <;> intros <;> simp

/-- **C65, limit**: the end of the range is read with the default of the start: `entry exit` means `entry 0%` to
`exit 100%`, but is read as ending at `exit 0%`, and printed so. -/
theorem C65_animation_range_end :
    ∃ a, AnimationRange.parse sampleRange [.ident cs!"entry", .ws, .ident cs!"exit"] = some (a, []) ∧
      a.end = .range .exit cs!"0%" ∧
      a.print sampleRange = [.ident cs!"entry", .ws, .ident cs!"exit", .ws, .other cs!"l0%"] ∧
      ∃ b, readRange sampleRange [.ident cs!"entry", .ws, .ident cs!"exit"] = some (b, []) ∧
        b.end = .range .exit cs!"100%" :=
  ⟨_, rfl, rfl, by decide, _, rfl, rfl⟩

/-- **C65, limit**: `entry 0% 50%` is printed as `entry 50%`, where `50%` is the offset of the start. -/
theorem C65_animation_range_start :
    ∃ a, AnimationRange.parse sampleRange [.ident cs!"entry", .ws, .other cs!"l0%", .ws, .other cs!"l50%"] =
        some (a, []) ∧
      a.print sampleRange = [.ident cs!"entry", .ws, .other cs!"l50%"] ∧
      ∃ b, readRange sampleRange (a.print sampleRange) = some (b, []) ∧ b.start ≠ a.start :=
  ⟨_, rfl, by decide, _, rfl, by decide⟩

/-- **C65, limit**: `entry normal` is printed as `entry`, whose end is `entry 100%`. -/
theorem C65_animation_range_normal :
    ∃ a, AnimationRange.parse sampleRange [.ident cs!"entry", .ws, .ident cs!"normal"] = some (a, []) ∧
      a.end = .normal ∧ a.print sampleRange = [.ident cs!"entry"] ∧
      ∃ b, readRange sampleRange (a.print sampleRange) = some (b, []) ∧ b.end = .range .entry cs!"100%" :=
  ⟨_, rfl, rfl, by decide, _, rfl, rfl⟩

end Verif.Shorthand
