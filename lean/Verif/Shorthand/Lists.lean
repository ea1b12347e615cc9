import Verif.Shorthand.Round
import Verif.Shorthand.Samples
/-!
Printing and reading `list-style`, `text-decoration`, `text-emphasis`.
-/
namespace Verif.Shorthand

/-! ### `text-emphasis` -/

theorem EmphasisStyle.back (e : EmphasisStyle) (x : List Tok)
    (h1 : (Kw.parse : Parser EmphasisFill) x = Option.none)
    (h2 : (Kw.parse : Parser EmphasisShape) x = Option.none) :
    EmphasisStyle.parse (e.print ++ x) = some (e, x) := by
  rcases e with _ | ⟨f, sh⟩ | s
  · rfl
  · have key : ∀ (a : EmphasisFill), (Kw.parse : Parser EmphasisShape) (Kw.print a ++ x) = Option.none := by
      intro a; cases a <;> rfl
    have key' : ∀ (a : EmphasisFill) y, (Kw.parse : Parser EmphasisShape) (Kw.print a ++ y) = Option.none := by
      intro a y; cases a <;> rfl
    have n1 : ∀ (a : EmphasisFill) y, expectIdent cs!"none" (Kw.print a ++ y) = Option.none := by
      intro a y; cases a <;> rfl
    have n2 : ∀ (a : EmphasisShape) y, expectIdent cs!"none" (Kw.print a ++ y) = Option.none := by
      intro a y; cases a <;> rfl
    have m1 : ∀ (a : EmphasisFill) y, next (Kw.print a ++ y) = some (.ident (Kw.name a), y) := fun _ _ => rfl
    have m2 : ∀ (a : EmphasisShape) y, next (Kw.print a ++ y) = some (.ident (Kw.name a), y) := fun _ _ => rfl
    rcases sh with _ | sh
    · simp [print, parse, n1, m1, optParse, key', kw_back, h2]
    · by_cases hf : f = .filled
      · subst hf
        simp [print, parse, n2, m2, optParse, kw_back, h1]
      · simp [print, parse, n1, m1, optParse, key', kw_back, kw_ws, hf]
  · rfl

theorem EmphasisStyle.sep (e : EmphasisStyle) : Separated e.print := by
  rcases e with _ | ⟨f, _ | sh⟩ | s
  · trivial
  · simp [print, Kw.print, Separated]
  · by_cases hf : f = .filled <;> simp [print, Kw.print, Separated, Sticks, hf]
  · trivial

/-- **C63, `text-emphasis-style`**: every value is printed as text that reads back as the same value. -/
theorem C63_text_emphasis_style (e : EmphasisStyle) (r : List Tok) (hr : Ends r) :
    EmphasisStyle.parse (e.print ++ r) = some (e, r) ∧ Separated e.print :=
  ⟨e.back r (kw_ends hr) (kw_ends hr), e.sep⟩

/-- `filled` is left out before a shape. -/
example : (EmphasisStyle.keyword .filled (some .doubleCircle)).print = [.ident cs!"double-circle"] ∧
    (EmphasisStyle.keyword .open (some .dot)).print = [.ident cs!"open", .ws, .ident cs!"dot"] := by decide

theorem EmphasisStyle.ends {r} (h : Ends r) : EmphasisStyle.parse r = Option.none := by
  rcases h with rfl | ⟨l, rfl | rfl⟩ <;> rfl

/-- **C64, `text-emphasis`** (part): a value is printed as text that reads back as a value that means the
same, if the color is `currentColor` where the style is `none`. Missing: the other values with style `none`,
which lose their color (`C64_text_emphasis_none`). -/
theorem C64_text_emphasis_partial {C V} [DecidableEq C] (color : Codec C) (currentColor : C) (sem : C → V)
    (H : ColorLaw color sem) (e : TextEmphasis C) (he : e.style = .none → e.color = currentColor)
    (r : List Tok) (hr : Ends r) :
    (∃ e', TextEmphasis.parse color currentColor (e.print color currentColor ++ r) = some (e', r) ∧
      e'.map sem = e.map sem) ∧ Separated (e.print color currentColor) := by
  obtain ⟨s, c⟩ := e
  have cr := H.stop r hr
  choose cb ecb hcb using H.back c
  by_cases hc : c = currentColor
  · subst hc
    have e1 := s.back r (kw_ends hr) (kw_ends hr)
    exact ⟨⟨⟨s, c⟩, by simp [TextEmphasis.parse, TextEmphasis.print, run, TextEmphasis.step, tryOne, e1, cr], rfl⟩,
      by simpa [TextEmphasis.print] using s.sep⟩
  · have hs : s ≠ .none := fun h => hc (he h)
    have h1 : (Kw.parse : Parser EmphasisFill) (.ws :: (color.print c ++ r)) = none := by
      rw [kw_ws]; exact H.kw_none (by intro b _; cases b <;> decide) c r
    have h2 : (Kw.parse : Parser EmphasisShape) (.ws :: (color.print c ++ r)) = none := by
      rw [kw_ws]; exact H.kw_none (by intro b _; cases b <;> decide) c r
    have e1 := s.back _ h1 h2
    exact ⟨⟨⟨s, cb r⟩, by
      simp [TextEmphasis.parse, TextEmphasis.print, run, TextEmphasis.step, tryOne, e1, hs, hc, H.skip, ecb],
      by simp [TextEmphasis.map, hcb]⟩, by
      simpa [TextEmphasis.print, hs, hc] using sep_append_ws s.sep (H.sep c)⟩

/-! ### `text-decoration` -/

/-- Where a list of lines ends: `x` does not begin with a line keyword. -/
def NoLine (x : List Tok) : Prop :=
  ∀ s r, next x = some (.ident s, r) → lower s ∉
    [cs!"none", cs!"underline", cs!"overline", cs!"line-through", cs!"blink", cs!"spelling-error", cs!"grammar-error"]

theorem TextLine.add_none {v : TextLine} {k : Str} (h : k ∉
    [cs!"none", cs!"underline", cs!"overline", cs!"line-through", cs!"blink", cs!"spelling-error",
      cs!"grammar-error"]) : v.add k = none := by
  simp only [List.mem_cons, List.not_mem_nil, or_false, not_or] at h
  simp [add, h]

theorem TextLine.loop_stop (n v any) {x} (h : NoLine x) : TextLine.loop n v x any = (v, x, any) := by
  cases n with
  | zero => rfl
  | succ n =>
    simp only [loop]
    split
    · rename_i s r e
      rw [TextLine.add_none (h s r e)]
    · rfl

theorem TextLine.loop_step {n v k x any v'} (h : v.add (lower k) = some v') :
    TextLine.loop (n + 1) v (.ident k :: x) any = TextLine.loop n v' x true := by
  simp only [loop, next_ident, h]

theorem TextLine.loop_step_ws {n v k x any v'} (h : v.add (lower k) = some v') :
    TextLine.loop (n + 1) v (.ws :: .ident k :: x) any = TextLine.loop n v' x true := by
  simp only [loop, next_ws, next_ident, h]

theorem TextLine.back (l : TextLine) (hl : l.Ok) (x : List Tok) (hx : NoLine x) :
    TextLine.parse (l.print ++ x) = some (l, x) ∧ Separated l.print := by
  obtain ⟨u, o, t, b, s, g⟩ := l
  obtain ⟨h1, h2⟩ := hl
  cases s
  · cases g
    · cases u <;> cases o <;> cases t <;> cases b <;>
      · refine ⟨?_, by simp [print, TextLine.empty, val, Separated, Sticks]⟩
        simp only [print, TextLine.empty, val, parse, TextLine.mk.injEq, Bool.true_eq_false, Bool.false_eq_true,
          and_true, and_false, false_and, if_true, if_false, List.nil_append, List.cons_append,
          List.append_assoc, List.length_cons]
        simp (decide := true) [loop_step, loop_step_ws, loop_stop _ _ _ hx, lower, add, TextLine.empty]
    · cases h2 rfl
      refine ⟨?_, by simp [print, TextLine.empty, Separated]⟩
      simp only [print, parse]
      simp (decide := true) [loop_step, loop_stop _ _ _ hx, TextLine.empty, add, lower]
  · cases h1 rfl
    refine ⟨?_, by simp [print, TextLine.empty, Separated]⟩
    simp only [print, parse]
    simp (decide := true) [loop_step, loop_stop _ _ _ hx, TextLine.empty, add, lower]

theorem NoLine.ends {r} (h : Ends r) : NoLine r := by
  rcases h with rfl | ⟨l, rfl | rfl⟩ <;> intro s x e <;> simp [next] at e

theorem NoLine.ws {x} (h : NoLine x) : NoLine (.ws :: x) := h

theorem NoLine.color {C V} {color : Codec C} {sem : C → V} (H : ColorLaw color sem) (c x) :
    NoLine (color.print c ++ x) := by
  obtain ⟨t, l, e, h⟩ := H.first c
  rw [e]
  intro s r es
  rcases h with ⟨k, rfl, hk⟩ | ⟨k, rfl⟩ | ⟨f, rfl, _⟩ <;> simp only [List.cons_append, next] at es
  · injection es with es; injection es with es1 es2; injection es1 with es1; subst es1
    intro hm; apply hk
    simp only [List.mem_cons, List.not_mem_nil, or_false] at hm
    rcases hm with h | h | h | h | h | h | h <;> (rw [h]; decide)
  · simp at es
  · simp at es

theorem NoLine.style (s : TextStyle) (x) : NoLine (Kw.print s ++ x) := by
  intro k r e
  cases e
  cases s <;> decide

theorem NoLine.thickness {T V} {lp : Codec T} {sem : T → V} (H : Plain lp sem) (t : Thickness T) (x) :
    NoLine (t.print lp ++ x) := by
  intro k r e
  cases t with
  | auto => cases e; decide
  | fromFont => cases e; decide
  | length l =>
    obtain ⟨t, y, et, h⟩ := H.first l
    simp only [Thickness.print, et] at e
    rcases h with ⟨s, rfl⟩ | ⟨f, rfl, _⟩ <;> simp [next] at e

theorem Thickness.back {T V} {lp : Codec T} {sem : T → V} (H : Plain lp sem) (t : Thickness T) (r) :
    ∃ t', Thickness.parse lp (t.print lp ++ r) = some (t', r) ∧ t'.map sem = t.map sem := by
  cases t with
  | auto => exact ⟨.auto, rfl, rfl⟩
  | fromFont => exact ⟨.fromFont, rfl, rfl⟩
  | length l =>
    obtain ⟨l', e, h⟩ := H.back l r
    refine ⟨.length l', ?_, by simp [map, h]⟩
    obtain ⟨t, x, et, ht⟩ := H.first l
    simp only [parse, print, e]
    rw [et]
    rcases ht with ⟨s, rfl⟩ | ⟨f, rfl, _⟩ <;> rfl

theorem Thickness.ends {T V} {lp : Codec T} {sem : T → V} (H : Plain lp sem) {r} (h : Ends r) :
    Thickness.parse lp r = none := by
  simp only [parse, H.stop r h]
  rcases h with rfl | ⟨l, rfl | rfl⟩ <;> rfl

theorem Thickness.parse_ws {T V} {lp : Codec T} {sem : T → V} (H : Plain lp sem) (i) :
    Thickness.parse lp (.ws :: i) = Thickness.parse lp i := by
  simp only [parse, H.skip]; rfl

theorem Thickness.style_none {T V} {lp : Codec T} {sem : T → V} (H : Plain lp sem) (s : TextStyle) (r) :
    Thickness.parse lp (Kw.print s ++ r) = none := by
  have : lp.parse (Kw.print s ++ r) = none := H.no_ident _ _
  simp only [parse, this]
  cases s <;> rfl

theorem Thickness.color_none {T V C W} {lp : Codec T} {sem : T → V}
    {color : Codec C} {csem : C → W} (HC : ColorLaw color csem) (ha : Apart lp.parse color) (c r) :
    Thickness.parse lp (color.print c ++ r) = none := by
  have e := ha c r
  simp only [parse, e]
  obtain ⟨t, x, et, ht⟩ := HC.first c
  rw [et]
  rcases ht with ⟨s, rfl, hs⟩ | ⟨s, rfl⟩ | ⟨f, rfl, _⟩
  · have h1 : lower s ≠ cs!"auto" := fun h => hs (h ▸ by decide)
    have h2 : lower s ≠ cs!"from-font" := fun h => hs (h ▸ by decide)
    simp only [List.cons_append, next_ident, h1, h2, if_false]
  · rfl
  · rfl

/-- **C64, `text-decoration`** (part): a value is printed as text that reads back as a value that means the
same, if `spelling-error` and `grammar-error` are alone and, where the line is `none`, the other parts have
their initial values. Missing: the other values, which lose parts (`C64_text_decoration_none`,
`C64_text_decoration_error`). -/
theorem C64_text_decoration_partial {T C V W} [DecidableEq T] [DecidableEq C] (lp : Codec T) (color : Codec C)
    (currentColor : C) (tsem : T → V) (csem : C → W) (HT : Plain lp tsem) (HC : ColorLaw color csem)
    (ha : Apart lp.parse color) (d : TextDecoration T C) (hl : d.line.Ok)
    (hd : d.line = ⟨false, false, false, false, false, false⟩ →
      d.thickness = .auto ∧ d.style = .solid ∧ d.color = currentColor)
    (r : List Tok) (hr : Ends r) :
    (∃ d', TextDecoration.parse lp color currentColor (d.print lp color currentColor ++ r) = some (d', r) ∧
      d'.map tsem csem = d.map tsem csem) ∧ Separated (d.print lp color currentColor) := by
  obtain ⟨l, t, s, c⟩ := d
  have lb := fun x hx => (l.back hl x hx).1
  have seplr := (l.back hl r (.ends hr)).2
  choose tb etb htb using Thickness.back HT t
  choose cb ecb hcb using HC.back c
  have tws := Thickness.parse_ws HT
  have tr := Thickness.ends HT hr
  have ts := Thickness.style_none HT
  have tc := Thickness.color_none (sem := tsem) HC ha
  have cr := HC.stop r hr
  have kr : (Kw.parse : Parser TextStyle) r = none := kw_ends hr
  have kc : ∀ c r, (Kw.parse : Parser TextStyle) (color.print c ++ r) = none :=
    HC.kw_none (by intro b _; cases b <;> decide)
  have sept : Separated (t.print lp) := by
    cases t <;> first | trivial | exact HT.sep _
  by_cases h0 : l = TextLine.empty
  · obtain ⟨rfl, rfl, rfl⟩ := hd h0
    refine ⟨⟨⟨l, .auto, .solid, c⟩, ?_, rfl⟩, by simpa [TextDecoration.print, h0] using seplr⟩
    have := lb r (.ends hr)
    simp [TextDecoration.parse, TextDecoration.print, run, TextDecoration.step, tryOne, this, tr, kr, cr]
  · by_cases h1 : t = .auto <;> by_cases h2 : s = .solid <;> by_cases h3 : c = currentColor
    · subst h1; subst h2; subst h3
      refine ⟨⟨⟨l, .auto, .solid, c⟩, ?_, rfl⟩, by simpa [TextDecoration.print] using seplr⟩
      have := lb r (.ends hr)
      simp [TextDecoration.parse, TextDecoration.print, run, TextDecoration.step, tryOne, this, tr, kr, cr]
    · subst h1; subst h2
      refine ⟨⟨⟨l, .auto, .solid, cb r⟩, ?_, by simp [TextDecoration.map, hcb]⟩, by
        simpa [TextDecoration.print, h0, h3] using sep_append_ws seplr (HC.sep c)⟩
      have := lb _ (NoLine.ws (.color HC c r))
      simp [TextDecoration.parse, TextDecoration.print, run, TextDecoration.step, tryOne, this, tr, kr,
        h0, h3, tws, tc, kc, kw_ws, HC.skip, ecb]
    · subst h1; subst h3
      refine ⟨⟨⟨l, .auto, s, c⟩, ?_, rfl⟩, by
        simpa [TextDecoration.print, h0, h2] using sep_append_ws seplr (sep_kw s)⟩
      have := lb _ (NoLine.ws (.style s r))
      simp [TextDecoration.parse, TextDecoration.print, run, TextDecoration.step, tryOne, this, tr, cr,
        h0, h2, tws, ts, kw_ws, kw_back]
    · subst h1
      refine ⟨⟨⟨l, .auto, s, cb r⟩, ?_, by simp [TextDecoration.map, hcb]⟩, by
        simpa [TextDecoration.print, h0, h2, h3] using sep_append_ws seplr (sep_append_ws (sep_kw s) (HC.sep c))⟩
      have := lb _ (NoLine.ws (.style s (.ws :: (color.print c ++ r))))
      simp [TextDecoration.parse, TextDecoration.print, run, TextDecoration.step, tryOne, this, tr,
        h0, h2, h3, tws, ts, tc, kw_ws, kw_back, HC.skip, ecb]
    · subst h2; subst h3
      refine ⟨⟨⟨l, tb r, .solid, c⟩, ?_, by simp [TextDecoration.map, htb]⟩, by
        simpa [TextDecoration.print, h0, h1] using sep_append_ws seplr sept⟩
      have := lb _ (NoLine.ws (.thickness HT t r))
      simp [TextDecoration.parse, TextDecoration.print, run, TextDecoration.step, tryOne, this, cr, kr,
        h0, h1, tws, etb]
    · subst h2
      refine ⟨⟨⟨l, tb (.ws :: (color.print c ++ r)), .solid, cb r⟩, ?_, by simp [TextDecoration.map, htb, hcb]⟩, by
        simpa [TextDecoration.print, h0, h1, h3] using sep_append_ws seplr (sep_append_ws sept (HC.sep c))⟩
      have := lb _ (NoLine.ws (.thickness HT t (.ws :: (color.print c ++ r))))
      simp [TextDecoration.parse, TextDecoration.print, run, TextDecoration.step, tryOne, this, kr,
        h0, h1, h3, tws, etb, kc, kw_ws, HC.skip, ecb]
    · subst h3
      refine ⟨⟨⟨l, tb (.ws :: (Kw.print s ++ r)), s, c⟩, ?_, by simp [TextDecoration.map, htb]⟩, by
        simpa [TextDecoration.print, h0, h1, h2] using sep_append_ws seplr (sep_append_ws sept (sep_kw s))⟩
      have := lb _ (NoLine.ws (.thickness HT t (.ws :: (Kw.print s ++ r))))
      simp [TextDecoration.parse, TextDecoration.print, run, TextDecoration.step, tryOne, this, cr,
        h0, h1, h2, tws, etb, kw_ws, kw_back]
    · refine ⟨⟨⟨l, tb (.ws :: (Kw.print s ++ .ws :: (color.print c ++ r))), s, cb r⟩, ?_, by
          simp [TextDecoration.map, htb, hcb]⟩, by
        simpa [TextDecoration.print, h0, h1, h2, h3] using
          sep_append_ws seplr (sep_append_ws sept (sep_append_ws (sep_kw s) (HC.sep c)))⟩
      have := lb _ (NoLine.ws (.thickness HT t (.ws :: (Kw.print s ++ .ws :: (color.print c ++ r)))))
      simp [TextDecoration.parse, TextDecoration.print, run, TextDecoration.step, tryOne, this,
        h0, h1, h2, h3, tws, etb, kw_ws, kw_back, HC.skip, ecb]

/-! ### `list-style` -/

theorem parseImage_ws {I V} {image : Codec I} {sem : I → V} (H : Plain image sem) (i) :
    parseImage image (.ws :: i) = parseImage image i := by
  simp only [parseImage, H.skip]; rfl

theorem parseImage_back {I V} {image : Codec I} {sem : I → V} (H : Plain image sem) (v : I) (r) :
    ∃ v', parseImage image (image.print v ++ r) = some (some v', r) ∧ sem v' = sem v := by
  obtain ⟨v', e, h⟩ := H.back v r
  exact ⟨v', by simp [parseImage, H.expectIdent_none, e], h⟩

theorem parseImage_ends {I V} {image : Codec I} {sem : I → V} (H : Plain image sem) {r} (h : Ends r) :
    parseImage image r = none := by
  simp [parseImage, expectIdent_ends h, H.stop r h]

theorem parseImage_kw {I V} {image : Codec I} {sem : I → V} (H : Plain image sem) (p : ListPosition) (r) :
    parseImage image (Kw.print p ++ r) = none := by
  have : image.parse (Kw.print p ++ r) = none := H.no_ident _ _
  simp only [parseImage, this]
  cases p <;> rfl

/-- Nothing but a list marker is read where a marker other than `none` is printed. -/
theorem ListType.others {I V Y W} {image : Codec I} {sem : I → V} (H : Plain image sem)
    {symbols : Codec Y} {ysem : Y → W} (HY : SymbolsLaw symbols ysem) (t : ListType Y) (ht : t.Ok)
    (hn : t ≠ .none) (r) :
    expectIdent cs!"none" (t.print symbols ++ r) = Option.none ∧
    parseImage image (t.print symbols ++ r) = Option.none := by
  have id : ∀ s, lower s ≠ cs!"none" → expectIdent cs!"none" (.ident s :: r) = Option.none ∧
      parseImage image (.ident s :: r) = Option.none := by
    intro s hs
    have e : expectIdent cs!"none" (.ident s :: r) = Option.none := by
      simp only [expectIdent, next_ident, if_neg hs]
    exact ⟨e, by simp only [parseImage, e, H.no_ident]⟩
  cases t with
  | none => exact absurd rfl hn
  | string s => exact ⟨rfl, by simp only [print, List.cons_append, List.nil_append, parseImage, H.no_str]; rfl⟩
  | predefined s =>
    apply id
    intro h
    have : ∀ s ∈ predefinedCounterStyles, lower s ≠ cs!"none" := by decide
    exact this s ht h
  | name s =>
    apply id
    intro h
    exact ht.2 (by rw [h]; decide)
  | symbols y =>
    obtain ⟨l, e⟩ := HY.first y
    simp only [print, e, List.cons_append, parseImage]
    exact ⟨rfl, by rw [H.no_func _ _ (by decide)]; rfl⟩

theorem ListType.back {Y W} {symbols : Codec Y} {ysem : Y → W} (HY : SymbolsLaw symbols ysem)
    (t : ListType Y) (ht : t.Ok) (r) :
    ∃ t', ListType.parse symbols (t.print symbols ++ r) = some (t', r) ∧ t'.map ysem = t.map ysem := by
  cases t with
  | none => exact ⟨.none, rfl, rfl⟩
  | string s => exact ⟨.string s, rfl, rfl⟩
  | predefined s =>
    have h1 : ∀ s ∈ predefinedCounterStyles, lower s ≠ cs!"none" := by decide
    have h2 : ∀ s ∈ predefinedCounterStyles, lower s = s := by decide
    have h1 := h1 s ht
    rw [h2 s ht] at h1
    refine ⟨.predefined s, ?_, rfl⟩
    have ht' : s ∈ predefinedCounterStyles := ht
    simp only [print, List.cons_append, List.nil_append, parse, expectIdent, next_ident, h2 s ht, if_neg h1,
      parseCounterStyle, if_pos ht']
  | name s =>
    obtain ⟨h1, h2⟩ := ht
    refine ⟨.name s, ?_, rfl⟩
    simp only [List.mem_cons, List.not_mem_nil, or_false, not_or] at h2
    simp [print, parse, expectIdent, next_ident, parseCounterStyle, if_neg h1, HY.no_ident, parseCustomIdent, h2]
  | symbols y =>
    obtain ⟨y', e, h⟩ := HY.back y r
    refine ⟨.symbols y', ?_, by simp [map, h]⟩
    obtain ⟨l, el⟩ := HY.first y
    simp only [print, parse, parseCounterStyle, e]
    rw [el]
    rfl

theorem ListType.ends {Y W} {symbols : Codec Y} {ysem : Y → W} (HY : SymbolsLaw symbols ysem) {r}
    (h : Ends r) : ListType.parse symbols r = Option.none := by
  simp only [parse, expectIdent_ends h, parseCounterStyle, HY.stop r h]
  rcases h with rfl | ⟨l, rfl | rfl⟩ <;> rfl

theorem ListType.position_none {Y W} {symbols : Codec Y} {ysem : Y → W} (HY : SymbolsLaw symbols ysem)
    (t : ListType Y) (ht : t.Ok) (hp : ∀ s, t = .name s → lower s ≠ cs!"inside" ∧ lower s ≠ cs!"outside") (r) :
    (Kw.parse : Parser ListPosition) (t.print symbols ++ r) = Option.none := by
  have id : ∀ s, lower s ≠ cs!"inside" → lower s ≠ cs!"outside" →
      (Kw.parse : Parser ListPosition) (.ident s :: r) = Option.none := by
    intro s h1 h2
    apply kw_ident_none
    simp [Kw.isIdent, Kw.all, Kw.name, Ne.symm h1, Ne.symm h2]
  cases t with
  | none => rfl
  | string s => rfl
  | predefined s =>
    have h1 : ∀ s ∈ predefinedCounterStyles, lower s ≠ cs!"inside" ∧ lower s ≠ cs!"outside" := by decide
    exact id s (h1 s ht).1 (h1 s ht).2
  | name s => exact id s (hp s rfl).1 (hp s rfl).2
  | symbols y =>
    obtain ⟨l, el⟩ := HY.first y
    simp only [print, el]
    rfl

theorem ListType.parse_ws {Y W} {symbols : Codec Y} {ysem : Y → W} (HY : SymbolsLaw symbols ysem) (i) :
    ListType.parse symbols (.ws :: i) = ListType.parse symbols i := by
  simp only [parse, parseCounterStyle, HY.skip]; rfl

/-- **C64, `list-style`** (part): a value is printed as text that reads back as a value that means the same,
unless the position is `outside` and the marker is a counter style that is named `inside` or `outside`.
Missing: those values, whose name is read as a position (`C64_list_style_inside`). -/
theorem C64_list_style_partial {I V Y W} [DecidableEq I] [DecidableEq Y] (image : Codec I) (symbols : Codec Y)
    (isem : I → V) (ysem : Y → W) (HI : Plain image isem) (HY : SymbolsLaw symbols ysem)
    (l : ListStyle I Y) (hl : l.type.Ok)
    (hp : l.position = .outside → ∀ s, l.type = .name s → lower s ≠ cs!"inside" ∧ lower s ≠ cs!"outside")
    (r : List Tok) (hr : Ends r) :
    (∃ l', ListStyle.parse image symbols (l.print image symbols ++ r) = some (l', r) ∧
      l'.map isem ysem = l.map isem ysem) ∧ Separated (l.print image symbols) := by
  obtain ⟨p, g, t⟩ := l
  have nr : expectIdent cs!"none" r = none := expectIdent_ends hr
  have nws : ∀ i, expectIdent cs!"none" (.ws :: i) = expectIdent cs!"none" i := fun _ => rfl
  have np : ∀ (p : ListPosition) i, expectIdent cs!"none" (Kw.print p ++ i) = none := by
    intro p i; cases p <;> rfl
  have ng : ∀ (v : I) i, expectIdent cs!"none" (image.print v ++ i) = none := fun v i => HI.expectIdent_none _ v i
  have n0 : ∀ i, expectIdent cs!"none" (.ident cs!"none" :: i) = some i := fun _ => rfl
  choose gb egb hgb using parseImage_back HI
  choose tb etb htb using ListType.back HY t hl
  have gws := parseImage_ws HI
  have gr := parseImage_ends HI hr
  have gp := parseImage_kw HI
  have pr : (Kw.parse : Parser ListPosition) r = none := kw_ends hr
  have tr := ListType.ends HY hr
  have tws := ListType.parse_ws HY
  have sept : Separated (t.print symbols) := by
    cases t <;> first | trivial | exact HY.sep _
  have sepg := HI.sep
  by_cases h1 : t = .predefined cs!"disc"
  · subst h1
    cases p <;> rcases g with _ | g
    · refine ⟨⟨⟨.inside, none, .predefined cs!"disc"⟩, ?_, rfl⟩, by simp [ListStyle.print, Kw.print, Separated]⟩
      simp [ListStyle.parse, ListStyle.print, run, ListStyle.step, tryOne, np, gp, kw_back, nr, gr, tr]
    · refine ⟨⟨⟨.inside, some (gb g r), .predefined cs!"disc"⟩, ?_, by simp [ListStyle.map, hgb]⟩, by
        simpa [ListStyle.print, printImage] using sep_append_ws (sep_kw ListPosition.inside) (sepg g)⟩
      simp [ListStyle.parse, ListStyle.print, printImage, run, ListStyle.step, tryOne, np, gp, kw_back, nr, tr, nws,
        ng, gws, egb]
    · refine ⟨⟨⟨.outside, none, .predefined cs!"disc"⟩, ?_, rfl⟩, by simp [ListStyle.print, Kw.print, Separated]⟩
      simp [ListStyle.parse, ListStyle.print, run, ListStyle.step, tryOne, np, gp, kw_back, nr, gr, tr]
    · refine ⟨⟨⟨.outside, some (gb g r), .predefined cs!"disc"⟩, ?_, by simp [ListStyle.map, hgb]⟩, by
        simpa [ListStyle.print, printImage] using sepg g⟩
      simp [ListStyle.parse, ListStyle.print, printImage, run, ListStyle.step, tryOne, nr, tr, pr,
        ng, egb]
  · by_cases h2 : t = .none
    · subst h2
      cases p <;> rcases g with _ | g
      · refine ⟨⟨⟨.inside, none, .none⟩, ?_, rfl⟩, by
          simpa [ListStyle.print, printImage] using sep_append_ws (sep_kw ListPosition.inside) sept⟩
        simp [ListStyle.parse, ListStyle.print, run, ListStyle.step, tryOne, np, gp, kw_back, nr, gr, tr,
          nws, ListType.print, n0]
      · refine ⟨⟨⟨.inside, some (gb g (.ws :: .ident cs!"none" :: r)), .none⟩, ?_, by simp [ListStyle.map, hgb]⟩, by
          simpa [ListStyle.print, printImage] using
            sep_append_ws (sep_kw ListPosition.inside) (sep_append_ws (sepg g) sept)⟩
        simp [ListStyle.parse, ListStyle.print, printImage, run, ListStyle.step, tryOne, np, gp, kw_back, nr, tr, nws,
          ng, gws, egb, ListType.print, n0]
      · refine ⟨⟨⟨.outside, none, .none⟩, ?_, rfl⟩, by simp [ListStyle.print, ListType.print, Separated]⟩
        simp [ListStyle.parse, ListStyle.print, run, ListStyle.step, tryOne, nr, gr, tr, pr, ListType.print, n0]
      · refine ⟨⟨⟨.outside, some (gb g (.ws :: .ident cs!"none" :: r)), .none⟩, ?_, by simp [ListStyle.map, hgb]⟩, by
          simpa [ListStyle.print, printImage] using sep_append_ws (sepg g) sept⟩
        simp [ListStyle.parse, ListStyle.print, printImage, run, ListStyle.step, tryOne, nr, tr, pr, nws,
          ng, egb, ListType.print, n0]
    · obtain ⟨nt, gt⟩ := ListType.others HI HY t hl h2 r
      cases p <;> rcases g with _ | g
      · refine ⟨⟨⟨.inside, none, tb r⟩, ?_, by simp [ListStyle.map, htb]⟩, by
          simpa [ListStyle.print, printImage, h1] using sep_append_ws (sep_kw ListPosition.inside) sept⟩
        simp [ListStyle.parse, ListStyle.print, run, ListStyle.step, tryOne, np, gp, kw_back, nr, gr, h1,
          nws, nt, gt, gws, tws, etb]
      · refine ⟨⟨⟨.inside, some (gb g (.ws :: (t.print symbols ++ r))), tb r⟩, ?_, by
          simp [ListStyle.map, hgb, htb]⟩, by
          simpa [ListStyle.print, printImage, h1] using
            sep_append_ws (sep_kw ListPosition.inside) (sep_append_ws (sepg g) sept)⟩
        simp [ListStyle.parse, ListStyle.print, printImage, run, ListStyle.step, tryOne, np, gp, kw_back, nr, nws,
          ng, gws, egb, h1, nt, tws, etb]
      · have pt := ListType.position_none HY t hl (hp rfl) r
        refine ⟨⟨⟨.outside, none, tb r⟩, ?_, by simp [ListStyle.map, htb]⟩, by
          simpa [ListStyle.print, printImage, h1] using sept⟩
        simp [ListStyle.parse, ListStyle.print, run, ListStyle.step, tryOne, nr, gr, pr, h1, nt, gt, pt, etb]
      · have pt := ListType.position_none HY t hl (hp rfl) r
        refine ⟨⟨⟨.outside, some (gb g (.ws :: (t.print symbols ++ r))), tb r⟩, ?_, by
          simp [ListStyle.map, hgb, htb]⟩, by
          simpa [ListStyle.print, printImage, h1] using sep_append_ws (sepg g) sept⟩
        simp [ListStyle.parse, ListStyle.print, printImage, run, ListStyle.step, tryOne, nr, pr, nws,
          ng, egb, h1, nt, pt, kw_ws, tws, etb]

theorem parseCounterStyle_ok {Y} (symbols : Codec Y) {i t r} (hn : expectIdent cs!"none" i = none)
    (h : parseCounterStyle symbols i = some (t, r)) : t.Ok := by
  have rest : (∀ s x, next i = some (.ident s, x) → lower s ∉ predefinedCounterStyles) →
      (match symbols.parse i with
      | some (y, i) => some (ListType.symbols y, i)
      | none =>
        match parseCustomIdent i with
        | some (s, i) => some (.name s, i)
        | none => none) = some (t, r) → t.Ok := by
    intro hi h
    split at h
    · cases h; trivial
    · split at h
      · rename_i s j e
        cases h
        simp only [parseCustomIdent] at e
        split at e
        · rename_i s' r' en
          split at e
          · cases e
          · rename_i hc
            cases e
            refine ⟨hi _ _ en, ?_⟩
            simp only [expectIdent, en] at hn
            split at hn
            · cases hn
            · rename_i h0
              simp only [List.mem_cons, List.not_mem_nil, or_false, not_or] at hc ⊢
              exact ⟨h0, hc⟩
        · cases e
      · cases h
  simp only [parseCounterStyle] at h
  split at h
  · rename_i s x en
    split at h
    · rename_i hs; cases h; exact hs
    · rename_i hs
      apply rest _ h
      intro s' x' e'
      rw [en] at e'; cases e'; exact hs
  · rename_i hne
    exact rest (fun s x e => absurd e (hne s x)) h

theorem ListType.parse_ok {Y} (symbols : Codec Y) {i t r} (h : ListType.parse symbols i = some (t, r)) : t.Ok := by
  simp only [parse] at h
  split at h
  · cases h; trivial
  · rename_i hn
    split at h
    · cases h; trivial
    · exact parseCounterStyle_ok symbols hn h

theorem run_inv {σ : Type} {step : σ → List Tok → σ × List Tok × Bool} (P : σ → Prop)
    (h : ∀ s i, P s → P (step s i).1) (n s i) (hs : P s) : P (run step n s i).1 := by
  induction n generalizing s i with
  | zero => exact hs
  | succ n ih =>
    have := h s i hs
    simp only [run]
    split
    · rename_i e; rw [e] at this; exact ih _ _ this
    · rename_i e; rw [e] at this; exact this

/-- Every value of `list-style` that is read from text meets the first hypothesis of
`C64_list_style_partial`. -/
theorem C64_list_style_read {I Y} (image : Codec I) (symbols : Codec Y) (i r : List Tok) (l : ListStyle I Y)
    (h : ListStyle.parse image symbols i = some (l, r)) : l.type.Ok := by
  have inv : ∀ t, (run (ListStyle.step image symbols) 6 ⟨none, none, none, 0, false⟩ i).1.type = some t → t.Ok := by
    apply run_inv (fun s : ListSlots I Y => ∀ t, s.type = some t → t.Ok)
    · intro s j hs
      simp only [ListStyle.step]
      split
      · split <;> exact hs
      · split
        · exact hs
        · split
          · exact hs
          · split
            · rename_i v k e
              intro t ht
              cases ht
              simp only [tryOne] at e
              split at e
              · cases e
              · exact ListType.parse_ok symbols e
            · exact hs
    · intro t ht; cases ht
  simp only [ListStyle.parse] at h
  have d : (ListType.predefined cs!"disc" : ListType Y).Ok := by
    show cs!"disc" ∈ predefinedCounterStyles; decide
  split at h
  · cases h
  · split at h <;> cases h
    · trivial
    · trivial
    · trivial
    · rename_i e; exact inv _ e
    · rename_i t _ _ e
      cases ht : (run (ListStyle.step image symbols) 6 ⟨none, none, none, 0, false⟩ i).1.type with
      | none => exact d
      | some t => exact inv t ht

/-! ### Examples and what is lost -/

/-- A value that meets the hypotheses of `C64_list_style_partial`. -/
example : let l : ListStyle Str Str := ⟨.inside, some cs!"url", .name cs!"outside"⟩
    Plain (sample 'u') id ∧ SymbolsLaw sampleSymbols id ∧ l.type.Ok ∧
    (l.position = .outside → ∀ s, l.type = .name s → lower s ≠ cs!"inside" ∧ lower s ≠ cs!"outside") ∧
    l.print (sample 'u') sampleSymbols =
      [.ident cs!"inside", .ws, .other cs!"uurl", .ws, .ident cs!"outside"] :=
  ⟨sample_plain _, sampleSymbols_law, ⟨by decide, by decide⟩, (by intro h; cases h), by decide⟩

/-- `list-style: outside inside` has the position `outside` and the counter style `inside`; it is printed as
`list-style: inside`, which has the position `inside`. -/
theorem C64_list_style_inside :
    ListStyle.parse (sample 'u') sampleSymbols [.ident cs!"outside", .ws, .ident cs!"inside"] =
      some (⟨.outside, none, .name cs!"inside"⟩, []) ∧
    (ListStyle.mk .outside none (.name cs!"inside")).print (sample 'u') sampleSymbols =
      [.ident cs!"inside"] ∧
    ListStyle.parse (sample 'u') sampleSymbols [.ident cs!"inside"] =
      some (⟨.inside, none, .predefined cs!"disc"⟩, []) := by
  decide +kernel

/-- A value that meets the hypotheses of `C64_text_decoration_partial`. -/
example : let d : TextDecoration Str (Option Str) :=
      ⟨⟨true, false, true, false, false, false⟩, .length cs!"2px", .wavy, some cs!"f00"⟩
    Plain (sample 'l') id ∧ ColorLaw sampleColor id ∧ Apart (sample 'l').parse sampleColor ∧ d.line.Ok ∧
    (d.line = ⟨false, false, false, false, false, false⟩ →
      d.thickness = .auto ∧ d.style = .solid ∧ d.color = none) ∧
    d.print (sample 'l') sampleColor none = [.ident cs!"underline", .ws, .ident cs!"line-through", .ws,
      .other cs!"l2px", .ws, .ident cs!"wavy", .ws, .other cs!"#f00"] :=
  ⟨sample_plain _, sampleColor_law, sample_apart _ (by decide), ⟨by decide, by decide⟩, by decide, by decide⟩

/-- `text-decoration: none #f00` sets the color, but is printed as `text-decoration: none`. -/
theorem C64_text_decoration_none :
    TextDecoration.parse (sample 'l') sampleColor none [.ident cs!"none", .ws, .other cs!"#f00"] =
      some (⟨TextLine.empty, .auto, .solid, some cs!"f00"⟩, []) ∧
    (TextDecoration.mk TextLine.empty (.auto : Thickness Str) .solid (some cs!"f00")).print (sample 'l')
      sampleColor none = [.ident cs!"none"] := by
  decide +kernel

/-- `text-decoration: spelling-error underline` is read, but printed as `text-decoration: spelling-error`. -/
theorem C64_text_decoration_error :
    TextDecoration.parse (sample 'l') sampleColor none
        [.ident cs!"spelling-error", .ws, .ident cs!"underline"] =
      some (⟨⟨true, false, false, false, true, false⟩, .auto, .solid, none⟩, []) ∧
    (TextDecoration.mk ⟨true, false, false, false, true, false⟩ (.auto : Thickness Str) .solid
      (none : Option Str)).print (sample 'l') sampleColor none = [.ident cs!"spelling-error"] := by
  decide +kernel

/-- A value that meets the hypotheses of `C64_text_emphasis_partial`. -/
example : let e : TextEmphasis (Option Str) := ⟨.keyword .open (some .sesame), some cs!"f00"⟩
    ColorLaw sampleColor id ∧ (e.style = .none → e.color = none) ∧
    e.print sampleColor none = [.ident cs!"open", .ws, .ident cs!"sesame", .ws, .other cs!"#f00"] :=
  ⟨sampleColor_law, by decide, by decide⟩

/-- `text-emphasis: none #f00` sets the color, but is printed as `text-emphasis: none`. -/
theorem C64_text_emphasis_none :
    TextEmphasis.parse sampleColor none [.ident cs!"none", .ws, .other cs!"#f00"] =
      some (⟨.none, some cs!"f00"⟩, []) ∧
    (TextEmphasis.mk .none (some cs!"f00")).print sampleColor none = [.ident cs!"none"] ∧
    TextEmphasis.parse sampleColor none [.ident cs!"none"] = some (⟨.none, none⟩, []) := by
  decide +kernel

end Verif.Shorthand
