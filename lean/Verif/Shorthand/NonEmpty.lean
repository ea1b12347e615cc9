import Verif.Shorthand.AnimProps
/-!
A printed value is never empty: a declaration with an empty value is dropped by browsers. The parsers of these
shorthands accept an empty text (the declaration parser rejects it), so that reading back does not show this; the
parsers of the other shorthands reject an empty text.
-/
namespace Verif.Shorthand

/-- **C63**: `caret` is never printed as nothing. -/
theorem C63_caret_nonempty {C V} [DecidableEq C] (color : Codec C) (sem : C → V) (H : ColorLaw color sem)
    (c : Caret C) : c.print color ≠ [] := by
  obtain ⟨a, s⟩ := c
  have h1 : a.print color ≠ [] := by
    cases a with
    | auto => simp [ColorOrAuto.print]
    | color c => obtain ⟨t, l, e, _⟩ := H.first c; simp [ColorOrAuto.print, e]
  by_cases ha : a = .auto <;> by_cases hs : s = .auto <;> simp [Caret.print, ha, hs, h1, Kw.print]
  simp [ColorOrAuto.print]

/-- `caret: auto`. -/
example : (⟨.auto, .auto⟩ : Caret (Option Str)).print sampleColor = [.ident cs!"auto"] := by decide

/-- **C63**: `flex-flow` is never printed as nothing. -/
theorem C63_flex_flow_nonempty (f : FlexFlow) : f.print ≠ [] := by
  obtain ⟨d, w⟩ := f
  cases d <;> cases w <;> simp [FlexFlow.print, Kw.print]

/-- `flex-flow: row`. -/
example : (⟨.row, .nowrap⟩ : FlexFlow).print = [.ident cs!"row"] := by decide

/-- **C63**: `flex` is never printed as nothing, provided that no basis and no number is. -/
theorem C63_flex_nonempty {N L P K} [DecidableEq N] (p : FlexParts N L P K) (hn : ∀ n, p.num.print n ≠ [])
    (hb : ∀ b, p.basis.print b ≠ []) (f : Flex N L P K) : f.print p ≠ [] := by
  obtain ⟨g, s, b⟩ := f
  have key : ∀ isAuto : Bool, (if g = p.zero ∧ s = p.zero ∧ isAuto = true then [Tok.ident cs!"none"]
      else
        (if g ≠ p.one ∨ s ≠ p.one ∨ Flex.basisKind p b ≠ .nonZero then
          p.num.print g ++
            if s ≠ p.one ∨ Flex.basisKind p b = .length then .ws :: p.num.print s else []
         else []) ++
        if Flex.basisKind p b ≠ .percentage then
          (if g ≠ p.one ∨ s ≠ p.one ∨ Flex.basisKind p b = .length then [.ws] else []) ++ p.basis.print b
        else []) ≠ [] := by
    intro isAuto
    split
    · simp
    · by_cases h : Flex.basisKind p b = .percentage
      · simp [h, hn]
      · simp [h, hb]
  exact key _

/-- `flex: 1`. -/
example : (⟨cs!"1", cs!"1", .pct cs!"0"⟩ : Flex Str Str Str Str).print sampleFlex = [.other cs!"n1"] := by decide

/-- **C64**: `list-style` is never printed as nothing. -/
theorem C64_list_style_nonempty {I V Y W} [DecidableEq I] [DecidableEq Y] (image : Codec I) (symbols : Codec Y)
    (isem : I → V) (ysem : Y → W) (HI : Plain image isem) (HY : SymbolsLaw symbols ysem) (l : ListStyle I Y) :
    l.print image symbols ≠ [] := by
  obtain ⟨p, g, t⟩ := l
  have h1 : ∀ v, image.print v ≠ [] := by
    intro v; obtain ⟨t, l, e, _⟩ := HI.first v; simp [e]
  have h2 : t.print symbols ≠ [] := by
    cases t with
    | symbols y => obtain ⟨l, e⟩ := HY.first y; simp [ListType.print, e]
    | _ => simp [ListType.print]
  by_cases hp : p = .outside <;> by_cases ht : t = .predefined cs!"disc" <;> cases g <;>
    simp [ListStyle.print, hp, ht, h1, h2, Kw.print, printImage]

/-- `list-style: outside`. -/
example : (⟨.outside, none, .predefined cs!"disc"⟩ : ListStyle Str Str).print (sample 'u') sampleSymbols =
    [.ident cs!"outside"] := by decide

/-- **C64**: `text-decoration` is never printed as nothing. -/
theorem C64_text_decoration_nonempty {T C} [DecidableEq T] [DecidableEq C] (lp : Codec T) (color : Codec C)
    (currentColor : C) (d : TextDecoration T C) : d.print lp color currentColor ≠ [] := by
  have : ∀ l : TextLine, l.print ≠ [] := by
    rintro ⟨a, b, c, d, e, f⟩
    cases a <;> cases b <;> cases c <;> cases d <;> cases e <;> cases f <;> decide
  simp [TextDecoration.print, this]

/-- `text-decoration: none`. -/
example : (⟨.empty, .auto, .solid, none⟩ : TextDecoration Str (Option Str)).print (sample 'l') sampleColor none =
    [.ident cs!"none"] := by decide

/-- **C64**: `text-emphasis` is never printed as nothing. -/
theorem C64_text_emphasis_nonempty {C} [DecidableEq C] (color : Codec C) (currentColor : C) (e : TextEmphasis C) :
    e.print color currentColor ≠ [] := by
  have : ∀ s : EmphasisStyle, s.print ≠ [] := by
    intro s
    cases s with
    | none => simp [EmphasisStyle.print]
    | string s => simp [EmphasisStyle.print]
    | keyword f s => cases f <;> rcases s with _ | s <;> simp [EmphasisStyle.print, Kw.print]
  simp [TextEmphasis.print, this]

/-- `text-emphasis: filled`. -/
example : (⟨.keyword .filled none, none⟩ : TextEmphasis (Option Str)).print sampleColor none =
    [.ident cs!"filled"] := by decide

/-- **C65**: `animation` is never printed as nothing. -/
theorem C65_animation_nonempty {M N T} [DecidableEq N] [DecidableEq T] (p : AnimParts M N T) (m : Bool)
    (a : Animation M N T) : a.print p m ≠ [] := by
  have : a.name.print ≠ [] := by
    rcases a.name.print_eq with e | ⟨_, _, e | e⟩ <;> simp [e]
  simp [Animation.print, this]

/-- **C65**: `transition` is never printed as nothing. -/
theorem C65_transition_nonempty {M N T} [DecidableEq N] (p : AnimParts M N T) (m : Bool)
    (t : Transition M N) : t.print p m ≠ [] := by
  simp [Transition.print]

/-- `animation: none` and `transition: all`. -/
example :
    (⟨.none, cs!"0", .ease, .number ['h', 'd'], .normal, .running, cs!"0", .none, .auto⟩ :
      Animation Str Str Str).print sampleAnim true = [.ident cs!"none"] ∧
    (⟨cs!"all", cs!"0", cs!"0", .ease⟩ : Transition Str Str).print sampleAnim true = [.ident cs!"all"] :=
  ⟨by decide, by decide⟩

/-! ### Reading the keywords of easing functions -/

/-- The curve that each keyword of easing functions stands for (CSS Easing Functions § 2). -/
def keywordCurve {V} (h : Nat → V) : List (Str × Curve V) := [
  (cs!"linear", .linear),
  (cs!"ease", .bezier (h 25) (h 10) (h 25) (h 100)),
  (cs!"ease-in", .bezier (h 42) (h 0) (h 100) (h 100)),
  (cs!"ease-out", .bezier (h 0) (h 0) (h 58) (h 100)),
  (cs!"ease-in-out", .bezier (h 42) (h 0) (h 58) (h 100)),
  (cs!"step-start", .steps 1 .start),
  (cs!"step-end", .steps 1 .end)]

/-- The positions of steps by their keywords; `start` and `end` are other names of `jump-start` and `jump-end`
(CSS Easing Functions § 2.3). -/
def keywordPosition : List (Str × StepPosition) := [
  (cs!"jump-start", .start), (cs!"start", .start), (cs!"jump-end", .end), (cs!"end", .end),
  (cs!"jump-none", .jumpNone), (cs!"jump-both", .jumpBoth)]

/-- **C66**: a keyword, in any case, is read as the curve it stands for; other identifiers are not read. -/
theorem C66_easing_keywords {N V} (p : EasingParts N) (num : N → V) (h : Nat → V) (s : Str) (r : List Tok) :
    (Easing.parse p (.ident s :: r)).map (fun e => (e.1.curve num h, e.2)) =
      ((keywordCurve h).find? (fun k => k.1 = lower s)).map (fun k => (k.2, r)) := by
  simp only [Easing.parse, next, Easing.ofKeyword]
  by_cases h1 : lower s = cs!"linear"
  · rw [h1]; rfl
  by_cases h2 : lower s = cs!"ease"
  · rw [h2]; rfl
  by_cases h3 : lower s = cs!"ease-in"
  · rw [h3]; rfl
  by_cases h4 : lower s = cs!"ease-out"
  · rw [h4]; rfl
  by_cases h5 : lower s = cs!"ease-in-out"
  · rw [h5]; rfl
  by_cases h6 : lower s = cs!"step-start"
  · rw [h6]; rfl
  by_cases h7 : lower s = cs!"step-end"
  · rw [h7]; rfl
  simp [h1, h2, h3, h4, h5, h6, h7, keywordCurve, Ne.symm h1, Ne.symm h2, Ne.symm h3, Ne.symm h4, Ne.symm h5,
    Ne.symm h6, Ne.symm h7]

/-- **C66**: the position of steps is read from its keyword, in any case. -/
theorem C66_step_position (s : Str) (r : List Tok) :
    StepPosition.parse (.ident s :: r) = (keywordPosition.find? (fun k => k.1 = lower s)).map (fun k => (k.2, r)) := by
  simp only [StepPosition.parse, next]
  by_cases h1 : lower s = cs!"start"
  · rw [h1]; rfl
  by_cases h2 : lower s = cs!"end"
  · rw [h2]; rfl
  by_cases h3 : lower s = cs!"jump-start"
  · rw [h3]; rfl
  by_cases h4 : lower s = cs!"jump-end"
  · rw [h4]; rfl
  by_cases h5 : lower s = cs!"jump-none"
  · rw [h5]; rfl
  by_cases h6 : lower s = cs!"jump-both"
  · rw [h6]; rfl
  simp [h1, h2, h3, h4, h5, h6, keywordPosition, Ne.symm h1, Ne.symm h2, Ne.symm h3, Ne.symm h4, Ne.symm h5,
    Ne.symm h6]

/-- `Step-End` and `Jump-None`. -/
example : (Easing.parse sampleEasing [.ident cs!"Step-End"]).map (·.1) = some (.steps 1 .end) ∧
    StepPosition.parse [.ident cs!"Jump-None"] = some (.jumpNone, []) := ⟨rfl, rfl⟩

end Verif.Shorthand
