import Verif.Grid.AreasProps
/-! Placement: `grid-row-start`, `grid-row`, `grid-area` and so on (C108), and `grid-auto-flow` (C109). -/
namespace Verif.Grid
open Spec

theorem customIdent_some {s : Str} (h : Custom s) : customIdent (.ident s) = some s := (customIdent_iff _ _).2 ⟨rfl, h⟩

theorem optInt_stop {r} (h : Stop r) : optInt r = none := by rcases h with rfl | ⟨r, rfl⟩ <;> rfl
theorem optIdent_stop {r} (h : Stop r) : optIdent r = none := by rcases h with rfl | ⟨r, rfl⟩ <;> rfl
theorem maybeIdent_stop {r} (h : Stop r) : maybeIdent r = (none, r) := by simp [maybeIdent, optIdent_stop h]
theorem maybeIdent_ident {s r} (h : Custom s) : maybeIdent (.ident s :: r) = (some s, r) := by
  simp [maybeIdent, optIdent, customIdent_some h]

theorem not_kw {s w : Str} (h : ¬ word s w) : kw s w = false := by
  rw [Bool.eq_false_iff, Ne, kw_iff]; exact h

theorem custom_of_word {k w : Str} (h : word k w)
    (hw : w ∉ [cs!"initial", cs!"inherit", cs!"unset", cs!"default", cs!"revert", cs!"revert-layer"]) : Custom k := by
  intro x hx hk
  have : w = x := h.symm.trans hk
  exact hw (this ▸ hx)

theorem custom_span {k : Str} (h : word k cs!"span") : Custom k := custom_of_word h (by decide)

theorem stop_not_ident {r} (h : Stop r) {s r'} : r ≠ .ident s :: r' := by
  rintro rfl
  rcases h with h | ⟨_, h⟩ <;> cases h

/-- What the parser makes of a `<grid-line>`: the line, except that a count or a name followed by `span` is read as a
line with the name `span`, or up to the word `span` only. -/
theorem parseLine_complete {ts l} (h : LineG ts l) {r} (hr : Stop r) :
    parseLine (ts ++ r) = some (l, r) ∨
    (∃ n k, word k cs!"span" ∧ 1 ≤ n ∧ ts = [.int n, .ident k] ∧ l = .span n none ∧ parseLine (ts ++ r) = some (.line n (some k), r)) ∨
    (∃ l' k, word k cs!"span" ∧ (∃ pre, pre ≠ [] ∧ ts = pre ++ [.ident k]) ∧ parseLine (ts ++ r) = some (l', .ident k :: r)) := by
  cases h with
  | auto hw => left; simp [parseLine, (kw_iff _ _).2 hw]
  | area hs =>
    left
    rcases hr with rfl | ⟨r, rfl⟩ <;>
      simp [parseLine, not_kw hs.2.1, not_kw hs.2.2, parseLineRest, optInt, optIdent, customIdent_some hs.1]
  | int hn => left; simp [parseLine, parseLineRest, optInt, hn, maybeIdent_stop hr]
  | intName hn hs => left; simp [parseLine, parseLineRest, optInt, hn, maybeIdent_ident hs.1]
  | nameInt hn hs =>
    left
    simp [parseLine, not_kw hs.2.1, not_kw hs.2.2, parseLineRest, optInt, optIdent, customIdent_some hs.1, hn]
  | @span ts k n s hk ha =>
    left
    have h1 := word_ne (b := cs!"auto") hk (by decide)
    have hp : parseLine (.ident k :: ts ++ r) = parseSpan (ts ++ r) := by simp [parseLine, h1, (kw_iff _ _).2 hk]
    rw [hp]
    obtain ⟨hn, ⟨rfl, rfl⟩ | ⟨w, hw, rfl, ⟨rfl, rfl⟩ | rfl | rfl⟩⟩ := ha
    · simp [parseSpan, optInt, maybeIdent_stop hr]; omega
    · rcases hr with rfl | ⟨r, rfl⟩ <;> simp [parseSpan, optInt, optIdent, customIdent_some hw.1]
    · simp [parseSpan, optInt, maybeIdent_ident hw.1]; omega
    · simp [parseSpan, optInt, optIdent, customIdent_some hw.1]; omega
  | @spanEnd ts k n s hk ha =>
    right
    obtain ⟨hn, ⟨rfl, rfl⟩ | ⟨w, hw, rfl, ⟨rfl, rfl⟩ | rfl | rfl⟩⟩ := ha
    · left
      refine ⟨n, k, hk, hn, rfl, rfl, ?_⟩
      simp [parseLine, parseLineRest, optInt, maybeIdent_ident (custom_span hk)]; omega
    · right
      refine ⟨.area w, k, hk, ⟨_, by simp, rfl⟩, ?_⟩
      simp [parseLine, not_kw hw.2.1, not_kw hw.2.2, parseLineRest, optInt, optIdent, customIdent_some hw.1]
    · right
      refine ⟨.line n (some w), k, hk, ⟨_, by simp, rfl⟩, ?_⟩
      simp [parseLine, parseLineRest, optInt, maybeIdent_ident hw.1]; omega
    · right
      refine ⟨.line n (some w), k, hk, ⟨_, by simp, rfl⟩, ?_⟩
      simp [parseLine, not_kw hw.2.1, not_kw hw.2.2, parseLineRest, optInt, optIdent, customIdent_some hw.1]; omega

/-- The values that can be written by the CSS grammar. -/
def Line.Ok : Line → Prop
  | .auto => True
  | .area s => LineName s
  | .line n s => n ≠ 0 ∧ ∀ w, s = some w → LineName w
  | .span n s => 1 ≤ n ∧ ∀ w, s = some w → LineName w

theorem LineG.ok {ts l} (h : LineG ts l) : l.Ok := by
  have span : ∀ {ts n s}, SpanArgG ts n s → (Line.span n s).Ok := by
    rintro ts n s ⟨hn, ⟨rfl, rfl⟩ | ⟨w, hw, rfl, _⟩⟩
    · exact ⟨hn, by simp⟩
    · exact ⟨hn, by simpa using hw⟩
  cases h with
  | auto => trivial
  | area h => exact h
  | int h => exact ⟨h, by simp⟩
  | intName h hs => exact ⟨h, by simpa using hs⟩
  | nameInt h hs => exact ⟨h, by simpa using hs⟩
  | span _ h => exact span h
  | spanEnd _ h => exact span h

theorem printLine_G {l : Line} (h : l.Ok) : LineG (printLine l) l := by
  cases l with
  | auto => exact .auto (by unfold word; decide)
  | area s => exact .area h
  | line n s =>
    cases s with
    | none => exact .int h.1
    | some w => exact .intName h.1 (h.2 w rfl)
  | span n s =>
    cases s with
    | none =>
      have : printLine (.span n none) = .ident cs!"span" :: [.int n] := by simp [printLine]
      rw [this]
      exact .span (by unfold word; decide) ⟨h.1, .inl ⟨rfl, rfl⟩⟩
    | some w =>
      by_cases hn : n = 1
      · have : printLine (.span n (some w)) = .ident cs!"span" :: [.ident w] := by simp [printLine, hn]
        rw [this]
        exact .span (by unfold word; decide) ⟨h.1, .inr ⟨w, h.2 w rfl, rfl, .inl ⟨rfl, hn⟩⟩⟩
      · have : printLine (.span n (some w)) = .ident cs!"span" :: [.int n, .ident w] := by simp [printLine, hn]
        rw [this]
        exact .span (by unfold word; decide) ⟨h.1, .inr ⟨w, h.2 w rfl, rfl, .inr (.inl rfl)⟩⟩

/-- How a line that was read (second argument) stands for a line of the grammar. -/
def Same (l l' : Line) : Prop :=
  LineG (printLine l') l ∧ (∀ s, l' = .area s ↔ l = .area s) ∧ (l' = .auto ↔ l = .auto)

theorem same_refl {l : Line} (h : l.Ok) : Same l l := ⟨printLine_G h, fun _ => Iff.rfl, Iff.rfl⟩

theorem parseLine_same {ts l} (h : LineG ts l) {r} (hr : Stop r) :
    (∃ l', parseLine (ts ++ r) = some (l', r) ∧ Same l l') ∨ (∃ l' k, word k cs!"span" ∧ parseLine (ts ++ r) = some (l', .ident k :: r)) := by
  rcases parseLine_complete h hr with h1 | ⟨n, k, hk, hn, rfl, rfl, h1⟩ | ⟨l', k, hk, _, h1⟩
  · exact .inl ⟨l, h1, same_refl (LineG.ok h)⟩
  · refine .inl ⟨_, h1, ?_, by simp, by simp⟩
    simp only [printLine]
    exact LineG.spanEnd (ts := [.int n]) hk ⟨hn, .inl ⟨rfl, rfl⟩⟩
  · exact .inr ⟨l', k, hk, h1⟩

theorem EndG_iff (a b : Line) : EndG a b ↔ b = a.defaultEnd := by
  constructor
  · intro h
    cases h with
    | area => rfl
    | other h =>
      cases a with
      | area s => exact absurd rfl (h s)
      | _ => rfl
  · rintro rfl
    cases a with
    | area s => exact .area
    | _ => exact .other (by simp)

theorem canOmitEnd_iff (a b : Line) : a.canOmitEnd b = true ↔ b = a.defaultEnd := by
  cases a <;> simp [Line.canOmitEnd, Line.defaultEnd]

theorem same_default {a a' : Line} (h : Same a a') (ha : a.Ok) : Same a.defaultEnd a'.defaultEnd := by
  have h1 : a.defaultEnd = a'.defaultEnd := by
    cases a' with
    | area s => rw [((h.2.1 s).1 rfl)]
    | _ =>
      cases a with
      | area s => exact absurd ((h.2.1 s).2 rfl) (by simp)
      | _ => rfl
  rw [← h1]
  apply same_refl
  cases a with
  | area s => exact ha
  | _ => trivial

theorem same_omit {a a' b b' : Line} (ha : Same a a') (hb : Same b b') : a'.canOmitEnd b' = a.canOmitEnd b := by
  rw [Bool.eq_iff_iff, canOmitEnd_iff, canOmitEnd_iff]
  cases a' with
  | area s =>
    rw [(ha.2.1 s).1 rfl]
    exact hb.2.1 s
  | _ =>
    cases a with
    | area s => exact absurd ((ha.2.1 s).2 rfl) (by simp)
    | _ => exact hb.2.2

/-! ### C108 -/

/-- A `<grid-line>` value that is understood is printed to something that means the same by the CSS grammar. -/
theorem C108_line (ts : List Tok) (l l' : Line) (h : LineG ts l) (hp : parseLine ts = some (l', [])) : LineG (printLine l') l := by
  rcases parseLine_same h (r := []) (.inl rfl) with ⟨l'', h1, hs⟩ | ⟨l'', k, _, h1⟩
  · simp only [List.append_nil] at h1
    rw [hp] at h1
    cases h1
    exact hs.1
  · simp only [List.append_nil] at h1
    rw [hp] at h1
    cases h1

/-- Every `<grid-line>` value is understood as the CSS grammar says, unless the word `span` comes last. -/
theorem C108_accept_partial (ts : List Tok) (l : Line) (h : LineG ts l)
    (hs : ∀ pre k, ts = pre ++ [.ident k] → pre ≠ [] → ¬ word k cs!"span") : parseLine ts = some (l, []) := by
  rcases parseLine_complete h (r := []) (.inl rfl) with h1 | ⟨n, k, hk, _, rfl, _, _⟩ | ⟨l', k, hk, ⟨pre, hne, rfl⟩, _⟩
  · simpa using h1
  · exact absurd hk (hs [.int n] k rfl (by simp))
  · exact absurd hk (hs pre k rfl hne)

theorem slash_cons (r : List Tok) : slash (.slash :: r) = some r := rfl
theorem slash_nil : slash [] = none := rfl
theorem slash_ident (k : Str) (r : List Tok) : slash (.ident k :: r) = none := rfl

theorem printPlacement_G {a a' b b' : Line} (ha : Same a a') (hb : Same b b') : PlacementG (printPlacement a' b') a b := by
  unfold printPlacement
  rw [same_omit ha hb]
  split
  · next h =>
    rw [List.append_nil]
    exact .one ha.1 ((EndG_iff _ _).2 ((canOmitEnd_iff _ _).1 h))
  · exact .two ha.1 hb.1

/-- `grid-row` and `grid-column`: what is printed means the same, also when the end line is left out. -/
theorem C108_placement (ts : List Tok) (a b a' b' : Line) (h : PlacementG ts a b) (hp : parsePlacement ts = some ((a', b'), [])) :
    PlacementG (printPlacement a' b') a b := by
  cases h with
  | one ha he =>
    rw [EndG_iff] at he
    subst he
    rcases parseLine_same ha (r := []) (.inl rfl) with ⟨l'', h1, hs⟩ | ⟨l'', k, _, h1⟩
    · simp only [List.append_nil] at h1
      simp only [parsePlacement, h1, Option.bind_some, slash_nil] at hp
      cases hp
      exact printPlacement_G hs (same_default hs (LineG.ok ha))
    · simp only [List.append_nil] at h1
      simp [parsePlacement, h1, slash] at hp
  | @two t1 t2 _ _ ha hb =>
    rcases parseLine_same ha (r := .slash :: t2) (.inr ⟨_, rfl⟩) with ⟨l'', h1, hs⟩ | ⟨l'', k, _, h1⟩
    · simp only [parsePlacement, h1, Option.bind_some, slash_cons, Option.map_eq_some_iff] at hp
      obtain ⟨⟨b'', r''⟩, hb', he⟩ := hp
      cases he
      rcases parseLine_same hb (r := []) (.inl rfl) with ⟨l''', h2, hs2⟩ | ⟨_, k, _, h2⟩
      · simp only [List.append_nil] at h2
        rw [hb'] at h2
        cases h2
        exact printPlacement_G hs hs2
      · simp only [List.append_nil] at h2
        rw [hb'] at h2
        cases h2
    · simp [parsePlacement, h1, slash] at hp

theorem printArea_G {a a' : Area} (h1 : Same a.rowStart a'.rowStart) (h2 : Same a.columnStart a'.columnStart)
    (h3 : Same a.rowEnd a'.rowEnd) (h4 : Same a.columnEnd a'.columnEnd) : AreaG (printArea a') a := by
  obtain ⟨rs, cs, re, ce⟩ := a
  simp only [printArea, same_omit h2 h4, same_omit h1 h3, same_omit h1 h2]
  simp only at h1 h2 h3 h4 ⊢
  by_cases hce : cs.canOmitEnd ce = true
  · by_cases hre : rs.canOmitEnd re = true
    · by_cases hcs : rs.canOmitEnd cs = true
      · simp only [hce, hre, hcs, Bool.and_self, if_true, List.append_nil]
        rw [canOmitEnd_iff] at hce hre hcs
        have hdd : rs.defaultEnd.defaultEnd = rs.defaultEnd := by cases rs <;> rfl
        rw [hcs, hdd] at hce
        rw [hce, hre, hcs]
        exact .one h1.1 ((EndG_iff _ _).2 rfl)
      · simp only [hce, hre, hcs, Bool.and_self, Bool.and_false, if_true, List.append_nil]
        rw [canOmitEnd_iff] at hce hre
        exact .two h1.1 h2.1 ((EndG_iff _ _).2 hre) ((EndG_iff _ _).2 hce)
    · simp only [hce, hre, Bool.and_false, Bool.false_and, if_true, List.append_nil, List.append_assoc]
      rw [canOmitEnd_iff] at hce
      exact .three h1.1 h2.1 h3.1 ((EndG_iff _ _).2 hce)
  · simp only [hce, Bool.false_and, List.append_assoc]
    exact .four h1.1 h2.1 h3.1 h4.1

/-- Reading one more line of `grid-area`. -/
theorem step {ts l r l' r'} (h : LineG ts l) (hr : Stop r) (hp : parseLine (ts ++ r) = some (l', r')) :
    (r' = r ∧ Same l l') ∨ (∃ k, r' = .ident k :: r) := by
  rcases parseLine_same h hr with ⟨l'', h1, hs⟩ | ⟨_, k, _, h1⟩
  · rw [hp] at h1; cases h1; exact .inl ⟨rfl, hs⟩
  · rw [hp] at h1; cases h1; exact .inr ⟨k, rfl⟩

/-- `grid-area`: what is printed means the same, whichever of the lines are left out. -/
theorem C108_area (ts : List Tok) (a a' : Area) (h : AreaG ts a) (hp : parseArea ts = some (a', [])) : AreaG (printArea a') a := by
  unfold parseArea at hp
  simp only [Option.bind_eq_some_iff] at hp
  obtain ⟨⟨rs', r⟩, h1, hp⟩ := hp
  simp only at hp
  cases h with
  | one ha he =>
    rw [EndG_iff] at he
    subst he
    rw [← List.append_nil ts] at h1
    rcases step ha (.inl rfl) h1 with ⟨rfl, hs⟩ | ⟨k, rfl⟩
    · simp only [slash_nil] at hp
      cases hp
      have hd := same_default hs (LineG.ok ha)
      exact printArea_G hs hd hd hd
    · simp [slash_ident] at hp
  | @two t1 t2 _ _ _ _ ha hb he1 he2 =>
    rw [EndG_iff] at he1 he2
    subst he1 he2
    rcases step ha (.inr ⟨_, rfl⟩) h1 with ⟨rfl, hs⟩ | ⟨k, rfl⟩
    · simp only [slash_cons, Option.bind_eq_some_iff] at hp
      obtain ⟨⟨cs', r⟩, h2, hp⟩ := hp
      rw [← List.append_nil t2] at h2
      rcases step hb (.inl rfl) h2 with ⟨rfl, hs2⟩ | ⟨k, rfl⟩
      · simp only [slash_nil] at hp
        cases hp
        exact printArea_G hs hs2 (same_default hs (LineG.ok ha)) (same_default hs2 (LineG.ok hb))
      · simp [slash_ident] at hp
    · simp [slash_ident] at hp
  | @three t1 t2 t3 _ _ _ _ ha hb hc he =>
    rw [EndG_iff] at he
    subst he
    rcases step ha (.inr ⟨_, rfl⟩) h1 with ⟨rfl, hs⟩ | ⟨k, rfl⟩
    · simp only [slash_cons, Option.bind_eq_some_iff] at hp
      obtain ⟨⟨cs', r⟩, h2, hp⟩ := hp
      rcases step hb (.inr ⟨_, rfl⟩) h2 with ⟨rfl, hs2⟩ | ⟨k, rfl⟩
      · simp only [slash_cons, Option.bind_eq_some_iff] at hp
        obtain ⟨⟨re', r⟩, h3, hp⟩ := hp
        rw [← List.append_nil t3] at h3
        rcases step hc (.inl rfl) h3 with ⟨rfl, hs3⟩ | ⟨k, rfl⟩
        · simp only [slash_nil] at hp
          cases hp
          exact printArea_G hs hs2 hs3 (same_default hs2 (LineG.ok hb))
        · simp [slash_ident] at hp
      · simp [slash_ident] at hp
    · simp [slash_ident] at hp
  | @four t1 t2 t3 t4 _ _ _ _ ha hb hc hd =>
    rcases step ha (.inr ⟨_, rfl⟩) h1 with ⟨rfl, hs⟩ | ⟨k, rfl⟩
    · simp only [slash_cons, Option.bind_eq_some_iff] at hp
      obtain ⟨⟨cs', r⟩, h2, hp⟩ := hp
      rcases step hb (.inr ⟨_, rfl⟩) h2 with ⟨rfl, hs2⟩ | ⟨k, rfl⟩
      · simp only [slash_cons, Option.bind_eq_some_iff] at hp
        obtain ⟨⟨re', r⟩, h3, hp⟩ := hp
        rcases step hc (.inr ⟨_, rfl⟩) h3 with ⟨rfl, hs3⟩ | ⟨k, rfl⟩
        · simp only [slash_cons, Option.map_eq_some_iff] at hp
          obtain ⟨⟨ce', r⟩, h4, hp⟩ := hp
          cases hp
          rw [← List.append_nil t4] at h4
          rcases step hd (.inl rfl) h4 with ⟨_, hs4⟩ | ⟨k, hk⟩
          · exact printArea_G hs hs2 hs3 hs4
          · cases hk
        · simp [slash_ident] at hp
      · simp [slash_ident] at hp
    · simp [slash_ident] at hp

/-- Every value that CSS allows is printed to something CSS allows with the same meaning, for values built through
the API as well. -/
theorem C108_print (a : Area) (h1 : a.rowStart.Ok) (h2 : a.columnStart.Ok) (h3 : a.rowEnd.Ok) (h4 : a.columnEnd.Ok) :
    AreaG (printArea a) a ∧ PlacementG (printPlacement a.rowStart a.rowEnd) a.rowStart a.rowEnd ∧ LineG (printLine a.rowStart) a.rowStart :=
  ⟨printArea_G (same_refl h1) (same_refl h2) (same_refl h3) (same_refl h4), printPlacement_G (same_refl h1) (same_refl h3), printLine_G h1⟩

/-- `2 span` is read as the second line named `span` (not as `span 2`), though it is printed as it was written. -/
theorem C108_span_last : LineG [.int 2, .ident cs!"span"] (.span 2 none) ∧
    parseLine [.int 2, .ident cs!"span"] = some (.line 2 (some cs!"span"), []) := by
  refine ⟨LineG.spanEnd (ts := [.int 2]) (by unfold word; decide) ⟨by decide, .inl ⟨rfl, rfl⟩⟩, eval_parse (by decide +kernel)⟩

/-- `a / span 2 b / auto / 3`. -/
example : AreaG [.ident cs!"a", .slash, .ident cs!"span", .int 2, .ident cs!"b", .slash, .ident cs!"a", .slash, .ident cs!"auto"]
    ⟨.area cs!"a", .span 2 (some cs!"b"), .area cs!"a", .auto⟩ ∧
    printArea ⟨.area cs!"a", .span 2 (some cs!"b"), .area cs!"a", .auto⟩ = [.ident cs!"a", .slash, .ident cs!"span", .int 2, .ident cs!"b"] := by
  have ha : LineName cs!"a" := by
    unfold LineName Custom word
    decide
  have hb : LineName cs!"b" := by
    unfold LineName Custom word
    decide
  refine ⟨.four (t1 := [.ident cs!"a"]) (t2 := [.ident cs!"span", .int 2, .ident cs!"b"]) (t3 := [.ident cs!"a"]) (.area ha)
    (.span (by unfold word; decide) ⟨by decide, .inr ⟨cs!"b", hb, rfl, .inr (.inl rfl)⟩⟩) (.area ha) (.auto (by unfold word; decide)), rfl⟩

/-! ### C109 -/

/-- `grid-auto-flow`: the printed value means the same by the CSS grammar. -/
theorem C109_print (minify : Bool) (f : Flow) : FlowG (printFlow minify f) f := by
  obtain ⟨c, d⟩ := f
  cases c <;> cases d <;> cases minify
  all_goals first
    | exact .row (by unfold word; decide)
    | exact .column (by unfold word; decide)
    | exact .dense (by unfold word; decide)
    | exact .rowDense (by unfold word; decide) (by unfold word; decide)
    | exact .columnDense (by unfold word; decide) (by unfold word; decide)

/-- What is read for `grid-auto-flow` is what the grammar says. -/
theorem C109_read (ts : List Tok) (f : Flow) (h : parseFlow ts = some (f, [])) : FlowG ts f := by
  unfold parseFlow at h
  split at h
  · next s r =>
    have dense : ∀ c, parseFlow.dense c r = (f, []) → (r = [] ∧ f = ⟨c, false⟩) ∨ ∃ d, word d cs!"dense" ∧ r = [.ident d] ∧ f = ⟨c, true⟩ := by
      intro c h
      unfold parseFlow.dense at h
      split at h
      · next d r' =>
        split at h
        · next hk => cases h; exact .inr ⟨_, (kw_iff _ _).1 hk, rfl, rfl⟩
        · cases h
      · cases h; exact .inl ⟨rfl, rfl⟩
    split at h
    · next hk =>
      have hw := (kw_iff _ _).1 hk
      rcases dense false (Option.some.inj h) with ⟨rfl, rfl⟩ | ⟨d, hd, rfl, rfl⟩
      · exact .row hw
      · exact .rowDense hw hd
    · split at h
      · next hk =>
        have hw := (kw_iff _ _).1 hk
        rcases dense true (Option.some.inj h) with ⟨rfl, rfl⟩ | ⟨d, hd, rfl, rfl⟩
        · exact .column hw
        · exact .columnDense hw hd
      · split at h
        · next hk =>
          have hw := (kw_iff _ _).1 hk
          split at h
          · next d r' =>
            split at h
            · next hk2 => cases h; exact .denseRow ((kw_iff _ _).1 hk2) hw
            · split at h
              · next hk2 => cases h; exact .denseColumn ((kw_iff _ _).1 hk2) hw
              · cases h
          · cases h
        · cases h
  · cases h

/-- Every `grid-auto-flow` of two words, and `row` and `column`, is understood. -/
theorem C109_accept_partial (ts : List Tok) (f : Flow) (h : FlowG ts f) (hd : ∀ d, word d cs!"dense" → ts ≠ [.ident d]) :
    parseFlow ts = some (f, []) := by
  cases h with
  | row h => simp [parseFlow, (kw_iff _ _).2 h, parseFlow.dense]
  | column h => simp [parseFlow, (kw_iff _ _).2 h, word_ne (b := cs!"row") h (by decide), parseFlow.dense]
  | dense h => exact absurd rfl (hd _ h)
  | rowDense h h2 => simp [parseFlow, (kw_iff _ _).2 h, (kw_iff _ _).2 h2, parseFlow.dense]
  | columnDense h h2 => simp [parseFlow, (kw_iff _ _).2 h, (kw_iff _ _).2 h2, word_ne (b := cs!"row") h (by decide), parseFlow.dense]
  | denseRow h h2 =>
    simp [parseFlow, (kw_iff _ _).2 h, (kw_iff _ _).2 h2, word_ne (b := cs!"row") h2 (by decide), word_ne (b := cs!"column") h2 (by decide)]
  | denseColumn h h2 =>
    simp [parseFlow, (kw_iff _ _).2 h, (kw_iff _ _).2 h2, word_ne (b := cs!"row") h (by decide), word_ne (b := cs!"row") h2 (by decide),
      word_ne (b := cs!"column") h2 (by decide)]

/-- The value printed without minification reads back; minified, all but `row dense` do. -/
theorem C109_round_trip_partial (minify : Bool) (f : Flow) (h : minify = false ∨ f ≠ ⟨false, true⟩) :
    parseFlow (printFlow minify f) = some (f, []) := by
  obtain ⟨c, d⟩ := f
  cases c <;> cases d <;> cases minify
  all_goals first
    | exact eval_parse (by decide +kernel)
    | simp at h

/-- `grid-auto-flow: dense` is valid and is the minified form of `row dense`, but the parser does not understand it. -/
theorem C109_dense : FlowG [.ident cs!"dense"] ⟨false, true⟩ ∧ printFlow true ⟨false, true⟩ = [.ident cs!"dense"] ∧
    parseFlow [.ident cs!"dense"] = none := ⟨.dense (by unfold word; decide), rfl, by decide +kernel⟩

end Verif.Grid
