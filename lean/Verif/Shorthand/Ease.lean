import Verif.Shorthand.Samples
import Mathlib.Tactic.Choose
/-!
Easing functions, `scroll()`, `view()`: printing and reading.
-/
namespace Verif.Shorthand

/-! ### Easing functions -/

theorem Easing.parse_ws {N} (p : EasingParts N) (i) : Easing.parse p (.ws :: i) = Easing.parse p i := rfl

theorem Easing.ends {N} (p : EasingParts N) {r} (h : Ends r) : Easing.parse p r = none := by
  rcases h with rfl | ⟨l, rfl | rfl⟩ <;> rfl

theorem StepPosition.back (s : StepPosition) (r) : StepPosition.parse (s.print ++ r) = some (s, r) := by
  cases s <;> rfl

theorem expectComma_delim {V N} {c : Codec N} {sem : N → V} (H : Leaf c sem) (m : Bool) (x) :
    ∃ y, expectComma (printDelim m .comma false ++ x) = some y ∧ c.parse y = c.parse x := by
  cases m
  · exact ⟨.ws :: x, rfl, H.skip x⟩
  · exact ⟨x, rfl, rfl⟩

theorem parseNumComma_back {V N} {c : Codec N} {sem : N → V} (H : Plain c sem) (m : Bool) (a : N) (x) :
    ∃ a' y, parseNumComma c (c.print a ++ (printDelim m .comma false ++ x)) = some (a', y) ∧ sem a' = sem a ∧
      (y = x ∨ y = .ws :: x) := by
  obtain ⟨a', e, h⟩ := H.back a (printDelim m .comma false ++ x)
  cases m
  · exact ⟨a', .ws :: x, by simp [parseNumComma, e]; rfl, h, .inr rfl⟩
  · exact ⟨a', x, by simp [parseNumComma, e]; rfl, h, .inl rfl⟩

theorem parseNumComma_ws {V N} {c : Codec N} {sem : N → V} (H : Plain c sem) (i) :
    parseNumComma c (.ws :: i) = parseNumComma c i := by simp only [parseNumComma, H.skip]

theorem sep_delim {m x a} (ha : Separated a) (hx : Separated x) :
    Separated (a ++ (printDelim m .comma false ++ x)) := by
  cases m
  · exact sep_append_loose ha (by simp) (sep_cons_loose (by simp) (sep_ws_cons.mpr hx))
  · exact sep_append_loose ha (by simp) (sep_cons_loose (by simp) hx)

theorem sep_close {a} (ha : Separated a) : Separated (a ++ [.close]) := sep_append_loose ha (by simp) trivial

/-- **C66**: the text printed for an easing function, in both printing modes, reads back as an easing function
with the same curve; what comes after it is not touched. -/
theorem C66_easing {N V} [DecidableEq N] (p : EasingParts N) (num : N → V) (h : Nat → V)
    (H : EasingLaw p num h) (minify : Bool) (e : Easing N) (r : List Tok) :
    (∃ e', Easing.parse p (e.print p minify ++ r) = some (e', r) ∧ e'.curve num h = e.curve num h) ∧
    Separated (e.print p minify) := by
  cases e with
  | linear => exact ⟨⟨.linear, rfl, rfl⟩, trivial⟩
  | ease => exact ⟨⟨.ease, rfl, rfl⟩, trivial⟩
  | easeIn => exact ⟨⟨.easeIn, rfl, rfl⟩, trivial⟩
  | easeOut => exact ⟨⟨.easeOut, rfl, rfl⟩, trivial⟩
  | easeInOut => exact ⟨⟨.easeInOut, rfl, rfl⟩, trivial⟩
  | cubicBezier x1 y1 x2 y2 =>
    simp only [Easing.print]
    split
    · rename_i he
      refine ⟨⟨.ease, rfl, ?_⟩, trivial⟩
      simp only [Easing.isEase, reduceCtorEq, decide_false, Bool.false_or, decide_eq_true_eq, Easing.cubicBezier.injEq] at he
      obtain ⟨rfl, rfl, rfl, rfl⟩ := he
      simp [Easing.curve, H.lit]
    · split
      · rename_i he
        refine ⟨⟨.easeIn, rfl, ?_⟩, trivial⟩
        cases he
        simp [Easing.curve, H.lit]
      · split
        · rename_i he
          refine ⟨⟨.easeOut, rfl, ?_⟩, trivial⟩
          cases he
          simp [Easing.curve, H.lit]
        · split
          · rename_i he
            refine ⟨⟨.easeInOut, rfl, ?_⟩, trivial⟩
            cases he
            simp [Easing.curve, H.lit]
          · obtain ⟨d, ed, hd⟩ := H.numbers.back y2 (.close :: r)
            obtain ⟨c, yc, ec, hc, hyc⟩ := parseNumComma_back H.numbers minify x2 (p.num.print y2 ++ .close :: r)
            obtain ⟨b, yb, eb, hb, hyb⟩ := parseNumComma_back H.numbers minify y1
              (p.num.print x2 ++ (printDelim minify .comma false ++ (p.num.print y2 ++ .close :: r)))
            obtain ⟨a, ya, ea, ha, hya⟩ := parseNumComma_back H.numbers minify x1
              (p.num.print y1 ++ (printDelim minify .comma false ++ (p.num.print x2 ++
                (printDelim minify .comma false ++ (p.num.print y2 ++ .close :: r)))))
            have eb' : parseNumComma p.num ya = some (b, yb) := by
              rcases hya with rfl | rfl
              · exact eb
              · rw [parseNumComma_ws H.numbers]; exact eb
            have ec' : parseNumComma p.num yb = some (c, yc) := by
              rcases hyb with rfl | rfl
              · exact ec
              · rw [parseNumComma_ws H.numbers]; exact ec
            have ed' : p.num.parse yc = some (d, .close :: r) := by
              rcases hyc with rfl | rfl
              · exact ed
              · rw [H.numbers.skip]; exact ed
            refine ⟨⟨.cubicBezier a b c d, ?_, by simp [Easing.curve, ha, hb, hc, hd]⟩, ?_⟩
            · have : nested (parseBezier p) (p.num.print x1 ++ (printDelim minify .comma false ++ (p.num.print y1 ++
                  (printDelim minify .comma false ++ (p.num.print x2 ++
                  (printDelim minify .comma false ++ (p.num.print y2 ++ .close :: r))))))) =
                  some (.cubicBezier a b c d, r) := by
                simp only [nested, parseBezier, ea, eb', ec', ed']; rfl
              simp only [List.append_assoc, List.cons_append, List.nil_append]
              simp only [Easing.parse, next]
              rw [if_pos (by decide), this]
            · simp only [List.append_assoc, List.cons_append, List.nil_append]
              exact sep_cons_loose (by simp) (sep_delim (H.numbers.sep _) (sep_delim (H.numbers.sep _)
                (sep_delim (H.numbers.sep _) (sep_close (H.numbers.sep _)))))
  | steps n s =>
    simp only [Easing.print]
    split
    · rename_i he; obtain ⟨rfl, rfl⟩ := he
      exact ⟨⟨.steps 1 .start, rfl, rfl⟩, trivial⟩
    · split
      · rename_i he; obtain ⟨rfl, rfl⟩ := he
        exact ⟨⟨.steps 1 .end, rfl, rfl⟩, trivial⟩
      · obtain ⟨n', en, hn⟩ := H.ints.back n (printDelim minify .comma false ++ (s.print ++ .close :: r))
        have hn : n' = n := hn
        subst hn
        refine ⟨⟨.steps n' s, ?_, rfl⟩, ?_⟩
        · have e2 : parseStepPosition (printDelim minify .comma false ++ (s.print ++ .close :: r)) =
              some (s, .close :: r) := by
            cases minify <;> cases s <;> rfl
          have : nested (parseSteps p) (p.int.print n' ++ (printDelim minify .comma false ++
              (s.print ++ .close :: r))) = some (.steps n' s, r) := by
            simp only [nested, parseSteps, id] at *
            simp only [en, e2]; rfl
          simp only [List.append_assoc, List.cons_append, List.nil_append]
          simp only [Easing.parse, next]
          rw [if_neg (by decide), if_pos (by decide)]
          exact this
        · simp only [List.append_assoc, List.cons_append, List.nil_append]
          exact sep_cons_loose (by simp) (sep_delim (H.ints.sep _) (sep_close (by cases s <;> trivial)))

/-- Three ways of writing the same curve, and a curve without a name. -/
example : EasingLaw sampleEasing id (fun n => ['h', Char.ofNat n]) ∧
    (Easing.cubicBezier ['h', Char.ofNat 42] ['h', Char.ofNat 0] ['h', Char.ofNat 58] ['h', Char.ofNat 100]).print
      sampleEasing true = [.ident cs!"ease-in-out"] ∧
    (Easing.cubicBezier cs!"1" cs!"2" cs!"3" cs!"4").print sampleEasing false =
      [.func cs!"cubic-bezier", .other cs!"n1", .comma, .ws, .other cs!"n2", .comma, .ws, .other cs!"n3", .comma,
        .ws, .other cs!"n4", .close] ∧
    (Easing.steps (N := Str) 1 .end).print sampleEasing true = [.ident cs!"step-end"] ∧
    (Easing.steps (N := Str) 2 .jumpBoth).print sampleEasing true =
      [.func cs!"steps", .other cs!"i11", .comma, .ident cs!"jump-both", .close] :=
  ⟨sampleEasing_law, by decide, by decide, by decide, by decide⟩

/-! ### `scroll()`, `view()` -/

/-- **C63, `scroll()`**: every value is printed as text that reads back as the same value; what comes after it
is not touched. -/
theorem C63_scroll (s : Scroll) (r : List Tok) :
    Scroll.parse (s.print ++ r) = some (s, r) ∧ Separated s.print := by
  obtain ⟨a, b⟩ := s
  cases a <;> cases b <;> exact ⟨rfl, by simp [Scroll.print, Kw.print, Separated, Sticks]⟩

theorem LpAuto.back {T V} {lp : Codec T} {sem : T → V} (H : Plain lp sem) (g : LpAuto T) (r) :
    ∃ g', LpAuto.parse lp (g.print lp ++ r) = some (g', r) ∧ g'.map sem = g.map sem := by
  cases g with
  | auto => exact ⟨.auto, rfl, rfl⟩
  | lp t =>
    obtain ⟨t', e, h⟩ := H.back t r
    refine ⟨.lp t', ?_, by simp [map, h]⟩
    simp only [parse, print, H.expectIdent_none, e]

theorem LpAuto.parse_ws {T V} {lp : Codec T} {sem : T → V} (H : Leaf lp sem) (i) :
    LpAuto.parse lp (.ws :: i) = LpAuto.parse lp i := by
  simp only [LpAuto.parse, H.skip]; rfl

theorem LpAuto.ends {T V} {lp : Codec T} {sem : T → V} (H : Plain lp sem) {r} (h : Ends r) :
    LpAuto.parse lp r = none := by
  simp only [LpAuto.parse, expectIdent_ends h, H.stop r h]

theorem LpAuto.axis_none {T V} {lp : Codec T} {sem : T → V} (H : Plain lp sem) (g : LpAuto T) (r) :
    (Kw.parse : Parser ScrollAxis) (g.print lp ++ r) = none := by
  cases g with
  | auto => rfl
  | lp t => exact H.kw_none t r

theorem LpAuto.sep {T V} {lp : Codec T} {sem : T → V} (H : Plain lp sem) (g : LpAuto T) :
    Separated (g.print lp) := by
  cases g with
  | auto => trivial
  | lp t => exact H.sep t

theorem inset_back {T V} [DecidableEq T] {lp : Codec T} {sem : T → V} (H : Plain lp sem) (x : LpAuto T × LpAuto T)
    {r} (hr : Ends r) :
    ∃ y, parseInset lp (printInset lp x ++ r) = some (y, r) ∧ y.1.map sem = x.1.map sem ∧ y.2.map sem = x.2.map sem := by
  obtain ⟨a, b⟩ := x
  choose f ef hf using LpAuto.back H
  by_cases h : b = a
  · subst h
    exact ⟨(f b r, f b r), by simp [parseInset, printInset, ef, LpAuto.ends H hr], hf _ _, hf _ _⟩
  · exact ⟨(f a (.ws :: (b.print lp ++ r)), f b r), by
      simp [parseInset, printInset, h, ef, LpAuto.parse_ws H.toLeaf], hf _ _, hf _ _⟩

theorem inset_sep {T V} [DecidableEq T] {lp : Codec T} {sem : T → V} (H : Plain lp sem)
    (x : LpAuto T × LpAuto T) : Separated (printInset lp x) := by
  simp only [printInset]
  split
  · exact sep_append_ws (LpAuto.sep H _) (LpAuto.sep H _)
  · simpa using LpAuto.sep H _

/-- **C63, `view()`**: every value is printed as text that reads back as a value that means the same; what
comes after it is not touched. -/
theorem C63_view {T V} [DecidableEq T] (lp : Codec T) (sem : T → V) (H : Plain lp sem) (v : View T)
    (r : List Tok) :
    (∃ v', View.parse lp (v.print lp ++ r) = some (v', r) ∧ v'.map sem = v.map sem) ∧
    Separated (v.print lp) := by
  obtain ⟨a, x⟩ := v
  have hr : Ends (.close :: r) := .inr ⟨r, .inr rfl⟩
  obtain ⟨y, ey, h1, h2⟩ := inset_back H x hr
  have ef : ∀ i, expectFunc cs!"view" (.func cs!"view" :: i) = some i := fun _ => rfl
  have ec : expectClose (.close :: r) = some r := rfl
  have kr : (Kw.parse : Parser ScrollAxis) (.close :: r) = none := rfl
  have er : parseInset lp (.close :: r) = none := by simp [parseInset, LpAuto.ends H hr]
  have kx : ∀ i, (Kw.parse : Parser ScrollAxis) (printInset lp x ++ i) = none := by
    intro i
    simp only [printInset, List.append_assoc]
    exact LpAuto.axis_none H _ _
  have ews : ∀ i, parseInset lp (.ws :: i) = parseInset lp i := by
    intro i; simp only [parseInset, LpAuto.parse_ws H.toLeaf]
  by_cases h : x.1 = .auto ∧ x.2 = .auto
  · obtain ⟨x1, x2⟩ := x
    obtain ⟨rfl, rfl⟩ := h
    by_cases ha : a = .block
    · subst ha
      refine ⟨⟨⟨.block, .auto, .auto⟩, ?_, rfl⟩, by simp [View.print, Separated, Sticks]⟩
      simp [View.print, View.parse, ef, nested, View.args, run, View.step, optParse, kr, er, ec]
    · refine ⟨⟨⟨a, .auto, .auto⟩, ?_, rfl⟩, by simp [View.print, Separated, Sticks, ha, Kw.print]⟩
      simp [View.print, View.parse, ef, nested, View.args, run, View.step, optParse, er, ec, kw_back, ha]
  · have h' : x.1 ≠ .auto ∨ x.2 ≠ .auto := by
      by_cases h1 : x.1 = .auto
      · exact .inr fun h2 => h ⟨h1, h2⟩
      · exact .inl h1
    by_cases ha : a = .block
    · subst ha
      refine ⟨⟨⟨.block, y⟩, ?_, by simp [View.map, h1, h2]⟩, ?_⟩
      · simp [View.print, View.parse, ef, nested, View.args, run, View.step, optParse, kx, ey, ec, h', kr]
      · simp only [View.print, h', if_true]
        exact sep_cons_loose (by simp) (sep_close (by simpa using inset_sep H x))
    · refine ⟨⟨⟨a, y⟩, ?_, by simp [View.map, h1, h2]⟩, ?_⟩
      · simp [View.print, View.parse, ef, nested, View.args, run, View.step, optParse, ey, ec, h', ha, kw_back, ews]
      · simp only [View.print, h', ha, if_true, ne_eq, not_false_eq_true, decide_true]
        exact sep_cons_loose (by simp) (sep_close (by
          simpa using sep_append_ws (sep_kw a) (inset_sep H x)))

/-- A `view()` with an axis and two insets, and one without anything. -/
example : Plain (sample 'l') id ∧
    (View.mk .x (.lp cs!"1px", .auto)).print (sample 'l') =
      [.func cs!"view", .ident cs!"x", .ws, .other cs!"l1px", .ws, .ident cs!"auto", .close] ∧
    (View.mk .block ((.auto, .auto) : LpAuto Str × LpAuto Str)).print (sample 'l') = [.func cs!"view", .close] ∧
    (Scroll.mk .root .inline).print = [.func cs!"scroll", .ident cs!"root", .ws, .ident cs!"inline", .close] :=
  ⟨sample_plain _, by decide, by decide, by decide⟩

end Verif.Shorthand
