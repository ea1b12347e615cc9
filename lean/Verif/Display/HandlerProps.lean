import Verif.Display.Props
import Verif.Targets.Props
/-! # C128, C129: the declarations of `display` and `overflow` in a block -/
namespace Verif.Display
open Verif.Targets Spec

theorem winner_append (knows : Display → Bool) (old : Option Decl) (l l' : List Decl) : winner knows old (l ++ l') = winner knows (winner knows old l) l' := List.foldl_append ..

theorem winner_known {knows : Display → Bool} {d : Display} (h : knows d = true) (old : Option Decl) : winner knows old [.display d] = some (.display d) := by
  simp [winner, h]

theorem winner_twice (knows : Display → Bool) (d : Display) (old : Option Decl) : winner knows (winner knows old [.display d]) [.display d] = winner knows old [.display d] := by
  unfold winner
  cases h : knows d <;> simp [h]

/-- The pending value. -/
def pending (h : Handler) : List Decl := match h.display with | some d => [.display d] | none => []

/-- The state after the declarations `src`. -/
structure Inv (knows : Display → Bool) (src : List Decl) (prev : Option Display) (s : Handler × List Decl) : Prop where
  prev : s.1.display = prev
  empty : s.1.display = none → s.1.decls = []
  val : ∀ old, winner knows old (s.2 ++ s.1.decls ++ pending s.1) = winner knows old src

/-- What the theorem asks of the targets and the browser: no prefixes are added, or the browser knows `flex`. -/
def Fit (knows : Display → Bool) (t : Targets) : Prop :=
  (t.browsers = none ∧ t.prefixes Prefix.none.set .displayFlex = Prefix.none.set) ∨ ∀ d, IsPlainFlex d → knows d = true

theorem Inv.finalize {knows src prev s} {t : Targets} (hf : Fit knows t) (h : Inv knows src prev s) : Inv knows src none (finalize t s) ∧ (finalize t s).1 = {} ∧ ∀ old, winner knows old (Display.finalize t s).2 = winner knows old src := by
  unfold Display.finalize
  cases hd : s.1.display with
  | none =>
    have hv : ∀ old, winner knows old s.2 = winner knows old src := by
      intro old
      have := h.val old
      rw [h.empty hd] at this
      simpa [pending, hd] using this
    have he : s.1 = {} := by
      have := h.empty hd
      obtain ⟨⟨a, b⟩, o⟩ := s
      simp only at hd this
      rw [hd, this]
    exact ⟨⟨hd, h.empty, h.val⟩, he, hv⟩
  | some d =>
    have key : ∀ old pre, (pre = [] ∨ knows d = true) → winner knows old (s.2 ++ s.1.decls ++ pre ++ [.display d]) = winner knows old src := by
      intro old pre hp
      rw [← h.val old]
      have hpd : pending s.1 = [.display d] := by simp [pending, hd]
      rw [hpd]
      rcases hp with rfl | hk
      · simp
      · rw [winner_append, winner_known hk, winner_append, winner_known hk]
    have hpre : before t d = [] ∨ knows d = true := by
      unfold before
      split
      · rename_i o l
        rcases hf with ⟨h1, h2⟩ | hf
        · left; simp only [flexPrefixes, h1, h2]; rfl
        · right; exact hf _ ⟨o, l, rfl⟩
      · exact .inl rfl
    have hv := fun old => key old _ hpre
    refine ⟨⟨rfl, fun _ => rfl, fun old => ?_⟩, rfl, hv⟩
    simpa [pending] using hv old

theorem equiv_flex {a b : Inside} (h : a ≠ b) : a.equiv b = true ↔ isFlex a ∧ isFlex b := by
  cases a <;> cases b <;> simp_all [Inside.equiv, isFlex]

theorem Inv.display {knows src prev s} {t : Targets} (hf : Fit knows t) (h : Inv knows src prev s) (d : Display)
    (hk : ∀ p, prev = some p → knows d = true ∨ (Variant p d ∧ (t.browsers.isSome = true → ¬ IsPlainFlex p))) :
    Inv knows (src ++ [.display d]) (some d) (handle t s (.display d)) := by
  have fin : ∀ decls, (∀ old, winner knows old (s.2 ++ decls ++ [.display d]) = winner knows old (src ++ [.display d])) → Inv knows (src ++ [.display d]) (some d) (⟨decls, some d⟩, s.2) := by
    intro decls hv
    exact ⟨rfl, fun e => (by cases e), fun old => by simpa [pending] using hv old⟩
  -- a known value decides
  have known : knows d = true → ∀ decls, Inv knows (src ++ [.display d]) (some d) (⟨decls, some d⟩, s.2) := by
    intro hd decls
    exact fin _ fun old => by rw [winner_append, winner_known hd, winner_append, winner_known hd]
  simp only [handle]
  cases hp : s.1.display with
  | none =>
    refine fin _ fun old => ?_
    have := h.val old
    simp only [pending, hp, List.append_nil] at this
    rw [winner_append, this, ← winner_append]
  | some cur =>
    have hpend : pending s.1 = [.display cur] := by simp [pending, hp]
    have hv : ∀ old, winner knows old (s.2 ++ s.1.decls ++ [.display cur]) = winner knows old src := fun old => by rw [← hpend]; exact h.val old
    rcases hk cur (by rw [← h.prev, hp]) with hd | ⟨hvar, ht⟩
    · exact known hd _
    · rcases hvar with rfl | ⟨p, q, rfl, rfl, h1, h2, h3, h4⟩
      · -- the same value again
        have hdecls : ∀ decls, decls = s.1.decls → Inv knows (src ++ [.display cur]) (some cur) (⟨decls, some cur⟩, s.2) := by
          rintro _ rfl
          refine fin _ fun old => ?_
          rw [winner_append _ _ src, ← hv old, winner_append, winner_twice]
        cases cur with
        | keyword k => exact hdecls _ rfl
        | pair p => exact hdecls _ (by simp)
      · by_cases hne : p.inside = q.inside
        · have : p = q := by obtain ⟨a, b, c⟩ := p; obtain ⟨a', b', c'⟩ := q; simp_all
          subst this
          refine fin _ fun old => ?_
          simp only [ne_eq, not_true, false_and, and_false, if_false]
          rw [winner_append _ _ src, ← hv old, winner_append, winner_twice]
        · have he := (equiv_flex hne).2 ⟨h3, h4⟩
          have hcond : p.outside = q.outside ∧ p.listItem = q.listItem ∧ p.inside ≠ q.inside ∧ p.inside.equiv q.inside = true := ⟨h1, h2, hne, he⟩
          simp only [if_pos hcond]
          split
          · rename_i hc
            rcases hf with ⟨h5, -⟩ | hf
            · rw [h5] at hc; cases hc.1
            · exact known (hf _ ⟨q.outside, q.listItem, by obtain ⟨a, b, c⟩ := q; simp only at hc; rw [hc.2]⟩) _
          · split
            · refine fin _ fun old => ?_
              have := hv old
              rw [winner_append _ _ src, ← this]
              simp only [winner_append]
            · rename_i hc
              exfalso
              have hs : t.browsers.isSome = true := by
                cases hb : t.browsers with
                | none => exact (hc (.inl (by rw [hb]; rfl))).elim
                | some _ => rfl
              refine ht hs ⟨p.outside, p.listItem, ?_⟩
              have : p.inside = .flex .none := by
                by_contra hn
                exact hc (.inr hn)
              obtain ⟨a, b, c⟩ := p
              simp only at this
              rw [this]

theorem Inv.fold {knows : Display → Bool} {t : Targets} (hf : Fit knows t) (ds : List Decl) : ∀ {src prev s}, Inv knows src prev s → Known knows t.browsers.isSome prev ds →
    ∃ prev', Inv knows (src ++ ds) prev' (ds.foldl (handle t) s) := by
  induction ds with
  | nil => intro src prev s h _; exact ⟨prev, by simpa using h⟩
  | cons d ds ih =>
    intro src prev s h hk
    cases d with
    | display d =>
      obtain ⟨p', h'⟩ := ih (h.display hf d hk.1) hk.2
      exact ⟨p', by simpa using h'⟩
    | unparsed text =>
      obtain ⟨h1, h2, h3⟩ := h.finalize hf
      have h4 : Inv knows (src ++ [.unparsed text]) none (handle t s (.unparsed text)) := by
        simp only [handle, h2]
        refine ⟨rfl, fun _ => rfl, fun old => ?_⟩
        simp only [pending, List.append_nil]
        rw [winner_append, winner_append]
        simp [winner]
      obtain ⟨p', h'⟩ := ih h4 hk
      exact ⟨p', by simpa using h'⟩

/-- C128: the declaration of `display` that a browser follows is the same in the block that is written, for every browser that knows the values, or at least those that are no other form of the value before; if prefixes are added for targets, the browser must know `flex`. (What is missing: see the counterexamples.) -/
theorem C128_display_partial (knows : Display → Bool) (t : Targets) (hf : Fit knows t) (ds : List Decl) (hk : Known knows t.browsers.isSome none ds) (old : Option Decl) :
    winner knows old (run t ds).2 = winner knows old ds := by
  obtain ⟨p, h⟩ := Inv.fold hf ds (s := ({}, [])) (src := []) ⟨rfl, fun _ => rfl, fun _ => rfl⟩ hk
  exact (h.finalize hf).2.2 old

/-- C128: a browser that knows all values of the block, and unprefixed `flex` if it is there, follows the last one. -/
theorem C128_modern (knows : Display → Bool) (t : Targets) (hf : ∀ d, IsPlainFlex d → knows d = true) (ds : List Decl) (hk : ∀ d, .display d ∈ ds → knows d = true) (old : Option Decl) :
    winner knows old (run t ds).2 = winner knows old ds := by
  refine C128_display_partial knows t (.inr hf) ds ?_ old
  have : ∀ ds prev, (∀ d, .display d ∈ ds → knows d = true) → Known knows t.browsers.isSome prev ds := by
    intro ds
    induction ds with
    | nil => intro _ _; trivial
    | cons d ds ih =>
      intro prev h
      cases d with
      | display d => exact ⟨fun _ _ => .inl (h d (List.mem_cons_self ..)), ih _ fun d' hd' => h d' (List.mem_cons_of_mem _ hd')⟩
      | unparsed _ => exact ih _ fun d' hd' => h d' (List.mem_cons_of_mem _ hd')
  exact this ds none hk

/-- C128: if the last declaration is `flex`, and a prefix is needed for the targets, the prefixed value is written before it. -/
theorem C128_prefixed (t : Targets) (o : Outside) (l : Bool) (ds : List Decl) :
    ∃ l1, (run t (ds ++ [.display (.pair ⟨o, .flex .none, l⟩)])).2 = l1 ++ [.display (.pair ⟨o, .flex .none, l⟩)] ∧
      ((t.prefixes Prefix.none.set .displayFlex).has .webkit = true → .display (.pair ⟨o, .flex .webkit, false⟩) ∈ l1) ∧
      ((t.prefixes Prefix.none.set .displayFlex).has .ms = true → .display (.pair ⟨o, .flex .ms, false⟩) ∈ l1) ∧
      (∀ br, t.browsers = some br → isFlex2009 br = true → (t.prefixes Prefix.none.set .displayFlex).has .webkit = true → .display (.pair ⟨o, .box .webkit, false⟩) ∈ l1) ∧
      (∀ br, t.browsers = some br → isFlex2009 br = true → (t.prefixes Prefix.none.set .displayFlex).has .moz = true → .display (.pair ⟨o, .box .moz, false⟩) ∈ l1) := by
  simp only [run, List.foldl_append, List.foldl_cons, List.foldl_nil]
  generalize ds.foldl (handle t) ({}, []) = s
  simp only [handle, finalize, before]
  refine ⟨_, rfl, fun h => ?_, fun h => ?_, fun br h1 h2 h => ?_, fun br h1 h2 h => ?_⟩ <;> refine List.mem_append_right _ ?_ <;> unfold flexPrefixes
  · simp [h]
  · simp [h]
  · simp [h, h1, h2]
  · simp [h, h1, h2]

/-- No targets. -/
def plain : Targets := ⟨none, 0, 0⟩
/-- Internet Explorer 11. -/
def ie11 : Targets := ⟨some fun b => if b = .ie then some 720896 else none, 0, 0⟩

example : Fit (fun _ => false) plain := .inl ⟨rfl, by decide⟩
example : Known (fun d => d != .pair ⟨.block, .box .webkit, false⟩) true none [.display (.keyword .noBox), .display (.pair ⟨.block, .grid, false⟩), .unparsed cs!"var(--x)", .display (.pair ⟨.block, .box .webkit, false⟩), .display (.pair ⟨.block, .flex .none, false⟩)] :=
  ⟨fun _ h => (by cases h), fun _ _ => .inl (by decide), fun _ h => (by cases h), fun _ _ => .inl (by decide), trivial⟩
example : (run plain [.display (.pair ⟨.block, .box .webkit, false⟩), .display (.pair ⟨.block, .flex .ms, false⟩), .display (.pair ⟨.block, .flex .none, false⟩)]).2.length = 3 := by decide
example : (run ie11 [.display (.pair ⟨.block, .flex .none, false⟩)]).2 = [.display (.pair ⟨.block, .flex .none, false⟩)] := by decide

/-- C128 fails with targets, if a prefixed value comes after `flex`: `display: flex; display: -webkit-box` for Internet Explorer 11 becomes `display: -webkit-box`, which it does not know. -/
theorem C128_after_flex_fails : ∃ (knows : Display → Bool) (ds : List Decl), (∀ d, IsPlainFlex d → knows d = true) ∧
    winner knows none ds = some (.display (.pair ⟨.block, .flex .none, false⟩)) ∧ winner knows none (run ie11 ds).2 = none :=
  ⟨fun d => match d with | .pair ⟨_, .flex .none, _⟩ => true | _ => false, [.display (.pair ⟨.block, .flex .none, false⟩), .display (.pair ⟨.block, .box .webkit, false⟩)],
    fun d h => (by obtain ⟨o, l, rfl⟩ := h; rfl), by decide, by decide⟩

/-- C128 fails with a value that some browsers do not know: `display: block; display: grid` becomes `display: grid`, with all targets, and a browser without grids falls back to other rules. -/
theorem C128_fallback_fails (t : Targets) : ∃ (knows : Display → Bool) (ds : List Decl), winner knows none ds = some (.display (.pair ⟨.block, .flow, false⟩)) ∧ winner knows none (run t ds).2 = none :=
  ⟨fun d => d = .pair ⟨.block, .flow, false⟩, [.display (.pair ⟨.block, .flow, false⟩), .display (.pair ⟨.block, .grid, false⟩)], by decide, rfl⟩


/-! ### `overflow` -/

/-- The names of the keywords. -/
theorem okw_print (k : OKw) : OKw.parse k.print = some k := by cases k <;> decide

/-- C129: a value of `overflow` is one or two keywords; what is written for it is read as the same value, with one keyword if possible. -/
theorem C129_value (ts : List Str) (v : OKw × OKw) (h : Overflow.parse ts = some v) : Overflow.parse (Overflow.print v) = some v ∧ (Overflow.print v).length ≤ ts.length := by
  obtain ⟨x, y⟩ := v
  constructor
  · by_cases e : y = x
    · subst e; simp [Overflow.print, Overflow.parse, okw_print]
    · simp [Overflow.print, Overflow.parse, okw_print, e]
  · cases ts with
    | nil => cases h
    | cons t ts =>
      cases ts with
      | nil =>
        simp only [Overflow.parse, Option.bind_eq_bind, Option.bind_eq_some_iff] at h
        obtain ⟨k, -, h⟩ := h
        cases h
        simp [Overflow.print]
      | cons u us =>
        simp only [Overflow.print]
        split <;> simp

theorem ocomputed_append (b : Agent) (m : OVal × OVal) (l l' : List ODecl) : ocomputed b m (l ++ l') = ocomputed b (ocomputed b m l) l' := List.foldl_append ..

/-- The pending values over the computed ones. -/
def oover (h : OHandler) (m : OVal × OVal) : OVal × OVal := ((h.x.map .kw).getD m.1, (h.y.map .kw).getD m.2)

/-- A declaration that the browser knows. -/
def OGood (b : Agent) : ODecl → Prop
  | .x v => b.knows v = true
  | .y v => b.knows v = true
  | .both x y => b.knows x = true ∧ b.knows y = true ∧ (b.two = true ∨ x = y)
  | _ => True

/-- The state after the declarations `src`. -/
structure OInv (b : Agent) (src : List ODecl) (s : OHandler × List ODecl) : Prop where
  kx : ∀ v, s.1.x = some v → b.knows v = true
  ky : ∀ v, s.1.y = some v → b.knows v = true
  val : ∀ m, oover s.1 (ocomputed b m s.2) = ocomputed b m src

theorem OInv.finalize {b src s} {t : Targets} (ht : t.isCompatible .overflowShorthand = true → b.two = true) (h : OInv b src s) : OInv b src (ofinalize t s) ∧ (ofinalize t s).1 = {} := by
  refine ⟨⟨fun _ e => (by cases e), fun _ e => (by cases e), fun m => ?_⟩, rfl⟩
  rw [← h.val m]
  have hx := h.kx
  have hy := h.ky
  obtain ⟨⟨x, y⟩, o⟩ := s
  simp only [ofinalize, oover, Option.map_none, Option.getD_none] at *
  rw [ocomputed_append]
  generalize ocomputed b m o = m'
  cases x with
  | none =>
    cases y with
    | none => rfl
    | some y => simp [ocomputed, hy y rfl]
  | some x =>
    cases y with
    | none => simp [ocomputed, hx x rfl]
    | some y =>
      simp only
      split
      · rename_i hc
        have : b.two = true ∨ x = y := by
          rw [Bool.or_eq_true, decide_eq_true_eq] at hc
          exact hc.elim .inr (fun h => .inl (ht h))
        rcases this with h2 | rfl
        · simp [ocomputed, hx x rfl, hy y rfl, h2]
        · simp [ocomputed, hx x rfl]
      · simp [ocomputed, hx x rfl, hy y rfl]

theorem OInv.handle {b src s} {t : Targets} (ht : t.isCompatible .overflowShorthand = true → b.two = true) (h : OInv b src s) (d : ODecl) (hd : OGood b d) : OInv b (src ++ [d]) (ohandle t s d) := by
  have raw : ∀ d, (ohandle t s d = ((ofinalize t s).1, (ofinalize t s).2 ++ [d])) → OInv b (src ++ [d]) (ohandle t s d) := by
    intro d e
    obtain ⟨h1, h2⟩ := h.finalize ht
    rw [e]
    refine ⟨fun _ e => (by rw [h2] at e; cases e), fun _ e => (by rw [h2] at e; cases e), fun m => ?_⟩
    have := h1.val m
    rw [h2] at this ⊢
    simp only [oover, Option.map_none, Option.getD_none] at this ⊢
    rw [ocomputed_append, ocomputed_append, ← this]
  cases d with
  | x v =>
    refine ⟨fun w e => (by cases e; exact hd), h.ky, fun m => ?_⟩
    rw [ocomputed_append, ← h.val m]
    have hd : b.knows v = true := hd
    simp [ohandle, oover, ocomputed, hd]
  | y v =>
    refine ⟨h.kx, fun w e => (by cases e; exact hd), fun m => ?_⟩
    rw [ocomputed_append, ← h.val m]
    have hd : b.knows v = true := hd
    simp [ohandle, oover, ocomputed, hd]
  | both x y =>
    obtain ⟨h1, h2, h3⟩ := hd
    refine ⟨fun w e => (by cases e; exact h1), fun w e => (by cases e; exact h2), fun m => ?_⟩
    rw [ocomputed_append, ← h.val m]
    rcases h3 with h3 | rfl
    · simp [ohandle, oover, ocomputed, h1, h2, h3]
    · simp [ohandle, oover, ocomputed, h1]
  | rawX text => exact raw _ rfl
  | rawY text => exact raw _ rfl
  | rawBoth text => exact raw _ rfl

/-- C129: the computed values of `overflow-x` and `overflow-y` are the same with the block that is written, for every browser that knows the values, if it has the shorthand with two values when the targets are said to have it. (What is missing: values that the browser does not know: see the counterexample.) -/
theorem C129_overflow_partial (b : Agent) (t : Targets) (ht : t.isCompatible .overflowShorthand = true → b.two = true) (ds : List ODecl) (hd : ∀ d ∈ ds, OGood b d) (m : OVal × OVal) :
    ocomputed b m (orun t ds).2 = ocomputed b m ds ∧ (orun t ds).1 = {} := by
  have key : ∀ (ds : List ODecl) src s, OInv b src s → (∀ d ∈ ds, OGood b d) → OInv b (src ++ ds) (ds.foldl (ohandle t) s) := by
    intro ds
    induction ds with
    | nil => intro src s h _; simpa using h
    | cons d ds ih =>
      intro src s h hd
      have := ih _ _ (h.handle ht d (hd d (List.mem_cons_self ..))) fun d' h' => hd d' (List.mem_cons_of_mem _ h')
      simpa using this
  have h := key ds [] ({}, []) ⟨fun _ e => (by cases e), fun _ e => (by cases e), fun _ => rfl⟩ hd
  obtain ⟨h1, h2⟩ := h.finalize ht
  refine ⟨?_, h2⟩
  have := h1.val m
  rw [h2] at this
  exact this

example : ∀ d ∈ ([.both .hidden .scroll, .x .auto, .rawY cs!"var(--y)", .y .hidden] : List ODecl), OGood ⟨fun k => k ≠ .clip, true⟩ d := by
  intro d hd
  simp only [List.mem_cons, List.not_mem_nil, or_false] at hd
  rcases hd with rfl | rfl | rfl | rfl <;> simp [OGood]
example : (orun ie11 [.x .hidden, .y .scroll]).2 = [.x .hidden, .y .scroll] := by decide
example : (orun plain [.x .hidden, .y .scroll, .x .auto]).2 = [.both .auto .scroll] := by decide

/-- C129 fails with a value that some browsers do not know: `overflow: hidden; overflow: clip` becomes `overflow: clip`, whatever the targets are. -/
theorem C129_clip_fails (t : Targets) : ∃ (b : Agent) (ds : List ODecl), ∀ m, ocomputed b m ds = (.kw .hidden, .kw .hidden) ∧ ocomputed b m (orun t ds).2 = m :=
  ⟨⟨fun k => k ≠ .clip, true⟩, [.both .hidden .hidden, .both .clip .clip], fun _ => ⟨rfl, rfl⟩⟩

end Verif.Display
