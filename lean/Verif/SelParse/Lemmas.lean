import Verif.SelParse.Model
import Verif.SelParse.Spec
import Mathlib.Tactic.Tauto
/-!
# The parser against the grammar: white space, pieces, attributes, names
-/
namespace Verif.SelParse

/-- The value without the flag. -/
def okv {α β : Type} : Out (α × β) → Option α
  | .ok x => some x.1
  | .error _ => none

/-- The state of the parser in a place, after some components. -/
def stOf (cx : Cx) (before : List Comp) (b : Bool) : St where
  slotted := before.any Comp.isSlotted
  part := before.any Comp.isPart
  elem := before.any Comp.isElem
  noComb := !cx.combs
  noPseudo := !cx.elems
  nesting := b
  scrollbar := before.any Comp.isScrollbar
  viewTransition := before.any Comp.isViewTransition

theorem noElem_iff (l : List Comp) : NoElem l ↔ l.any Comp.isElem = false := by
  simp [NoElem]
theorem noSlotted_iff (l : List Comp) : NoSlotted l ↔ l.any Comp.isSlotted = false := by
  simp [NoSlotted]
theorem noPseudo_iff (cx : Cx) (l : List Comp) (b : Bool) : NoPseudo l ↔ (stOf cx l b).pseudo = false := by
  simp [NoPseudo, St.pseudo, stOf, NoElem, NoSlotted]
  tauto

@[simp] theorem liftL_nil (o : Opts) : liftL o [] = [] := by simp [liftL]
@[simp] theorem liftL_cons (o : Opts) (t : Tok) (ts : List Tok) : liftL o (t :: ts) = lift o t :: liftL o ts := by simp [liftL]
theorem liftL_append (o : Opts) (a b : List Tok) : liftL o (a ++ b) = liftL o a ++ liftL o b := by
  induction a with
  | nil => simp
  | cons t a ih => simp [ih]
@[simp] theorem liftL_length (o : Opts) (a : List Tok) : (liftL o a).length = a.length := by
  induction a with
  | nil => simp
  | cons t a ih => simp [ih]

theorem allWs_nil : AllWs [] := by simp [AllWs]
theorem allWs_cons {t : Tok} {w : List Tok} : AllWs (t :: w) ↔ t = .ws ∧ AllWs w := by simp [AllWs]
theorem allWs_append {a w : List Tok} : AllWs (a ++ w) ↔ AllWs a ∧ AllWs w := by
  simp only [AllWs, List.mem_append]
  constructor
  · intro h; exact ⟨fun t ht => h t (.inl ht), fun t ht => h t (.inr ht)⟩
  · rintro ⟨h, k⟩ t (ht | ht)
    · exact h t ht
    · exact k t ht

/-- Not white space. -/
def NotWs (ts : List Tok) : Prop := ∀ r, ts ≠ .ws :: r

theorem skipRaw_spec (ts : List Tok) : ∃ w, ts = w ++ skipRaw ts ∧ AllWs w ∧ NotWs (skipRaw ts) := by
  induction ts with
  | nil => exact ⟨[], by simp [skipRaw, allWs_nil, NotWs]⟩
  | cons t ts ih =>
    by_cases h : t = .ws
    · subst h
      obtain ⟨w, h1, h2, h3⟩ := ih
      refine ⟨.ws :: w, ?_, allWs_cons.2 ⟨rfl, h2⟩, ?_⟩
      · simp only [skipRaw, List.cons_append]; rw [← h1]
      · simpa [skipRaw] using h3
    · have e : skipRaw (t :: ts) = t :: ts := by cases t <;> simp [skipRaw] <;> exact absurd rfl h
      rw [e]
      exact ⟨[], by simp, allWs_nil, by intro r hr; simp at hr; exact h hr.1⟩

theorem skipRaw_of_notWs {ts : List Tok} (h : NotWs ts) : skipRaw ts = ts := by
  cases ts with
  | nil => rfl
  | cons t r => cases t <;> first | rfl | exact absurd rfl (h r)

theorem skipRaw_ws {w : List Tok} (h : AllWs w) (ts : List Tok) : skipRaw (w ++ ts) = skipRaw ts := by
  induction w with
  | nil => rfl
  | cons t w ih =>
    rw [allWs_cons] at h
    rw [h.1]
    simpa [skipRaw] using ih h.2

theorem skipRaw_allWs {w : List Tok} (h : AllWs w) : skipRaw w = [] := by
  have := skipRaw_ws h []
  simpa [skipRaw] using this

theorem skipRaw_eq_nil {ts : List Tok} : skipRaw ts = [] ↔ AllWs ts := by
  constructor
  · intro h
    obtain ⟨w, h1, h2, _⟩ := skipRaw_spec ts
    rw [h] at h1
    rw [h1]; simpa using h2
  · exact skipRaw_allWs

/-- Reading white space, then something that is not white space. -/
theorem skipRaw_eq {ts r : List Tok} (hr : NotWs r) : skipRaw ts = r ↔ ∃ w, ts = w ++ r ∧ AllWs w := by
  constructor
  · rintro rfl
    obtain ⟨w, h1, h2, _⟩ := skipRaw_spec ts
    exact ⟨w, h1, h2⟩
  · rintro ⟨w, rfl, h⟩
    rw [skipRaw_ws h, skipRaw_of_notWs hr]

theorem notWs_cons {t : Tok} {r : List Tok} (h : t ≠ .ws) : NotWs (t :: r) := by
  intro r' e
  simp at e
  exact h e.1

theorem lift_ws (o : Opts) {t : Tok} : lift o t = .tok .ws ↔ t = .ws := by
  cases t <;> simp [lift]

theorem skipWs_liftL (o : Opts) (ts : List Tok) : skipWs (liftL o ts) = liftL o (skipRaw ts) := by
  induction ts with
  | nil => simp [skipWs, skipRaw]
  | cons t ts ih =>
    by_cases h : t = .ws
    · subst h; simpa [skipWs, skipRaw, lift] using ih
    · rw [skipRaw_of_notWs (notWs_cons h)]
      cases t <;> simp [lift, skipWs] <;> exact absurd rfl h

theorem liftL_eq_nil (o : Opts) {ts : List Tok} : liftL o ts = [] ↔ ts = [] := by
  cases ts <;> simp

/-! ### Attribute selectors -/

theorem attrFlag_iff (ts : List Tok) (f : Flag) : attrFlag ts = some f ↔ f.Written ts := by
  unfold attrFlag
  obtain ⟨w, h1, h2, h3⟩ := skipRaw_spec ts
  generalize skipRaw ts = r at *
  have key : ∀ n r', (∃ w n' w', ts = w ++ Tok.ident n' :: w' ∧ AllWs w ∧ AllWs w' ∧ lower n' = n) ∧ r = r' → ∃ n' w', r' = .ident n' :: w' ∧ AllWs w' ∧ lower n' = n := by
    rintro n _ ⟨⟨w', n', w'', e, a, b, c⟩, rfl⟩
    have : skipRaw ts = Tok.ident n' :: w'' := (skipRaw_eq (notWs_cons (by simp))).2 ⟨w', e, a⟩
    rw [h1, skipRaw_ws h2, skipRaw_of_notWs h3] at this
    exact ⟨n', w'', this, b, c⟩
  have key2 : ∀ n' w', r = .ident n' :: w' → AllWs w' → ∃ w n'' w', ts = w ++ Tok.ident n'' :: w' ∧ AllWs w ∧ AllWs w' ∧ lower n'' = lower n' :=
    fun n' w' e a => ⟨w, n', w', by rw [h1, e], h2, a, rfl⟩
  cases r with
  | nil =>
    have hw : AllWs ts := by rw [h1]; simpa using h2
    cases f with
    | dflt => simp [Flag.Written, hw]
    | i =>
      simp only [Flag.Written]
      constructor
      · intro h; simp at h
      · intro h; obtain ⟨n', w', e, _⟩ := key _ [] ⟨h, rfl⟩; simp at e
    | s =>
      simp only [Flag.Written]
      constructor
      · intro h; simp at h
      · intro h; obtain ⟨n', w', e, _⟩ := key _ [] ⟨h, rfl⟩; simp at e
  | cons t r =>
    have hn : ¬ AllWs ts := by
      intro h
      have := skipRaw_allWs h
      rw [h1, skipRaw_ws h2, skipRaw_of_notWs h3] at this
      simp at this
    cases t with
    | ident n =>
      have hr : (skipRaw r).isEmpty = true ↔ AllWs r := by rw [List.isEmpty_iff, skipRaw_eq_nil]
      simp only []
      by_cases hq : AllWs r
      · rw [if_pos (hr.2 hq)]
        have hk := key2 n r rfl hq
        have h' : ∀ x, (∃ w n' w', ts = w ++ Tok.ident n' :: w' ∧ AllWs w ∧ AllWs w' ∧ lower n' = x) ↔ lower n = x := by
          intro x
          constructor
          · intro h
            obtain ⟨n', w', e, _, c⟩ := key x _ ⟨h, rfl⟩
            simp at e
            rw [e.1]; exact c
          · rintro rfl; exact hk
        cases f with
        | dflt =>
          simp only [Flag.Written, hn, iff_false]
          by_cases h : lower n = cs!"i"
          · simp [h]
          · by_cases h2 : lower n = cs!"s" <;> simp [h, h2]
        | i =>
          simp only [Flag.Written, h']
          by_cases h : lower n = cs!"i"
          · simp [h]
          · by_cases h2 : lower n = cs!"s" <;> simp [h, h2]
        | s =>
          simp only [Flag.Written, h']
          by_cases h : lower n = cs!"i"
          · rw [if_pos h, h]; decide
          · by_cases h2 : lower n = cs!"s"
            · rw [if_neg h, if_pos h2]; simp [h2]
            · simp [h, h2]
      · rw [if_neg (fun h => hq (hr.1 h))]
        cases f with
        | dflt => simp [Flag.Written, hn]
        | i =>
          simp only [Flag.Written]
          constructor
          · intro h; simp at h
          · intro h; obtain ⟨n', w', e, a, _⟩ := key _ _ ⟨h, rfl⟩; simp at e; rw [← e.2] at a; exact absurd a hq
        | s =>
          simp only [Flag.Written]
          constructor
          · intro h; simp at h
          · intro h; obtain ⟨n', w', e, a, _⟩ := key _ _ ⟨h, rfl⟩; simp at e; rw [← e.2] at a; exact absurd a hq
    | _ =>
      cases f with
      | dflt => simp [Flag.Written, hn]
      | i =>
        simp only [Flag.Written]
        constructor
        · intro h; simp at h
        · intro h; obtain ⟨n', w', e, a, _⟩ := key _ _ ⟨h, rfl⟩; simp at e
      | s =>
        simp only [Flag.Written]
        constructor
        · intro h; simp at h
        · intro h; obtain ⟨n', w', e, a, _⟩ := key _ _ ⟨h, rfl⟩; simp at e

theorem attrTest_iff (o : AttrOp) (ts : List Tok) (x : AttrOp × Str × Flag) :
    attrTest o ts = some x ↔ ∃ w u r, ts = w ++ u :: r ∧ AllWs w ∧ x.1 = o ∧ (u = .ident x.2.1 ∨ u = .str x.2.1) ∧ x.2.2.Written r := by
  obtain ⟨w, h1, h2, h3⟩ := skipRaw_spec ts
  obtain ⟨o', v, f⟩ := x
  have e : ∀ w' u r, u ≠ Tok.ws → ts = w' ++ u :: r → AllWs w' → skipRaw ts = u :: r := fun w' u r hu he ha =>
    (skipRaw_eq (notWs_cons hu)).2 ⟨w', he, ha⟩
  constructor
  · unfold attrTest
    intro h
    generalize skipRaw ts = r at *
    match r, h with
    | .ident n :: r, h =>
      simp only [Option.map_eq_some_iff, Prod.mk.injEq] at h
      obtain ⟨f', hf, rfl, rfl, rfl⟩ := h
      exact ⟨w, _, r, h1, h2, rfl, .inl rfl, (attrFlag_iff _ _).1 hf⟩
    | .str n :: r, h =>
      simp only [Option.map_eq_some_iff, Prod.mk.injEq] at h
      obtain ⟨f', hf, rfl, rfl, rfl⟩ := h
      exact ⟨w, _, r, h1, h2, rfl, .inr rfl, (attrFlag_iff _ _).1 hf⟩
  · rintro ⟨w', u, r, he, ha, rfl, (rfl | rfl), hf⟩
    · unfold attrTest
      rw [e _ _ _ (by simp) he ha]
      simp only [(attrFlag_iff _ _).2 hf]; rfl
    · unfold attrTest
      rw [e _ _ _ (by simp) he ha]
      simp only [(attrFlag_iff _ _).2 hf]; rfl

/-- The name of an attribute is written, with what comes next. -/
theorem attrName_iff {ts : List Tok} {ns : ANs} {n : Str} {r : List Tok} :
    attrName ts = some (ns, n, r) → ∃ x, ts = x ++ .ident n :: r ∧ ns.Written x := by
  intro h
  unfold attrName at h
  split at h
  · split at h
    · simp at h
      obtain ⟨rfl, rfl, rfl⟩ := h
      exact ⟨[.ident _, .delim '|'], rfl, rfl⟩
    · simp at h
  · simp at h
    obtain ⟨rfl, rfl, rfl⟩ := h
    exact ⟨[], rfl, .inl rfl⟩
  · simp at h
    obtain ⟨rfl, rfl, rfl⟩ := h
    exact ⟨[.delim '*', .delim '|'], rfl, rfl⟩
  · simp at h
    obtain ⟨rfl, rfl, rfl⟩ := h
    exact ⟨[.delim '|'], rfl, .inr rfl⟩
  · simp at h

/-- Not the bar of a namespace. -/
def NotBar (ts : List Tok) : Prop := ∀ r, ts ≠ .delim '|' :: r

theorem attrName_written {ns : ANs} {x : List Tok} (h : ns.Written x) (n : Str) {r : List Tok} (hr : NotBar r) :
    attrName (x ++ .ident n :: r) = some (ns, n, r) := by
  cases ns with
  | none =>
    rcases h with rfl | rfl
    · simp only [List.nil_append]
      unfold attrName
      split
      · next heq => simp at heq; exact absurd heq.2 (hr _)
      · next heq => simp at heq; obtain ⟨rfl, rfl⟩ := heq; rfl
      · next heq => simp at heq
      · next heq => simp at heq
      · next h1 h2 h3 h4 => exact absurd rfl (h2 n r)
    · rfl
  | any => simp only [ANs.Written] at h; subst h; rfl
  | named s => simp only [ANs.Written] at h; subst h; rfl

theorem parseAttr_iff (ts : List Tok) (a : Attr) : parseAttr ts = some a ↔ a.Written ts := by
  obtain ⟨w, h1, h2, h3⟩ := skipRaw_spec ts
  obtain ⟨ns, n, test⟩ := a
  constructor
  · intro h
    unfold parseAttr at h
    generalize skipRaw ts = t at *
    cases hn : attrName t with
    | none => rw [hn] at h; simp at h
    | some y =>
      obtain ⟨ns', n', r⟩ := y
      rw [hn] at h
      simp only at h
      obtain ⟨x, hx, hw⟩ := attrName_iff hn
      obtain ⟨w1, g1, g2, g3⟩ := skipRaw_spec r
      generalize skipRaw r = q at *
      split at h
      · simp at h
        obtain ⟨rfl, rfl, rfl⟩ := h
        exact ⟨w, x, r, by rw [h1, hx]; simp, h2, hw, by rw [g1]; simpa using g2⟩
      · rename_i q
        simp only [Option.map_eq_some_iff, Attr.mk.injEq] at h
        obtain ⟨y, hy, rfl, rfl, rfl⟩ := h
        rw [attrTest_iff] at hy
        obtain ⟨w2, u, r', e1, e2, e3, e4, e5⟩ := hy
        exact ⟨w, x, r, by rw [h1, hx]; simp, h2, hw, w1, .delim '=', w2, u, r', by rw [g1, e1], g2, e2, by rw [e3]; exact .inl rfl, e4, e5⟩
      · rename_i o q
        simp only [Option.map_eq_some_iff, Attr.mk.injEq] at h
        obtain ⟨y, hy, rfl, rfl, rfl⟩ := h
        rw [attrTest_iff] at hy
        obtain ⟨w2, u, r', e1, e2, e3, e4, e5⟩ := hy
        refine ⟨w, x, r, by rw [h1, hx]; simp, h2, hw, w1, .op o, w2, u, r', by rw [g1, e1], g2, e2, ?_, e4, e5⟩
        rw [e3]; cases o <;> simp [AttrOp.tok]
      · simp at h
  · rintro ⟨w', x, r, e, a1, a2, a3⟩
    have hx : NotWs (x ++ Tok.ident n :: r) := by
      cases ns with
      | none => rcases a2 with rfl | rfl <;> exact notWs_cons (by simp)
      | any => simp only [ANs.Written] at a2; subst a2; exact notWs_cons (by simp)
      | named s => simp only [ANs.Written] at a2; subst a2; exact notWs_cons (by simp)
    have e' : skipRaw ts = x ++ Tok.ident n :: r := (skipRaw_eq hx).2 ⟨w', by rw [e]; simp, a1⟩
    have hb : NotBar r := by
      intro r' hr
      subst hr
      cases test with
      | none => simp only at a3; rw [allWs_cons] at a3; simp at a3
      | some y =>
        obtain ⟨o, v, f⟩ := y
        obtain ⟨w1, t, w2, u, r'', q1, q2, q3, q4, _⟩ := a3
        cases w1 with
        | nil =>
          simp at q1
          rw [← q1.1] at q4
          cases o <;> simp [AttrOp.tok] at q4
        | cons y w1 =>
          rw [allWs_cons] at q2
          simp at q1
          rw [← q1.1] at q2
          simp at q2
    unfold parseAttr
    rw [e', attrName_written a2 n hb]
    simp only
    cases test with
    | none =>
      simp only at a3
      rw [skipRaw_allWs a3]
    | some y =>
      obtain ⟨o, v, f⟩ := y
      obtain ⟨w1, t, w2, u, r'', q1, q2, q3, q4, q5, q6⟩ := a3
      have ht : t ≠ .ws := by cases o <;> rintro rfl <;> simp [AttrOp.tok] at q4
      have hs : skipRaw r = t :: (w2 ++ u :: r'') := (skipRaw_eq (notWs_cons ht)).2 ⟨w1, q1, q2⟩
      have hh := (attrTest_iff o (w2 ++ u :: r'') (o, v, f)).2 ⟨w2, u, r'', rfl, q3, rfl, q5, q6⟩
      rw [hs]
      cases o with
      | equal => rcases q4 with rfl | rfl <;> simp [hh]
      | _ => simp only [AttrOp.tok] at q4; subst q4; simp [hh]

/-! ### Names -/

theorem partNames_iff (ts : List Tok) (l : List Str) : partNames ts = some l ↔ PartNames l ts := by
  constructor
  · intro h
    induction ts generalizing l with
    | nil => simp [partNames] at h; subst h; exact .nil
    | cons t ts ih =>
      cases t <;> simp only [partNames] at h <;> first | exact .ws (ih _ h) | skip
      all_goals first | (simp at h; done) | skip
      simp only [Option.map_eq_some_iff] at h
      obtain ⟨l', h', rfl⟩ := h
      exact .name (ih _ h')
  · intro h
    induction h with
    | nil => rfl
    | ws _ ih => simpa [partNames] using ih
    | name _ ih => simp [partNames, ih]

theorem logicalOf_iff (n : Str) (f : Logical) : logicalOf n = some f ↔ n = f.name := by
  constructor
  · intro h
    unfold logicalOf at h
    split at h; · simp at h; subst h; assumption
    split at h; · simp at h; subst h; assumption
    split at h; · simp at h; subst h; assumption
    split at h; · simp at h; subst h; assumption
    split at h; · simp at h; subst h; assumption
    simp at h
  · rintro rfl; cases f <;> decide

theorem nthOfName_iff (n : Str) (t : NthTy) : nthOfName n = some t ↔ n = t.name := by
  constructor
  · intro h
    unfold nthOfName at h
    split at h; · simp at h; subst h; assumption
    split at h; · simp at h; subst h; assumption
    split at h; · simp at h; subst h; assumption
    split at h; · simp at h; subst h; assumption
    split at h; · simp at h; subst h; assumption
    split at h; · simp at h; subst h; assumption
    simp at h
  · rintro rfl; cases t <;> decide

theorem css2_iff (n : Str) : isCss2 n = true ↔ Css2 n := by
  simp only [isCss2, Css2, decide_eq_true_eq]

/-! ### Pieces -/

/-- The pieces between the commas. -/
def splitRaw : List Tok → List (List Tok)
  | [] => [[]]
  | .comma :: ts => [] :: splitRaw ts
  | t :: ts =>
    match splitRaw ts with
    | [] => [[t]]
    | p :: ps => (t :: p) :: ps

theorem splitRaw_ne (ts : List Tok) : splitRaw ts ≠ [] := by
  induction ts with
  | nil => simp [splitRaw]
  | cons t ts ih =>
    cases t <;> simp only [splitRaw] <;> first | (split <;> simp) | simp

theorem splitRaw_cons {t : Tok} (h : t ≠ .comma) {ts p : List Tok} {ps : List (List Tok)} (e : splitRaw ts = p :: ps) :
    splitRaw (t :: ts) = (t :: p) :: ps := by
  cases t <;> first | exact absurd rfl h | simp only [splitRaw, e]

theorem split_liftL (o : Opts) (ts : List Tok) : splitComma (liftL o ts) = (splitRaw ts).map (liftL o) := by
  induction ts with
  | nil => simp [splitComma, splitRaw]
  | cons t ts ih =>
    by_cases h : t = .comma
    · subst h; simp [splitComma, splitRaw, lift, ih]
    · cases e : splitRaw ts with
      | nil => exact absurd e (splitRaw_ne ts)
      | cons p ps =>
        rw [splitRaw_cons h e]
        rw [e] at ih
        rw [liftL_cons]
        cases t <;> first | exact absurd rfl h | simp only [lift, splitComma, ih, List.map_cons, liftL_cons]

theorem intercalate_cons2 {α : Type} (s a b : List α) (l : List (List α)) : s.intercalate (a :: b :: l) = a ++ s ++ s.intercalate (b :: l) := by
  simp [List.intercalate, List.intersperse]

theorem pieces_iff (ps : List (List Tok)) (ts : List Tok) : Pieces ps ts ↔ ps = splitRaw ts := by
  constructor
  · rintro ⟨h1, h2, rfl⟩
    induction ps with
    | nil => exact absurd rfl h1
    | cons p ps ih =>
      have hp : Tok.comma ∉ p := h2 p (by simp)
      clear h1
      cases ps with
      | nil =>
        clear ih h2
        simp only [List.intercalate, List.intersperse, List.flatten_cons, List.flatten_nil, List.append_nil]
        induction p with
        | nil => rfl
        | cons t p ih =>
          simp at hp
          exact (splitRaw_cons (Ne.symm hp.1) (ih hp.2).symm).symm
      | cons q ps =>
        have ih' := ih (by simp) (fun x hx => h2 x (by simp at hx ⊢; right; exact hx))
        rw [intercalate_cons2]
        clear ih h2
        induction p with
        | nil => simp only [List.nil_append, List.singleton_append, splitRaw]; rw [← ih']
        | cons t p ih2 =>
          simp at hp
          exact (splitRaw_cons (Ne.symm hp.1) (ih2 hp.2).symm).symm
  · rintro rfl
    refine ⟨splitRaw_ne ts, ?_, ?_⟩
    · induction ts with
      | nil => simp [splitRaw]
      | cons t ts ih =>
        by_cases h : t = .comma
        · subst h; simp only [splitRaw]; intro p hp; simp at hp; rcases hp with rfl | hp
          · simp
          · exact ih p hp
        · cases e : splitRaw ts with
          | nil => exact absurd e (splitRaw_ne ts)
          | cons p ps =>
            rw [splitRaw_cons h e]
            rw [e] at ih
            intro q hq
            simp at hq
            rcases hq with rfl | hq
            · have := ih p (by simp)
              simp; exact ⟨Ne.symm h, this⟩
            · exact ih q (by simp [hq])
    · induction ts with
      | nil => rfl
      | cons t ts ih =>
        by_cases h : t = .comma
        · subst h
          simp only [splitRaw]
          cases e : splitRaw ts with
          | nil => exact absurd e (splitRaw_ne ts)
          | cons p ps =>
            rw [intercalate_cons2, ← e, ← ih]; rfl
        · cases e : splitRaw ts with
          | nil => exact absurd e (splitRaw_ne ts)
          | cons p ps =>
            rw [splitRaw_cons h e]
            rw [e] at ih
            cases ps with
            | nil => simp [List.intercalate] at ih ⊢; exact ih
            | cons q ps => rw [intercalate_cons2] at ih ⊢; rw [ih]; simp

theorem splitRaw_mem {ts p : List Tok} (h : p ∈ splitRaw ts) : ∀ t ∈ p, t ∈ ts := by
  induction ts generalizing p with
  | nil => simp [splitRaw] at h; subst h; simp
  | cons t ts ih =>
    by_cases hc : t = .comma
    · subst hc
      simp [splitRaw] at h
      rcases h with rfl | h
      · simp
      · intro x hx; exact List.mem_cons_of_mem _ (ih h x hx)
    · cases e : splitRaw ts with
      | nil => exact absurd e (splitRaw_ne ts)
      | cons q ps =>
        rw [splitRaw_cons hc e] at h
        simp at h
        rcases h with rfl | h
        · intro x hx
          simp at hx
          rcases hx with rfl | hx
          · simp
          · exact List.mem_cons_of_mem _ (ih (by rw [e]; simp) x hx)
        · intro x hx; exact List.mem_cons_of_mem _ (ih (by rw [e]; simp [h]) x hx)

end Verif.SelParse
