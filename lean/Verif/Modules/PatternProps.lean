import Verif.Modules.Spec
import Mathlib.Tactic.Common
/-! Patterns (C31). -/
namespace Verif.Modules

theorem splitAt_none {c : Char} : ∀ {s : Str} {b : Str}, splitAt c s = (b, none) ↔ b = s ∧ c ∉ s
  | [], b => by simp [splitAt, eq_comm]
  | d :: s, b => by
    unfold splitAt
    split
    · rename_i h; subst h; simp
    · rename_i h
      rw [Prod.ext_iff]
      simp only [List.mem_cons, not_or, Ne.symm h, not_false_eq_true, true_and]
      constructor
      · rintro ⟨h1, h2⟩
        have := (splitAt_none (c := c) (s := s) (b := (splitAt c s).1)).1 (Prod.ext rfl h2)
        rw [← h1, this.1]
        exact ⟨rfl, this.2⟩
      · rintro ⟨rfl, h2⟩
        have := (splitAt_none (c := c) (s := s) (b := s)).2 ⟨rfl, h2⟩
        rw [this]
        exact ⟨rfl, rfl⟩

theorem splitAt_some {c : Char} : ∀ {s : Str} {b r : Str}, splitAt c s = (b, some r) ↔ ∃ t, r = c :: t ∧ s = b ++ c :: t ∧ c ∉ b
  | [], b, r => by simp [splitAt]
  | d :: s, b, r => by
    unfold splitAt
    split
    · rename_i h
      subst h
      rw [Prod.mk.injEq, Option.some.injEq]
      constructor
      · rintro ⟨rfl, rfl⟩; exact ⟨s, rfl, rfl, by simp⟩
      · rintro ⟨t, rfl, h2, h3⟩
        cases b with
        | nil => simp only [List.nil_append] at h2; exact ⟨rfl, h2⟩
        | cons x b => simp only [List.cons_append, List.cons.injEq] at h2; exact absurd h2.1 (fun h => h3 (h ▸ List.mem_cons_self ..))
    · rename_i h
      rw [Prod.ext_iff]
      constructor
      · rintro ⟨h1, h2⟩
        obtain ⟨t, e1, e2, e3⟩ := (splitAt_some (c := c) (s := s) (b := (splitAt c s).1) (r := r)).1 (Prod.ext rfl h2)
        have h1 : d :: (splitAt c s).1 = b := h1
        refine ⟨t, e1, ?_, ?_⟩
        · rw [← h1]; simp only [List.cons_append, List.cons.injEq, true_and]; exact e2
        · rw [← h1]; simp [Ne.symm h, e3]
      · rintro ⟨t, rfl, h2, h3⟩
        cases b with
        | nil => simp only [List.nil_append, List.cons.injEq] at h2; exact absurd h2.1 h
        | cons x b =>
          simp only [List.cons_append, List.cons.injEq] at h2
          obtain ⟨rfl, h2⟩ := h2
          have := (splitAt_some (c := c) (s := s) (b := b) (r := c :: t)).2 ⟨t, rfl, h2, fun hb => h3 (List.mem_cons_of_mem _ hb)⟩
          rw [this]
          exact ⟨rfl, rfl⟩

theorem bytes_append (a b : Str) : bytes (a ++ b) = bytes a + bytes b := by
  induction a with
  | nil => simp [bytes]
  | cons c a ih => simp [bytes, ih, Nat.add_assoc]

theorem placeholder_some {s : Str} {seg : Seg} (h : placeholder s = some seg) : segSource seg = s ∧ ∀ t, seg ≠ .lit t := by
  unfold placeholder at h
  split at h
  · rename_i e; cases h; exact ⟨e.symm, by simp⟩
  · split at h
    · rename_i e; cases h; exact ⟨e.symm, by simp⟩
    · split at h
      · rename_i e; cases h; exact ⟨e.symm, by simp⟩
      · split at h
        · rename_i e; cases h; exact ⟨e.symm, by simp⟩
        · exact absurd h (by simp)

/-- Segments that are not literals. -/
def Seg.isLit : Seg → Bool
  | .lit _ => true
  | _ => false

theorem placeholder_source {seg : Seg} (h : seg.isLit = false) : placeholder (segSource seg) = some seg := by
  cases seg with
  | lit s => exact absurd h (by simp [Seg.isLit])
  | _ => decide

theorem source_split {seg : Seg} (h : seg.isLit = false) : ∃ b, segSource seg = '[' :: (b ++ [']']) ∧ ']' ∉ b := by
  cases seg with
  | lit s => exact absurd h (by simp [Seg.isLit])
  | name => exact ⟨cs!"name", rfl, by decide⟩
  | loc => exact ⟨cs!"local", rfl, by decide⟩
  | hash => exact ⟨cs!"hash", rfl, by decide⟩
  | content => exact ⟨cs!"content-hash", rfl, by decide⟩

/-- What is left where a pattern does not go on: nothing, a bracket without its end, or brackets around something else. -/
inductive Stop : Str → (Nat → List Seg → Except PErr (List Seg)) → Prop
  | done : Stop [] fun _ segs => .ok segs
  | unclosed (s) : ']' ∉ s → Stop ('[' :: s) fun i _ => .error (.unclosed i)
  | unknown (b t) : ']' ∉ b → placeholder ('[' :: (b ++ [']'])) = none → Stop ('[' :: (b ++ ']' :: t)) fun i _ => .error (.unknown ('[' :: (b ++ [']'])) i)

theorem stop_unique {s : Str} {f g} (hf : Stop s f) (hg : Stop s g) : f = g := by
  cases hf with
  | done => cases hg; rfl
  | unclosed s h =>
    generalize hx : '[' :: s = x at hg
    cases hg with
    | done => cases hx
    | unclosed s' h' => rfl
    | unknown b t hb hp => simp only [List.cons.injEq, true_and] at hx; subst hx; simp at h
  | unknown b t hb hp =>
    generalize hx : '[' :: (b ++ ']' :: t) = x at hg
    cases hg with
    | done => cases hx
    | unclosed s' h' => simp only [List.cons.injEq, true_and] at hx; subst hx; simp at h'
    | unknown b' t' hb' hp' =>
      simp only [List.cons.injEq, true_and] at hx
      have h1 := (splitAt_some (c := ']') (s := b ++ ']' :: t) (b := b) (r := ']' :: t)).2 ⟨t, rfl, rfl, hb⟩
      have h2 := (splitAt_some (c := ']') (s := b ++ ']' :: t) (b := b') (r := ']' :: t')).2 ⟨t', rfl, hx, hb'⟩
      rw [h1] at h2
      simp only [Prod.mk.injEq] at h2
      rw [h2.1]

/-- The text after a pattern does not belong to its last literal. -/
def Ends (segs : List Seg) (rest : Str) : Prop := (∃ s, segs.getLast? = some (.lit s)) → ∀ c t, rest = c :: t → c = '['

theorem stop_bracket {s : Str} {f} (h : Stop s f) : ∀ c t, s = c :: t → c = '[' := by
  intro c t e
  cases h with
  | done => cases e
  | _ => simp only [List.cons.injEq] at e; exact e.1.symm

theorem normal_tail {seg : Seg} {rest : List Seg} (h : Normal (seg :: rest)) : Normal rest := by
  cases seg with
  | lit s => exact h.2.2.2
  | _ => exact h

/-- The segments a text starts with, and what is left of it. -/
theorem parseLoop_correct : ∀ (n : Nat) (s : Str) (i : Nat) (segs : List Seg), s.length < n →
    ∃ new rest f, Normal new ∧ s = render new ++ rest ∧ Stop rest f ∧ parseLoop n s i segs = f (i + bytes (render new)) (segs ++ new) ∧
      (∀ c t, s = c :: t → c = '[' → ∀ l new', new ≠ .lit l :: new') := by
  intro n
  induction n with
  | zero => intro s i segs h; exact absurd h (by simp)
  | succ n ih =>
    intro s i segs h
    cases s with
    | nil => exact ⟨[], [], _, trivial, rfl, .done, by simp [parseLoop, render, bytes], by simp⟩
    | cons c s =>
      simp only [List.length_cons] at h
      by_cases hc : c = '['
      · subst hc
        cases hs : splitAt ']' ('[' :: s) with
        | mk b r =>
          cases r with
          | none =>
            obtain ⟨-, h2⟩ := splitAt_none.1 hs
            refine ⟨[], '[' :: s, _, trivial, rfl, .unclosed s (fun h => h2 (List.mem_cons_of_mem _ h)), ?_, by simp⟩
            simp [parseLoop, hs, render, bytes]
          | some r =>
            obtain ⟨t, rfl, h2, h3⟩ := splitAt_some.1 hs
            obtain ⟨b', rfl⟩ : ∃ b', b = '[' :: b' := by
              cases b with
              | nil => simp at h2
              | cons x b => simp only [List.cons_append, List.cons.injEq] at h2; exact ⟨b, by rw [h2.1]⟩
            simp only [List.cons_append, List.cons.injEq, true_and] at h2
            cases hp : placeholder ('[' :: b' ++ [']']) with
            | none =>
              subst h2
              refine ⟨[], '[' :: (b' ++ ']' :: t), _, trivial, rfl, .unknown b' t (fun h => h3 (List.mem_cons_of_mem _ h)) hp, ?_, by simp⟩
              simp only [parseLoop, if_true, hs, hp]
              simp [render, bytes]
            | some seg =>
              obtain ⟨e1, e2⟩ := placeholder_some hp
              obtain ⟨new, rest, f, h4, h5, h6, h7, -⟩ := ih t (i + bytes ('[' :: b') + 1) (segs ++ [seg]) (by have := congrArg List.length h2; simp at this; omega)
              refine ⟨seg :: new, rest, f, ?_, ?_, h6, ?_, ?_⟩
              · cases seg with
                | lit l => exact absurd rfl (e2 l)
                | _ => exact h4
              · simp only [render, List.flatMap_cons, e1, List.append_assoc]
                rw [h2, h5]
                simp [render]
              · simp only [parseLoop, if_true, hs, hp, List.tail_cons, h7]
                have : bytes (render (seg :: new)) = bytes ('[' :: b') + 1 + bytes (render new) := by
                  simp only [render, List.flatMap_cons, bytes_append, e1]
                  rfl
                rw [this]
                simp [Nat.add_assoc]
              · intro _ _ _ _ l new' he
                simp only [List.cons.injEq] at he
                exact e2 l he.1
      · cases hs : splitAt '[' (c :: s) with
        | mk b r =>
          have hb : ∃ b', b = c :: b' ∧ c :: s = b ++ r.getD [] ∧ '[' ∉ b ∧ ∀ x t, r.getD [] = x :: t → x = '[' := by
            cases r with
            | none =>
              obtain ⟨h1, h2⟩ := splitAt_none.1 hs
              subst h1
              exact ⟨s, rfl, by simp, h2, by simp⟩
            | some r =>
              obtain ⟨t, rfl, h2, h3⟩ := splitAt_some.1 hs
              cases b with
              | nil => simp only [List.nil_append, List.cons.injEq] at h2; exact absurd h2.1 hc
              | cons x b =>
                have h2' := h2
                simp only [List.cons_append, List.cons.injEq] at h2
                exact ⟨b, by rw [h2.1], by simpa using h2', h3, by simp⟩
          obtain ⟨b', rfl, h2, h3, h4⟩ := hb
          obtain ⟨new, rest, f, h5, h6, h7, h8, h9⟩ := ih (r.getD []) (i + bytes (c :: b')) (segs ++ [.lit (c :: b')]) (by
            have := congrArg List.length h2; simp at this; omega)
          refine ⟨.lit (c :: b') :: new, rest, f, ⟨by simp, h3, ?_, h5⟩, ?_, h7, ?_, ?_⟩
          · intro t rest' he
            cases hr : r.getD [] with
            | nil =>
              rw [hr] at h6
              subst he
              have := h5.1
              simp [render, segSource, this] at h6
            | cons x t' =>
              exact h9 x t' hr (h4 x t' hr) t rest' he
          · rw [h2, h6]; simp [render, segSource]
          · have hsp : parseLoop (n + 1) (c :: s) i segs = parseLoop n (r.getD []) (i + bytes (c :: b')) (segs ++ [.lit (c :: b')]) := by
              simp only [parseLoop, hc, if_false, hs]
            rw [hsp, h8]
            have : bytes (render (.lit (c :: b') :: new)) = bytes (c :: b') + bytes (render new) := by
              simp only [render, List.flatMap_cons, bytes_append, segSource]
            rw [this]
            simp [Nat.add_assoc]
          · intro x t he hx
            simp only [List.cons.injEq] at he
            exact absurd (he.1.trans hx) hc

theorem lit_eq {p q : Str} : ∀ {s s' : Str}, '[' ∉ s → '[' ∉ s' → (∀ c u, p = c :: u → c = '[') → (∀ c u, q = c :: u → c = '[') → s ++ p = s' ++ q → s = s'
  | [], [], _, _, _, _, _ => rfl
  | [], d :: s', _, k2, A, _, e => absurd (A d _ e) (fun h => k2 (h ▸ List.mem_cons_self ..))
  | d :: s, [], h2, _, _, B, e => absurd (B d _ e.symm) (fun h => h2 (h ▸ List.mem_cons_self ..))
  | d :: s, d' :: s', h2, k2, A, B, e => by
    simp only [List.cons_append, List.cons.injEq] at e
    rw [e.1, lit_eq (fun h => h2 (List.mem_cons_of_mem _ h)) (fun h => k2 (List.mem_cons_of_mem _ h)) A B e.2]

theorem segSource_lit (s : Str) : segSource (.lit s) = s := rfl

/-- A text has only one division into segments and what is left. -/
theorem render_unique : ∀ (a b : List Seg) (r r' : Str) (f g), Normal a → Normal b → Stop r f → Stop r' g → render a ++ r = render b ++ r' → a = b ∧ r = r' := by
  intro a
  induction a with
  | nil =>
    intro b r r' f g ha hb hr hr' e
    cases b with
    | nil => exact ⟨rfl, by simpa [render] using e⟩
    | cons y b =>
      exfalso
      cases hy : y.isLit with
      | true =>
        cases y with
        | lit s =>
          obtain ⟨h1, h2, -⟩ := hb
          cases s with
          | nil => exact h1 rfl
          | cons c s =>
            simp only [render, List.flatMap_nil, List.nil_append, List.flatMap_cons, segSource_lit, List.cons_append] at e
            exact h2 (by rw [stop_bracket hr c _ e]; exact List.mem_cons_self ..)
        | _ => simp [Seg.isLit] at hy
      | false =>
        obtain ⟨x, h1, h2⟩ := source_split hy
        simp only [render, List.flatMap_nil, List.nil_append, List.flatMap_cons, h1] at e
        cases hr with
        | done => simp at e
        | unclosed s hs => simp at e; subst e; simp at hs
        | unknown b' t hb' hp =>
          simp only [List.cons_append, List.append_assoc, List.nil_append, List.cons.injEq, true_and] at e
          have e1 := (splitAt_some (c := ']') (s := b' ++ ']' :: t) (b := b') (r := ']' :: t)).2 ⟨t, rfl, rfl, hb'⟩
          have e2 := (splitAt_some (c := ']') (s := b' ++ ']' :: t) (b := x) (r := ']' :: _)).2 ⟨_, rfl, e, h2⟩
          rw [e1] at e2
          simp only [Prod.mk.injEq] at e2
          rw [e2.1, ← h1, placeholder_source hy] at hp
          exact absurd hp (by simp)
  | cons x a ih =>
    intro b r r' f g ha hb hr hr' e
    cases b with
    | nil =>
      exfalso
      cases hx : x.isLit with
      | true =>
        cases x with
        | lit s =>
          obtain ⟨h1, h2, -⟩ := ha
          cases s with
          | nil => exact h1 rfl
          | cons c s =>
            simp only [render, List.flatMap_nil, List.nil_append, List.flatMap_cons, segSource_lit, List.cons_append] at e
            exact h2 (by rw [stop_bracket hr' c _ e.symm]; exact List.mem_cons_self ..)
        | _ => simp [Seg.isLit] at hx
      | false =>
        obtain ⟨y, h1, h2⟩ := source_split hx
        simp only [render, List.flatMap_nil, List.nil_append, List.flatMap_cons, h1] at e
        cases hr' with
        | done => simp at e
        | unclosed s hs => simp at e; subst e; simp at hs
        | unknown b' t hb' hp =>
          simp only [List.cons_append, List.append_assoc, List.nil_append, List.cons.injEq, true_and] at e
          have e1 := (splitAt_some (c := ']') (s := b' ++ ']' :: t) (b := b') (r := ']' :: t)).2 ⟨t, rfl, rfl, hb'⟩
          have e2 := (splitAt_some (c := ']') (s := b' ++ ']' :: t) (b := y) (r := ']' :: _)).2 ⟨_, rfl, e.symm, h2⟩
          rw [e1] at e2
          simp only [Prod.mk.injEq] at e2
          rw [e2.1, ← h1, placeholder_source hx] at hp
          exact absurd hp (by simp)
    | cons y b =>
      have starts : ∀ (l : List Seg) (t : Str) h, Normal l → Stop t h → (∀ s l', l ≠ .lit s :: l') → ∀ c u, render l ++ t = c :: u → c = '[' := by
        intro l t h hl ht hn c u hcu
        cases l with
        | nil => exact stop_bracket ht c u (by simpa [render] using hcu)
        | cons z l =>
          cases hz : z.isLit with
          | true =>
            cases z with
            | lit s => exact absurd rfl (hn s l)
            | _ => simp [Seg.isLit] at hz
          | false =>
            obtain ⟨w, h1, -⟩ := source_split hz
            simp only [render, List.flatMap_cons, h1, List.cons_append, List.cons.injEq] at hcu
            exact hcu.1.symm
      cases hx : x.isLit with
      | true =>
        cases x with
        | lit s =>
          obtain ⟨h1, h2, h3, h4⟩ := ha
          cases hy : y.isLit with
          | true =>
            cases y with
            | lit s' =>
              obtain ⟨k1, k2, k3, k4⟩ := hb
              simp only [render, List.flatMap_cons, segSource_lit, List.append_assoc] at e
              have A := starts a r f h4 hr h3
              have B := starts b r' g k4 hr' k3
              have hs : s = s' := lit_eq h2 k2 A B e
              subst hs
              have := ih b r r' f g h4 k4 hr hr' (List.append_cancel_left e)
              exact ⟨by rw [this.1], this.2⟩
            | _ => simp [Seg.isLit] at hy
          | false =>
            exfalso
            cases s with
            | nil => exact h1 rfl
            | cons c s =>
              obtain ⟨w, k1, -⟩ := source_split hy
              simp only [render, List.flatMap_cons, k1, segSource_lit, List.cons_append, List.cons.injEq] at e
              exact h2 (e.1 ▸ List.mem_cons_self ..)
        | _ => simp [Seg.isLit] at hx
      | false =>
        obtain ⟨w, h1, h2⟩ := source_split hx
        cases hy : y.isLit with
        | true =>
          exfalso
          cases y with
          | lit s =>
            obtain ⟨k1, k2, -⟩ := hb
            cases s with
            | nil => exact k1 rfl
            | cons c s =>
              simp only [render, List.flatMap_cons, h1, segSource_lit, List.cons_append, List.cons.injEq] at e
              exact k2 (e.1 ▸ List.mem_cons_self ..)
          | _ => simp [Seg.isLit] at hy
        | false =>
          obtain ⟨w', k1, k2⟩ := source_split hy
          have e' := e
          simp only [render, List.flatMap_cons, h1, k1, List.cons_append, List.append_assoc, List.nil_append, List.cons.injEq, true_and] at e
          have e1 := (splitAt_some (c := ']') (s := w ++ ']' :: (List.flatMap segSource a ++ r)) (b := w) (r := ']' :: (List.flatMap segSource a ++ r))).2 ⟨_, rfl, rfl, h2⟩
          have e2 := (splitAt_some (c := ']') (b := w') (r := ']' :: _)).2 ⟨_, rfl, e, k2⟩
          rw [e1] at e2
          simp only [Prod.mk.injEq, Option.some.injEq, List.cons.injEq, true_and] at e2
          have hxy : x = y := by
            have a1 := placeholder_source hx
            have a2 := placeholder_source hy
            rw [h1, e2.1, ← k1, a2] at a1
            exact (Option.some.inj a1).symm
          subst hxy
          have := ih b r r' f g (normal_tail ha) (normal_tail hb) hr hr' e2.2
          exact ⟨by rw [this.1], this.2⟩

/-- **C31** A pattern is accepted exactly if it is made of literals and placeholders, and the segments are the only such division of it. -/
theorem C31_accepts (s : Str) (segs : List Seg) : parse s = .ok segs ↔ Normal segs ∧ render segs = s := by
  obtain ⟨new, rest, f, h1, h2, h3, h4, -⟩ := parseLoop_correct (s.length + 1) s 0 [] (by omega)
  constructor
  · intro h
    rw [parse, h4] at h
    cases h3 with
    | done => simp only [List.nil_append, Except.ok.injEq] at h; subst h; exact ⟨h1, by simp [h2]⟩
    | unclosed => simp at h
    | unknown => simp at h
  · rintro ⟨k1, k2⟩
    obtain ⟨rfl, rfl⟩ := render_unique new segs rest [] f _ h1 k1 h3 .done (by rw [← h2, k2]; simp)
    cases h3
    rw [parse, h4]
    simp

/-- **C31** A bracket that is not closed is reported with the number of bytes before it. -/
theorem C31_unclosed (s : Str) (i : Nat) : parse s = .error (.unclosed i) ↔
    ∃ segs t, Normal segs ∧ s = render segs ++ '[' :: t ∧ ']' ∉ t ∧ i = bytes (render segs) := by
  obtain ⟨new, rest, f, h1, h2, h3, h4, -⟩ := parseLoop_correct (s.length + 1) s 0 [] (by omega)
  constructor
  · intro h
    rw [parse, h4] at h
    cases h3 with
    | done => simp at h
    | unclosed t ht => simp only [Except.error.injEq, PErr.unclosed.injEq, Nat.zero_add] at h; exact ⟨new, t, h1, h2, ht, h.symm⟩
    | unknown => simp at h
  · rintro ⟨segs, t, k1, k2, k3, rfl⟩
    obtain ⟨rfl, rfl⟩ := render_unique new segs rest _ f _ h1 k1 h3 (.unclosed t k3) (by rw [← h2, k2])
    have := stop_unique h3 (.unclosed t k3)
    rw [parse, h4, this]
    simp

/-- **C31** Brackets around anything else are reported with their text and the number of bytes before them. -/
theorem C31_unknown (s p : Str) (i : Nat) : parse s = .error (.unknown p i) ↔
    ∃ segs b t, Normal segs ∧ s = render segs ++ p ++ t ∧ p = '[' :: (b ++ [']']) ∧ ']' ∉ b ∧
      p ∉ [cs!"[name]", cs!"[local]", cs!"[hash]", cs!"[content-hash]"] ∧ i = bytes (render segs) := by
  have hpl : ∀ p : Str, placeholder p = none ↔ p ∉ [cs!"[name]", cs!"[local]", cs!"[hash]", cs!"[content-hash]"] := by
    intro p
    unfold placeholder
    simp only [List.mem_cons, List.not_mem_nil, or_false, not_or]
    split
    · rename_i h; simp [h]
    · split
      · rename_i h; simp [h]
      · split
        · rename_i h; simp [h]
        · split
          · rename_i h; simp [h]
          · rename_i a b c d; simp [a, b, c, d]
  obtain ⟨new, rest, f, h1, h2, h3, h4, -⟩ := parseLoop_correct (s.length + 1) s 0 [] (by omega)
  constructor
  · intro h
    rw [parse, h4] at h
    cases h3 with
    | done => simp at h
    | unclosed t ht => simp at h
    | unknown b t hb hp =>
      simp only [Except.error.injEq, PErr.unknown.injEq, Nat.zero_add] at h
      exact ⟨new, b, t, h1, by rw [h2, ← h.1]; simp, h.1.symm, hb, (hpl p).1 (h.1 ▸ hp), h.2.symm⟩
  · rintro ⟨segs, b, t, k1, k2, rfl, k3, k4, rfl⟩
    have hst := Stop.unknown b t k3 ((hpl _).2 k4)
    obtain ⟨rfl, rfl⟩ := render_unique new segs rest _ f _ h1 k1 h3 hst (by rw [← h2, k2]; simp)
    have := stop_unique h3 hst
    rw [parse, h4, this]
    simp

/-- The theorems are about all three outcomes. -/
example : parse cs!"é[name]-[local]" = .ok [.lit cs!"é", .name, .lit cs!"-", .loc] ∧ parse cs!"é[hash][loc" = .error (.unclosed 8) ∧
    parse cs!"x[foo]y" = .error (.unknown cs!"[foo]" 1) := by decide +kernel
end Verif.Modules
