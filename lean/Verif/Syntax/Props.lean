import Verif.Syntax.Spec
/-!
C43: syntax strings are read as the grammar says, and what is printed reads back.
-/
namespace Verif.Syntax

set_option linter.unusedSimpArgs false

/-! ### Characters -/

theorem isSpace_iff (c : Char) : isSpace c = true ↔ c = ' ' ∨ c = '\t' := by simp [isSpace]

theorem blank_iff (w : Str) : Blank w ↔ ∀ c ∈ w, isSpace c = true := by
  simp only [Blank, isSpace_iff]

theorem char_le (a b : Char) : a ≤ b ↔ a.toNat ≤ b.toNat := by
  simp only [Char.toNat, Char.le_def, UInt32.le_iff_toNat_le]

theorem isIdentStart_iff (c : Char) : isIdentStart c = true ↔ IdentStart c := by
  have h : ('\u0080' ≤ c) ↔ 128 ≤ c.toNat := by rw [char_le]; rfl
  simp only [isIdentStart, IdentStart, Bool.or_eq_true, Bool.and_eq_true, decide_eq_true_eq, beq_iff_eq, h]
  constructor
  · rintro (((h | h) | h) | h)
    · exact .inl h
    · exact .inr (.inl h)
    · exact .inr (.inr (.inr h))
    · exact .inr (.inr (.inl h))
  · rintro (h | h | h | h)
    · exact .inl (.inl (.inl h))
    · exact .inl (.inl (.inr h))
    · exact .inr h
    · exact .inl (.inr h)

theorem isName_iff (c : Char) : isNameCodePoint c = true ↔ IdentChar c := by
  simp only [isNameCodePoint, IdentChar, Bool.or_eq_true, Bool.and_eq_true, decide_eq_true_eq, beq_iff_eq,
    isIdentStart_iff, or_assoc]

theorem isStart_isName {c : Char} (h : isIdentStart c = true) : isNameCodePoint c = true := by
  simp [isNameCodePoint, h]

theorem name_not_space {c : Char} (h : isNameCodePoint c = true) : isSpace c = false := by
  cases hs : isSpace c with
  | false => rfl
  | true =>
    rw [isSpace_iff] at hs
    rcases hs with rfl | rfl <;> exact absurd h (by decide)

/-- A character after which a component may end. -/
def Stop (rest : Str) : Prop :=
  ∀ c ∈ rest.head?, isNameCodePoint c = false ∧ c ≠ '+' ∧ c ≠ '#'

/-- A character after which a name may end. -/
def StopName (rest : Str) : Prop := ∀ c ∈ rest.head?, isNameCodePoint c = false

theorem mem_takeWhile' {p : Char → Bool} {l : Str} {c : Char} (h : c ∈ l.takeWhile p) : p c = true := by
  induction l with
  | nil => simp at h
  | cons x l ih =>
    rw [List.takeWhile_cons] at h
    split at h
    · rename_i hx
      rcases List.mem_cons.1 h with rfl | h
      · exact hx
      · exact ih h
    · simp at h

theorem takeWhile_all {p : Char → Bool} {s rest : Str} (h : ∀ c ∈ s, p c = true)
    (hr : ∀ c ∈ rest.head?, p c = false) : (s ++ rest).takeWhile p = s := by
  induction s with
  | nil => cases rest with
    | nil => rfl
    | cons c r => have := hr c (by simp); simp [this]
  | cons c s ih =>
    have := h c (by simp)
    simp only [List.cons_append, List.takeWhile_cons, this, if_true]
    rw [ih (fun x hx => h x (by simp [hx]))]

theorem dropWhile_all {p : Char → Bool} {s rest : Str} (h : ∀ c ∈ s, p c = true)
    (hr : ∀ c ∈ rest.head?, p c = false) : (s ++ rest).dropWhile p = rest := by
  induction s with
  | nil => cases rest with
    | nil => rfl
    | cons c r => have := hr c (by simp); simp [this]
  | cons c s ih =>
    have := h c (by simp)
    simp only [List.cons_append, List.dropWhile_cons, this, if_true]
    exact ih (fun x hx => h x (by simp [hx]))

theorem trimStart_blank {w s : Str} (hw : Blank w) (hs : ∀ c ∈ s.head?, isSpace c = false) :
    trimStart (w ++ s) = s := dropWhile_all ((blank_iff w).1 hw) hs

theorem trimStart_split (s : Str) : ∃ w, Blank w ∧ s = w ++ trimStart s ∧
    ∀ c ∈ (trimStart s).head?, isSpace c = false := by
  refine ⟨s.takeWhile isSpace, (blank_iff _).2 fun c hc => ?_, (List.takeWhile_append_dropWhile).symm, ?_⟩
  · exact mem_takeWhile' hc
  · intro c hc
    have := List.head?_dropWhile_not isSpace s
    simp only [trimStart] at hc
    rw [Option.mem_def] at hc
    rw [hc] at this
    simpa using this

/-! ### Names of data types -/

theorem ite_eq_iff {α : Type} {P : Prop} [Decidable P] {a b c : α} :
    (if P then a else b) = c ↔ (P ∧ a = c) ∨ (¬P ∧ b = c) := by
  by_cases h : P <;> simp [h]

theorem kindOfName_iff (name : Str) (k : Kind) :
    kindOfName name = some k ↔ typeName k = some (name.map Char.toLower) := by
  simp only [kindOfName]
  generalize name.map Char.toLower = n
  constructor
  · intro h
    iterate 15 (rw [ite_eq_iff] at h; rcases h with ⟨hn, h⟩ | ⟨_, h⟩; (cases h; rw [hn]; rfl))
    cases h
  · intro h
    cases k <;> simp only [typeName, Option.some.injEq, reduceCtorEq] at h <;> subst h <;> decide

theorem typeName_chars : ∀ k n, typeName k = some n → ∀ c ∈ n, isNameCodePoint c = true := by
  intro k n h
  cases k <;> simp only [typeName, Option.some.injEq, reduceCtorEq] at h <;> subst h <;> decide

theorem no_gt_of_lower {t : Str} {k : Kind} (h : typeName k = some (t.map Char.toLower)) :
    ∀ c ∈ t, (c != '>') = true := by
  intro c hc
  have := typeName_chars k _ h c.toLower (List.mem_map_of_mem hc)
  simp only [bne_iff_ne, ne_eq]
  rintro rfl
  exact absurd this (by decide)

/-! ### Component names -/

theorem parseKind_complete {t rest : Str} {k : Kind} (h : KindText t k) (w : Str) (hw : Blank w)
    (hr : StopName rest) : parseKind (w ++ t ++ rest) = some (k, rest) := by
  cases h with
  | type t hk ht =>
    subst ht
    have htr : trimStart (w ++ ('<' :: t ++ ['>']) ++ rest) = '<' :: (t ++ '>' :: rest) := by
      rw [List.append_assoc, trimStart_blank hw]
      · simp
      · simp [isSpace]
    have hng := no_gt_of_lower hk
    unfold parseKind
    rw [htr]
    simp only
    rw [dropWhile_all hng (by simp), takeWhile_all hng (by simp), (kindOfName_iff t k).2 hk]
  | literal c s hc hs =>
    have hc' := (isIdentStart_iff c).2 hc
    have hn := isStart_isName hc'
    have htr : trimStart (w ++ (c :: s) ++ rest) = c :: (s ++ rest) := by
      rw [List.append_assoc, trimStart_blank hw]
      · simp
      · simpa using name_not_space hn
    have hlt : c ≠ '<' := by rintro rfl; exact absurd hc' (by decide)
    have hall : ∀ x ∈ c :: s, isNameCodePoint x = true := by
      intro x hx
      rcases List.mem_cons.1 hx with rfl | hx
      · exact hn
      · exact (isName_iff x).2 (hs x hx)
    unfold parseKind
    rw [htr]
    split
    · rename_i heq; simp only [List.cons.injEq] at heq; exact absurd heq.1 hlt
    · rename_i c' s' _ heq
      simp only [List.cons.injEq] at heq
      obtain ⟨rfl, rfl⟩ := heq
      rw [if_pos hc', ← List.cons_append, takeWhile_all hall hr, dropWhile_all hall hr]
    · rename_i heq; simp at heq

theorem parseKind_sound {s rest : Str} {k : Kind} (h : parseKind s = some (k, rest)) :
    ∃ w t, s = w ++ t ++ rest ∧ Blank w ∧ KindText t k := by
  obtain ⟨w, hw, hs, _⟩ := trimStart_split s
  refine ⟨w, ?_⟩
  unfold parseKind at h
  split at h
  · rename_i s' heq
    split at h
    · rename_i c r hdrop
      split at h
      · rename_i k' hk
        simp only [Option.some.injEq, Prod.mk.injEq] at h
        obtain ⟨rfl, rfl⟩ := h
        refine ⟨'<' :: s'.takeWhile (· != '>') ++ ['>'], ?_, hw, .type _ ((kindOfName_iff _ _).1 hk) rfl⟩
        have hc : c = '>' := by
          have := List.head?_dropWhile_not (· != '>') s'
          rw [hdrop] at this
          simpa using this
        have e : s' = s'.takeWhile (· != '>') ++ s'.dropWhile (· != '>') :=
          (List.takeWhile_append_dropWhile).symm
        rw [hdrop, hc] at e
        rw [hs, heq]
        simp only [List.append_assoc, List.cons_append, List.nil_append]
        rw [← e]
      · simp at h
    · simp at h
  · rename_i c s' _ heq
    split at h
    · rename_i hc
      simp only [Option.some.injEq, Prod.mk.injEq] at h
      obtain ⟨rfl, rfl⟩ := h
      have hn := isStart_isName hc
      have e : (c :: s').takeWhile isNameCodePoint = c :: s'.takeWhile isNameCodePoint := by
        simp [List.takeWhile_cons, hn]
      refine ⟨(c :: s').takeWhile isNameCodePoint, ?_, hw, ?_⟩
      · rw [List.append_assoc, List.takeWhile_append_dropWhile, ← heq]; exact hs
      · rw [e]
        exact .literal c _ ((isIdentStart_iff c).1 hc)
          fun x hx => (isName_iff x).1 (mem_takeWhile' hx)
    · simp at h
  · simp at h

theorem kindText_ne_nil {t : Str} {k : Kind} (h : KindText t k) : t ≠ [] := by
  cases h <;> simp

/-- A component's text begins with `<` or an identifier character, so not with white space or `*`. -/
theorem kindText_head {t : Str} {k : Kind} (h : KindText t k) :
    ∃ c s, t = c :: s ∧ isSpace c = false ∧ c ≠ '*' := by
  cases h with
  | type t hk ht => exact ⟨'<', t ++ ['>'], rfl, by decide, by decide⟩
  | literal c s hc hs =>
    have hc' := (isIdentStart_iff c).2 hc
    refine ⟨c, s, rfl, name_not_space (isStart_isName hc'), ?_⟩
    rintro rfl; exact absurd hc' (by decide)

theorem compText_head {t : Str} {c : Component} (h : CompText t c) :
    ∃ x s, t = x :: s ∧ isSpace x = false ∧ x ≠ '*' := by
  cases h with
  | plain h => exact kindText_head h
  | space h _ => obtain ⟨x, s, rfl, h1, h2⟩ := kindText_head h; exact ⟨x, _, rfl, h1, h2⟩
  | comma h _ => obtain ⟨x, s, rfl, h1, h2⟩ := kindText_head h; exact ⟨x, _, rfl, h1, h2⟩

/-- The last character of a component is not white space. -/
theorem compText_last {t : Str} {c : Component} (h : CompText t c) :
    ∃ x s, t = s ++ [x] ∧ isSpace x = false := by
  have hk : ∀ {t k}, KindText t k → ∃ x s, t = s ++ [x] ∧ isSpace x = false := by
    intro t k h
    cases h with
    | type t hk ht => exact ⟨'>', '<' :: t, rfl, by decide⟩
    | literal c s hc hs =>
      obtain ⟨s', x, e⟩ : ∃ s' x, c :: s = s' ++ [x] :=
        ⟨(c :: s).dropLast, (c :: s).getLast (by simp), (List.dropLast_concat_getLast (by simp)).symm⟩
      refine ⟨x, s', e, name_not_space ?_⟩
      have hx : x ∈ c :: s := by rw [e]; simp
      rcases List.mem_cons.1 hx with rfl | hx
      · exact isStart_isName ((isIdentStart_iff x).2 hc)
      · exact (isName_iff x).2 (hs x hx)
  cases h with
  | plain h => exact hk h
  | space h _ => exact ⟨'+', _, rfl, by decide⟩
  | comma h _ => exact ⟨'#', _, rfl, by decide⟩

/-! ### Components -/

theorem parseComponent_complete {t rest : Str} {c : Component} (h : CompText t c) (w : Str) (hw : Blank w)
    (hr : Stop rest) : parseComponent (w ++ t ++ rest) = some (c, rest) := by
  unfold parseComponent
  cases h with
  | plain h =>
    rw [parseKind_complete h w hw (fun c hc => (hr c hc).1)]
    simp only
    split
    · rfl
    · split
      · have := (hr '+' (by simp)).2.1; exact absurd rfl this
      · have := (hr '#' (by simp)).2.2; exact absurd rfl this
      · rfl
  | space h hk =>
    rw [← List.append_assoc w, List.append_assoc _ _ rest]
    rw [parseKind_complete h w hw (by intro c hc; simp at hc; subst hc; decide)]
    simp [hk]
  | comma h hk =>
    rw [← List.append_assoc w, List.append_assoc _ _ rest]
    rw [parseKind_complete h w hw (by intro c hc; simp at hc; subst hc; decide)]
    simp [hk]

theorem parseComponent_sound {s rest : Str} {c : Component} (h : parseComponent s = some (c, rest)) :
    ∃ w t, s = w ++ t ++ rest ∧ Blank w ∧ CompText t c := by
  unfold parseComponent at h
  split at h
  · simp at h
  · rename_i k r hk
    obtain ⟨w, t, hs, hw, ht⟩ := parseKind_sound hk
    split at h
    · simp only [Option.some.injEq, Prod.mk.injEq] at h
      obtain ⟨rfl, rfl⟩ := h
      exact ⟨w, t, hs, hw, .plain ht⟩
    · rename_i hne
      split at h <;> simp only [Option.some.injEq, Prod.mk.injEq] at h <;> obtain ⟨rfl, rfl⟩ := h
      · exact ⟨w, t ++ ['+'], by simp [hs], hw, .space ht hne⟩
      · exact ⟨w, t ++ ['#'], by simp [hs], hw, .comma ht hne⟩
      · exact ⟨w, t, hs, hw, .plain ht⟩

theorem stop_blank_nil {w : Str} (hw : Blank w) : Stop w := by
  intro c hc
  have hm : c ∈ w := List.mem_of_mem_head? hc
  rcases hw c hm with rfl | rfl <;> decide

theorem stop_blank_bar {w s : Str} (hw : Blank w) : Stop (w ++ '|' :: s) := by
  intro c hc
  cases w with
  | nil => simp at hc; subst hc; decide
  | cons x w =>
    simp at hc; subst hc
    rcases hw x (by simp) with rfl | rfl <;> decide

theorem trimStart_all {w : Str} (hw : Blank w) : trimStart w = [] := by
  have := trimStart_blank (s := []) hw (by simp)
  simpa using this

theorem parseLoop_complete {s : Str} {cs : List Component} (h : CompsText s cs) :
    ∀ f, s.length < f → parseLoop f s = some cs := by
  induction h with
  | last w w' hw hc hw' =>
    intro f hf
    obtain ⟨f, rfl⟩ : ∃ k, f = k + 1 := ⟨f - 1, by omega⟩
    simp only [parseLoop]
    rw [parseComponent_complete hc w hw (stop_blank_nil hw')]
    simp only
    rw [trimStart_all hw']
  | more w w' hw hc hw' _ ih =>
    rename_i t c s cs _
    intro f hf
    obtain ⟨f, rfl⟩ : ∃ k, f = k + 1 := ⟨f - 1, by omega⟩
    simp only [parseLoop]
    rw [List.append_assoc, parseComponent_complete hc w hw (stop_blank_bar hw')]
    simp only
    rw [trimStart_blank hw' (by simp [isSpace])]
    simp only
    rw [ih f (by simp at hf; omega)]

theorem parseLoop_sound (f : Nat) : ∀ {s : Str} {cs : List Component}, parseLoop f s = some cs →
    CompsText s cs := by
  induction f with
  | zero => intro s cs h; simp [parseLoop] at h
  | succ f ih =>
    intro s cs h
    simp only [parseLoop] at h
    split at h
    · simp at h
    · rename_i c r hc
      obtain ⟨w, t, hs, hw, ht⟩ := parseComponent_sound hc
      obtain ⟨w', hw', hr, _⟩ := trimStart_split r
      split at h
      · rename_i hnil
        simp only [Option.some.injEq] at h
        subst h
        rw [hs, hr, hnil, List.append_nil]
        exact .last w w' hw ht hw'
      · rename_i s' hbar
        split at h
        · rename_i cs' hcs
          simp only [Option.some.injEq] at h
          subst h
          rw [hs, hr, hbar, ← List.append_assoc]
          exact .more w w' hw ht hw' (ih hcs)
        · simp at h
      · simp at h

/-! ### Whole strings -/

theorem trim_split (s : Str) : ∃ w w', Blank w ∧ Blank w' ∧ s = w ++ trim s ++ w' := by
  obtain ⟨w, hw, hs, _⟩ := trimStart_split s
  refine ⟨w, ((trimStart s).reverse.takeWhile isSpace).reverse, hw, ?_, ?_⟩
  · rw [blank_iff]
    intro c hc
    rw [List.mem_reverse] at hc
    exact mem_takeWhile' hc
  · have : trimStart s = trim s ++ ((trimStart s).reverse.takeWhile isSpace).reverse := by
      rw [trim, ← List.reverse_append, List.takeWhile_append_dropWhile, List.reverse_reverse]
    rw [List.append_assoc, ← this]; exact hs

theorem trim_eq {w w' s : Str} (hw : Blank w) (hw' : Blank w') (hh : ∀ c ∈ s.head?, isSpace c = false)
    (hl : ∀ c ∈ s.reverse.head?, isSpace c = false) (hne : s ≠ []) : trim (w ++ s ++ w') = s := by
  have h1 : trimStart (w ++ s ++ w') = s ++ w' := by
    rw [List.append_assoc, trimStart_blank hw]
    cases s with
    | nil => exact absurd rfl hne
    | cons c s => simpa using hh
  rw [trim, h1, List.reverse_append]
  have : Blank w'.reverse := by intro c hc; exact hw' c (List.mem_reverse.1 hc)
  rw [dropWhile_all ((blank_iff _).1 this) hl, List.reverse_reverse]

theorem blank_append {a b : Str} (ha : Blank a) (hb : Blank b) : Blank (a ++ b) := by
  intro c hc; rcases List.mem_append.1 hc with h | h
  · exact ha c h
  · exact hb c h

/-- White space may be added around components. -/
theorem compsText_pad {s : Str} {cs : List Component} (h : CompsText s cs) {w w' : Str} (hw : Blank w)
    (hw' : Blank w') : CompsText (w ++ s ++ w') cs := by
  induction h generalizing w with
  | last u u' hu hc hu' =>
    have := CompsText.last (w ++ u) (u' ++ w') (blank_append hw hu) hc (blank_append hu' hw')
    simpa using this
  | more u u' hu hc hu' hs ih =>
    have := CompsText.more (w ++ u) u' (blank_append hw hu) hc hu' (ih (w := []) (by simp [Blank]))
    simpa using this

/-- The components of a text are those of the text without white space around. -/
theorem compsText_trim {s : Str} {cs : List Component} (h : CompsText s cs) :
    CompsText (trim s) cs ∧ ∃ c r, trim s = c :: r ∧ c ≠ '*' := by
  -- strip the white space at both ends
  have key : ∃ w w' m, Blank w ∧ Blank w' ∧ s = w ++ m ++ w' ∧ CompsText m cs ∧
      (∃ c r, m = c :: r ∧ isSpace c = false ∧ c ≠ '*') ∧ (∃ c r, m = r ++ [c] ∧ isSpace c = false) := by
    induction h with
    | last w w' hw hc hw' =>
      rename_i t c
      refine ⟨w, w', t, hw, hw', rfl, ?_, compText_head hc, ?_⟩
      · have := CompsText.last [] [] (by simp [Blank]) hc (by simp [Blank]); simpa using this
      · obtain ⟨x, r, e, h⟩ := compText_last hc; exact ⟨x, r, e, h⟩
    | more w w' hw hc hw' hs ih =>
      rename_i t c s cs
      obtain ⟨u, u', m, hu, hu', hsm, hm, _, ⟨x, r, hx, hxs⟩⟩ := ih
      refine ⟨w, u', t ++ w' ++ '|' :: (u ++ m), hw, hu', by simp [hsm], ?_, ?_, ?_⟩
      · have := CompsText.more [] w' (by simp [Blank]) hc hw'
          (compsText_pad hm (w := u) (w' := []) hu (by simp [Blank]))
        simpa using this
      · obtain ⟨y, q, e, h1, h2⟩ := compText_head hc
        exact ⟨y, q ++ w' ++ '|' :: (u ++ m), by simp [e], h1, h2⟩
      · exact ⟨x, t ++ w' ++ '|' :: (u ++ r), by simp [hx], hxs⟩
  obtain ⟨w, w', m, hw, hw', rfl, hm, ⟨c, r, hc, hcs, hstar⟩, ⟨x, q, hx, hxs⟩⟩ := key
  have : trim (w ++ m ++ w') = m := by
    apply trim_eq hw hw'
    · intro y hy; rw [hc] at hy; simp at hy; subst hy; exact hcs
    · intro y hy; rw [hx] at hy; simp at hy; subst hy; exact hxs
    · rw [hc]; simp
  rw [this]
  exact ⟨hm, c, r, hc, hstar⟩

theorem parseString_of_comps {s : Str} {cs : List Component} {c : Char} {r : Str}
    (hs : trim s = c :: r) (hc : c ≠ '*') (ht : CompsText (trim s) cs) :
    parseString s = some (.components cs) := by
  unfold parseString
  split
  · rename_i e; rw [e] at hs; simp at hs
  · rename_i e; rw [e] at hs; simp at hs; exact absurd hs.1.symm hc
  · rw [parseLoop_complete ht _ (Nat.lt_succ_self _)]

/-- C43: a text is read as a syntax string exactly when the grammar says so. -/
theorem parse_iff (s : Str) (x : SyntaxString) : parseString s = some x ↔ SyntaxText s x := by
  constructor
  · intro h
    obtain ⟨w, w', hw, hw', hs⟩ := trim_split s
    unfold parseString at h
    split at h
    · simp at h
    · rename_i e
      simp only [Option.some.injEq] at h
      subst h
      rw [hs, e]
      exact .universal w w' hw hw'
    · rename_i e1 e2
      split at h
      · rename_i cs hcs
        simp only [Option.some.injEq] at h
        subst h
        have := compsText_pad (parseLoop_sound _ hcs) hw hw'
        rw [← hs] at this
        exact .components this
      · simp at h
  · intro h
    cases h with
    | universal w w' hw hw' =>
      have : trim (w ++ ['*'] ++ w') = ['*'] := by
        apply trim_eq hw hw' <;> simp [isSpace]
      unfold parseString
      rw [this]
      rfl
    | components h =>
      obtain ⟨ht, c, r, e, hc⟩ := compsText_trim h
      exact parseString_of_comps e hc ht

/-! ### Printing -/

theorem printKind_text {t : Str} {k : Kind} (h : KindText t k) : KindText (printKind k) k := by
  cases h with
  | type t hk ht =>
    rename_i name
    have : printKind k = '<' :: name ++ ['>'] ∧ name.map Char.toLower = name := by
      cases k <;> simp only [typeName, Option.some.injEq, reduceCtorEq] at hk <;> subst hk <;> decide
    rw [this.1]
    exact .type name hk this.2
  | literal c s hc hs => exact .literal c s hc hs

theorem printComponent_text {t : Str} {c : Component} (h : CompText t c) : CompText (printComponent c) c := by
  cases h with
  | plain h => simpa [printComponent] using CompText.plain (printKind_text h)
  | space h hk => exact .space (printKind_text h) hk
  | comma h hk => exact .comma (printKind_text h) hk

theorem blank_nil : Blank [] := by simp [Blank]
theorem blank_space : Blank [' '] := by simp [Blank]

theorem printComponents_text (minify : Bool) {s : Str} {cs : List Component} (h : CompsText s cs) :
    CompsText (printComponents minify cs) cs := by
  induction h with
  | last w w' hw hc hw' =>
    simpa [printComponents] using CompsText.last [] [] blank_nil (printComponent_text hc) blank_nil
  | more w w' hw hc hw' hs ih =>
    rename_i t c s cs
    have hne : ∃ d ds, cs = d :: ds := by cases hs <;> exact ⟨_, _, rfl⟩
    obtain ⟨d, ds, rfl⟩ := hne
    cases minify with
    | true =>
      simpa [printComponents] using CompsText.more [] [] blank_nil (printComponent_text hc) blank_nil ih
    | false =>
      have := CompsText.more [] [' '] blank_nil (printComponent_text hc) blank_space
        (compsText_pad ih (w := [' ']) (w' := []) blank_space blank_nil)
      simpa [printComponents] using this

/-- C43: what was read is printed, minified or not, as a text that reads back as the same syntax
string. -/
theorem syntax_round_trip (minify : Bool) (s : Str) (x : SyntaxString) (h : parseString s = some x) :
    parseString (printInner minify x) = some x := by
  rw [parse_iff] at h ⊢
  cases h with
  | universal => exact .universal [] [] blank_nil blank_nil
  | components h => exact .components (printComponents_text minify h)

/-! ### In quotes -/

/-- No character of the text needs an escape in a CSS string. -/
def Plain (s : Str) : Prop := ∀ c ∈ s, c ≠ '"' ∧ c ≠ '\\' ∧ c ≠ '\n'

theorem identChar_plain {c : Char} (h : IdentChar c) : c ≠ '"' ∧ c ≠ '\\' ∧ c ≠ '\n' := by
  have := (isName_iff c).2 h
  refine ⟨?_, ?_, ?_⟩ <;> rintro rfl <;> exact absurd this (by decide)

theorem printKind_plain {t : Str} {k : Kind} (h : KindText t k) : Plain (printKind k) := by
  cases h with
  | type t hk ht =>
    cases k <;> simp only [typeName, reduceCtorEq] at hk <;> simp [Plain, printKind]
  | literal c s hc hs =>
    intro x hx
    rcases List.mem_cons.1 hx with rfl | hx
    · exact identChar_plain (.inl hc)
    · exact identChar_plain (hs x hx)

theorem plain_append {a b : Str} (ha : Plain a) (hb : Plain b) : Plain (a ++ b) := by
  intro c hc; rcases List.mem_append.1 hc with h | h
  · exact ha c h
  · exact hb c h

theorem printComponent_plain {t : Str} {c : Component} (h : CompText t c) : Plain (printComponent c) := by
  cases h with
  | plain h => exact plain_append (printKind_plain h) (by simp [Plain])
  | space h hk => exact plain_append (printKind_plain h) (by simp [Plain])
  | comma h hk => exact plain_append (printKind_plain h) (by simp [Plain])

theorem printComponents_plain (minify : Bool) {s : Str} {cs : List Component} (h : CompsText s cs) :
    Plain (printComponents minify cs) := by
  induction h with
  | last w w' hw hc hw' => simpa [printComponents] using printComponent_plain hc
  | more w w' hw hc hw' hs ih =>
    rename_i t c s cs
    have hne : ∃ d ds, cs = d :: ds := by cases hs <;> exact ⟨_, _, rfl⟩
    obtain ⟨d, ds, rfl⟩ := hne
    simp only [printComponents]
    refine plain_append (plain_append (printComponent_plain hc) ?_) ih
    cases minify <;> simp [Plain]

/-- C43: the printed string token, quotes included, is read back as the same syntax string. -/
theorem syntax_token_round_trip (minify : Bool) (s : Str) (x : SyntaxString) (h : parseString s = some x)
    (rest : Str) :
    ∃ body, readQuoted (print minify x ++ rest) = some (body, rest) ∧ parseString body = some x := by
  refine ⟨printInner minify x, ?_, syntax_round_trip minify s x h⟩
  have hp : Plain (printInner minify x) := by
    rw [parse_iff] at h
    cases h with
    | universal => simp [Plain, printInner]
    | components h => exact printComponents_plain minify h
  have hall : ∀ c ∈ printInner minify x, (c != '"' && c != '\\' && c != '\n') = true := by
    intro c hc
    obtain ⟨h1, h2, h3⟩ := hp c hc
    simp [h1, h2, h3]
  simp only [print, readQuoted, List.cons_append, List.append_assoc, List.nil_append]
  rw [dropWhile_all hall (by simp), takeWhile_all hall (by simp)]
  rfl

example : parseString cs!"<length> | foo+ |\t<Transform-List>" =
    some (.components [⟨.length, .none⟩, ⟨.literal cs!"foo", .space⟩, ⟨.transformList, .none⟩]) := by
  decide +kernel
example : print true (.components [⟨.length, .none⟩, ⟨.literal cs!"foo", .space⟩])
    = cs!"\"<length>|foo+\"" := by decide +kernel
example : parseString cs!"<transform-list>+" = none := by decide +kernel
example : parseString cs!"<length> <number>" = none := by decide +kernel

/-- The specification also counts newlines as white space; the code does not. -/
theorem newline_rejected : parseString cs!"<length>\n|foo" = none := by decide +kernel

end Verif.Syntax
