import Verif.Tokens.Props
/-! Values read from a source text (C70). -/
namespace Verif.Tokens
open Verif.Modules (isHex isWs isNameStart isName validEscape continues startsIdent hexNumber)

/-! ### What follows a token in a text -/

theorem continues_takeNameN : ∀ (n : Nat) (t : Str), t.length ≤ n → continues (takeNameN n t).2 = false
  | 0, [], _ => rfl
  | 0, _ :: _, h => by simp at h
  | n + 1, [], _ => rfl
  | n + 1, c :: t, h => by
    simp only [List.length_cons, Nat.add_le_add_iff_right] at h
    simp only [takeNameN]
    split
    · exact continues_takeNameN n t h
    · rename_i h1
      split
      · exact continues_takeNameN n _ ((escape_length t).trans h)
      · rename_i h2
        simp only [continues, h2, Bool.false_or]
        simpa using h1

theorem continues_takeName (t : Str) : continues (takeName t).2 = false := continues_takeNameN _ _ (le_refl _)

/-- What the tokenizer knows of the text after a token. -/
def Left : Tok → Str → Prop
  | .ident _, r => continues r = false ∧ r.head? ≠ some '('
  | .atKeyword _, r | .hash _, r | .dimension _ _, r => continues r = false
  | .number _, r => startsIdent r = false ∧ r.head? ≠ some '%'
  | .func s, r => isUrlName s = true → quoteAhead r = true
  | .delim c, r => (c = '#' → continues r = false) ∧ (c = '-' → startsIdent ('-' :: r) = false) ∧ (c = '@' → startsIdent r = false) ∧
      (c = '/' → r.head? ≠ some '*')
  | _, _ => True

/-- What a token begins with. -/
def Right : Tok → Str → Prop
  | .ident _, x | .func _, x | .url _, x => startsIdent x = true
  | .cdc, x => ∃ t, x = '-' :: '-' :: t
  | .openParen, x => x.head? = some '('
  | .delim c, x => x.head? = some c
  | _, _ => True

theorem left_identLike (x : Str) : Left (identLike x).1 (identLike x).2 := by
  have h := continues_takeName x
  unfold identLike
  split
  · split
    · split <;> trivial
    · rename_i hu
      intro hu'
      simpa [hu'] using hu
  · rename_i s r hne e
    rw [e] at h
    refine ⟨h, fun h' => ?_⟩
    cases r with
    | nil => simp at h'
    | cons c r => simp only [List.head?_cons, Option.some.injEq] at h'; subst h'; exact hne r rfl

theorem left_numeric (x : Str) : Left (numeric x).1 (numeric x).2 := by
  simp only [numeric]
  split
  · exact continues_takeName _
  · rename_i h1
    split
    · trivial
    · rename_i h2
      refine ⟨by simpa using h1, fun h' => ?_⟩
      cases hr : (takeNumber x).2 with
      | nil => rw [hr] at h'; simp at h'
      | cons c r => rw [hr] at h'; simp only [List.head?_cons, Option.some.injEq] at h'; subst h'; exact h2 r hr

theorem punct_cases {c : Char} {p : Tok} (h : punctuation c = some p) : (∀ r, Left p r) ∧ (p = .openParen → c = '(') ∧ (∀ d, p ≠ .delim d) ∧ (∀ s, p ≠ .ident s ∧ p ≠ .func s ∧ p ≠ .url s) ∧ p ≠ .cdc := by
  unfold punctuation at h
  split at h
  · injection h with h; subst h; rename_i h; exact ⟨fun _ => trivial, fun _ => h, by simp, by simp, by simp⟩
  iterate 8
    split at h
    · injection h with h; subst h; exact ⟨fun _ => trivial, by simp, by simp, by simp, by simp⟩
  cases h

theorem right_of_starts {x : Str} {tok : Tok} {p : Str} (h : startsIdent x = true) (hx : (tok, p) = identLike x) : Right tok x := by
  unfold identLike at hx
  split at hx
  · split at hx
    · split at hx <;> (injection hx with h1 h2; subst h1)
      · exact h
      · trivial
    · injection hx with h1 h2; subst h1; exact h
  · injection hx with h1 h2; subst h1; exact h

theorem next_facts (c : Char) (t : Str) : Left (next c t).1 (next c t).2 ∧ Right (next c t).1 (c :: t) := by
  unfold next
  split
  · exact ⟨trivial, trivial⟩
  rename_i hslash
  split
  · exact ⟨trivial, trivial⟩
  split
  · split <;> exact ⟨trivial, trivial⟩
  split
  · rename_i hc
    subst hc
    split
    · exact ⟨continues_takeName _, trivial⟩
    · rename_i h
      exact ⟨⟨fun _ => by simpa using h, by simp, by simp, by simp⟩, rfl⟩
  rename_i hhash
  split
  · rename_i hp
    obtain ⟨p, hp⟩ := Option.isSome_iff_exists.1 hp
    obtain ⟨h1, h2, h3, h4, h5⟩ := punct_cases hp
    rw [hp]
    refine ⟨h1 _, ?_⟩
    show Right p _
    cases p with
    | delim d => exact absurd rfl (h3 d)
    | ident s => exact absurd rfl (h4 s).1
    | func s => exact absurd rfl (h4 s).2.1
    | url s => exact absurd rfl (h4 s).2.2
    | cdc => exact absurd rfl h5
    | openParen => rw [h2 rfl]; rfl
    | _ => trivial
  split
  · refine ⟨left_numeric _, ?_⟩
    simp only [numeric]
    split
    · trivial
    · split <;> trivial
  split
  · rename_i h
    simp only [Bool.and_eq_true, decide_eq_true_eq] at h
    obtain ⟨rfl, h⟩ := h
    refine ⟨trivial, ?_⟩
    cases t with
    | nil => simp at h
    | cons d t => simp only [List.take_succ_cons, List.cons.injEq] at h; exact ⟨t, by rw [h.1]⟩
  split
  · rename_i h
    exact ⟨left_identLike _, right_of_starts h (p := (identLike (c :: t)).2) rfl⟩
  rename_i hid
  split
  · exact ⟨trivial, trivial⟩
  split
  · exact ⟨continues_takeName _, trivial⟩
  · rename_i hat
    refine ⟨⟨fun h => absurd h hhash, ?_, ?_, ?_⟩, rfl⟩
    · rintro rfl; simpa using hid
    · rintro rfl; simpa using hat
    · rintro rfl
      simpa using hslash

/-! ### Neighbours -/

theorem runs_of_source {dtoa : ℚ → Num} {a b : Tok} {t u : Token} (ha : Stored dtoa a t) (hb : Stored dtoa b u) {r : Str} (hl : Left a r) (hr : Right b r)
    (hg : gluedNumber t u = false) (hp : rarePair t u = false) : runsTogether (kind t) (kind u) = false := by
  have hbase : (continues r = false ∨ startsIdent r = false) → (kind u).isNameLike = false ∧ kind u ≠ .cdc := by
    intro h
    have hs : startsIdent r = false := by
      rcases h with h | h
      · exact (starts_of_continues h).1
      · exact h
    have hc : b = .cdc → False := by
      rintro rfl
      obtain ⟨t, rfl⟩ := hr
      simp [startsIdent] at hs
    cases hb with
    | ident s => simp only [Right] at hr; rw [hs] at hr; cases hr
    | func s => simp only [Right] at hr; rw [hs] at hr; cases hr
    | url s => simp only [Right] at hr; rw [hs] at hr; cases hr
    | cdc => exact absurd rfl hc
    | delim c => rw [kind_delim]; split <;> exact ⟨rfl, by simp⟩
    | _ => exact ⟨rfl, by simp [kind]⟩
  have hnum : (kind u).isNumeric = true → runsTogether (kind t) (kind u) = false := by
    intro h
    simpa [gluedNumber, h] using hg
  by_cases hn : (kind u).isNumeric = true
  · exact hnum hn
  simp only [Bool.not_eq_true] at hn
  have hdash : continues r = false → kind u ≠ .delim '-' := by
    intro h e
    cases hb with
    | delim c =>
      rw [kind_delim] at e
      split at e
      · cases e
      · injection e with e
        subst e
        cases r with
        | nil => cases hr
        | cons d r => simp only [Right, List.head?_cons, Option.some.injEq] at hr; subst hr; simp [continues, isName] at h
    | _ => simp [kind] at e
  have hname : continues r = false → ((kind u).isNameLike || (kind u).isNumeric || decide (kind u = .cdc) || decide (kind u = .delim '-')) = false := by
    intro h
    have := hbase (.inl h)
    simp [this.1, hn, this.2, hdash h]
  have hparen : r.head? ≠ some '(' → kind u ≠ .paren := by
    intro h e
    cases hb with
    | openParen => exact h hr
    | delim c => rw [kind_delim] at e; split at e <;> cases e
    | _ => simp [kind] at e
  have hchar : ∀ c, c ≠ '*' → kind u = .delim c → r.head? = some c := by
    intro c hc e
    cases hb with
    | delim d =>
      rw [kind_delim] at e
      split at e
      · cases e
      · injection e with e; subst e; exact hr
    | _ => simp [kind] at e
  have hstar : kind u = .star → r.head? = some '*' := by
    intro e
    cases hb with
    | delim d =>
      rw [kind_delim] at e
      split at e
      · rename_i h; subst h; exact hr
      · cases e
    | _ => simp [kind] at e
  cases ha with
  | ident s =>
    have h := hname hl.1
    show ((kind u).isNameLike || (kind u).isNumeric || decide (kind u = .cdc) || decide (kind u = .delim '-') || decide (kind u = .paren)) = false
    rw [h]
    simp [hparen hl.2]
  | atKeyword s => exact hname hl
  | hash s => exact hname hl
  | dimension v s => exact hname hl
  | number v =>
    have h := hbase (.inr hl.1)
    show ((kind u).isNameLike || (kind u).isNumeric || decide (kind u = .cdc) || decide (kind u = .delim '%')) = false
    simp only [h.1, hn, h.2, Bool.false_or, decide_false, decide_eq_false_iff_not]
    exact fun e => hl.2 (hchar '%' (by decide) e)
  | delim c =>
    rw [kind_delim]
    obtain ⟨h1, h2, h3, h4⟩ := hl
    split
    · rfl
    rename_i hc
    by_cases e1 : c = '#'
    · subst e1; exact hname (h1 rfl)
    by_cases e2 : c = '-'
    · subst e2
      have hd := h2 rfl
      have hcont : continues r = false ∨ (kind u).isNumeric = true ∨ ((kind u).isNameLike = false ∧ kind u ≠ .cdc ∧ kind u ≠ .delim '-') := by
        refine .inr (.inr ?_)
        have hs : startsIdent r = false := by
          rw [← Bool.not_eq_true]
          intro hs
          rw [← Bool.not_eq_true] at hd
          refine hd ?_
          cases r with
          | nil => cases hs
          | cons d r =>
            rcases starts_head hs with rfl | rfl | hn'
            · simp [startsIdent]
            · have : validEscape ('\\' :: r) = true := by
                simpa [startsIdent, isNameStart] using hs
              simp [startsIdent, this]
            · simp [startsIdent, hn']
        refine ⟨(hbase (.inr hs)).1, (hbase (.inr hs)).2, fun e => ?_⟩
        have := hchar '-' (by decide) e
        cases r with
        | nil => cases this
        | cons d r => simp only [List.head?_cons, Option.some.injEq] at this; subst this; simp [startsIdent] at hd
      rcases hcont with h | h | h
      · exact hname h
      · rw [hn] at h; cases h
      · show ((kind u).isNameLike || (kind u).isNumeric || decide (kind u = .cdc) || decide (kind u = .delim '-')) = false
        simp [h.1, hn, h.2.1, h.2.2]
    by_cases e3 : c = '@'
    · subst e3
      have h := hbase (.inr (h3 rfl))
      show ((kind u).isNameLike || decide (kind u = .cdc)) = false
      simp [h.1, h.2]
    by_cases e4 : c = '.'
    · subst e4; exact hn
    by_cases e5 : c = '+'
    · subst e5; exact hn
    by_cases e6 : c = '/'
    · subst e6
      show decide (kind u = .star) = false
      simp only [decide_eq_false_iff_not]
      exact fun e => h4 rfl (hstar e)
    by_cases e7 : c = '<'
    · subst e7
      show decide (kind u = .delim '!') = false
      simp only [decide_eq_false_iff_not]
      intro e
      cases hb with
      | delim d =>
        rw [kind_delim] at e
        split at e
        · cases e
        · injection e with e; subst e; exact absurd hp (by decide)
      | _ => simp [kind] at e
    unfold runsTogether
    split <;> simp_all
  | _ => rfl

theorem quote_next {c : Char} {t : Str} (h : c = '"' ∨ c = '\'') : ∃ s, (next c t).1 = .string s ∨ (next c t).1 = .badString := by
  have h1 : (c = '/' && t.head? = some '*') = false := by rcases h with rfl | rfl <;> simp
  have h2 : isWs c = false := by rcases h with rfl | rfl <;> decide
  have h3 : (c = '"' || c = '\'') = true := by simpa using h
  rw [next, h1, h2, h3]
  simp only [Bool.false_eq_true, if_false, if_true]
  split
  · rename_i s _ _; exact ⟨s, .inl rfl⟩
  · exact ⟨[], .inr rfl⟩

theorem quote_tokens {dtoa : ℚ → Num} {r : Str} (h : quoteAhead r = true) {u : Token} {ts : List Token} (hs : List.Forall₂ (Stored dtoa) (lex r) (u :: ts)) :
    (∃ s, u = .string s) ∨ ∃ w s ts', u = .ws w ∧ ts = .string s :: ts' := by
  cases r with
  | nil => cases h
  | cons c t =>
    have hstr : ∀ {d : Char} {x : Str} {v : Token} {vs : List Token}, (d = '"' ∨ d = '\'') → List.Forall₂ (Stored dtoa) (lex (d :: x)) (v :: vs) → ∃ s, v = .string s := by
      intro d x v vs hd hs
      rw [lex_cons] at hs
      obtain ⟨h1, -⟩ := List.forall₂_cons.1 hs
      obtain ⟨s, e | e⟩ := quote_next (t := x) hd
      · rw [e] at h1; cases h1; exact ⟨s, rfl⟩
      · rw [e] at h1; cases h1
    by_cases hw : isWs c = true
    · have e : lex (c :: t) = .ws (c :: t.takeWhile isWs) :: lex (t.dropWhile isWs) := lex_ws (w := [c]) (by simp) (by simpa using hw)
      rw [e] at hs
      obtain ⟨h1, h2⟩ := List.forall₂_cons.1 hs
      have hd : (c :: t).dropWhile isWs = t.dropWhile isWs := by simp [List.dropWhile, hw]
      simp only [quoteAhead, hd] at h
      cases hx : t.dropWhile isWs with
      | nil => rw [hx] at h; cases h
      | cons d x =>
        rw [hx] at h h2
        simp only [Bool.or_eq_true, decide_eq_true_eq] at h
        cases ts with
        | nil => rw [lex_cons] at h2; cases h2
        | cons v vs =>
          obtain ⟨s, rfl⟩ := hstr h h2
          cases h1
          exact .inr ⟨_, s, vs, rfl, rfl⟩
    · have hd : (c :: t).dropWhile isWs = c :: t := by simp [List.dropWhile, hw]
      simp only [quoteAhead, hd, Bool.or_eq_true, decide_eq_true_eq] at h
      exact .inl (hstr h hs)

/-- Tokens of any text do not run together, but for numbers and rare pairs. -/
theorem apart_of_source {dtoa : ℚ → Num} : ∀ (n : Nat) (s : Str) (ts : List Token), s.length ≤ n → List.Forall₂ (Stored dtoa) (lex s) ts → Plain ts → Apart ts
  | n, [], ts, _, h, _ => by
    rw [lex_nil] at h
    cases h
    trivial
  | 0, _ :: _, _, h, _, _ => by simp at h
  | n + 1, c :: t, ts, hn, h, hp => by
    rw [lex_cons] at h
    have hl := next_length c t
    simp only [List.length_cons, Nat.add_le_add_iff_right] at hn
    obtain ⟨hL, -⟩ := next_facts c t
    cases ts with
    | nil => cases h
    | cons a ts =>
      obtain ⟨h1, h2⟩ := List.forall₂_cons.1 h
      cases ts with
      | nil =>
        have hr : (next c t).2 = [] := by
          cases hx : (next c t).2 with
          | nil => rfl
          | cons d x => rw [hx, lex_cons] at h2; cases h2
        show needsQuote a = false
        rw [← Bool.not_eq_true]
        intro hq
        generalize (next c t).1 = tok at hL h1
        cases h1 with
        | func s => rw [hr] at hL; exact absurd (hL hq) (by decide)
        | _ => cases hq
      | cons u ts =>
        obtain ⟨p1, p2, p3⟩ := hp
        have ih := apart_of_source n _ _ (hl.trans hn) h2 p3
        have hq : needsQuote a = true → (∃ s, u = .string s) ∨ ∃ w s ts', u = .ws w ∧ ts = .string s :: ts' := by
          intro hq
          refine quote_tokens ?_ h2
          generalize (next c t).1 = tok at hL h1
          cases h1 with
          | func s => exact hL hq
          | _ => cases hq
        refine ⟨?_, ?_, hq, ih⟩
        · cases hx : (next c t).2 with
          | nil => rw [hx, lex_nil] at h2; cases h2
          | cons d x =>
            rw [hx, lex_cons] at h2
            rw [hx] at hL
            obtain ⟨h3, -⟩ := List.forall₂_cons.1 h2
            exact runs_of_source h1 h3 hL (next_facts d x).2 p1 p2
        · rintro ⟨rfl, rfl⟩
          exact absurd p2 (by decide)

/-! ### Tokens of a text can be printed -/

theorem codePoint_ne (n : Nat) : (codePoint n).toNat ≠ 0 := by
  unfold codePoint
  split
  · decide
  · rename_i h
    simp only [not_or, not_and, not_le] at h
    have hv : n.isValidChar := by
      unfold Nat.isValidChar
      omega
    have e : (Char.ofNat n).toNat = n := by
      simp only [Char.ofNat, hv, dif_pos]
      rfl
    rw [e]
    exact h.1

theorem NoNul.sub {a b : Str} (h : NoNul b) (hs : ∀ c ∈ a, c ∈ b) : NoNul a := fun c hc => h c (hs c hc)

theorem NoNul.tail {c : Char} {t : Str} (h : NoNul (c :: t)) : NoNul t := fun d hd => h d (List.mem_cons_of_mem _ hd)

theorem NoNul.dropWhile {t : Str} (p : Char → Bool) (h : NoNul t) : NoNul (t.dropWhile p) := h.sub fun _ hc => (List.dropWhile_sublist p).subset hc

theorem skipOne_sub (t : Str) : ∀ c ∈ skipOne t, c ∈ t := by
  intro c hc
  unfold skipOne at hc
  split at hc
  · split at hc
    · exact List.mem_cons_of_mem _ hc
    · exact hc
  · cases hc

theorem escape_noNul {t : Str} (h : NoNul t) : (escape t).1.toNat ≠ 0 ∧ NoNul (escape t).2 := by
  cases t with
  | nil => exact ⟨by decide, by simp [escape, NoNul]⟩
  | cons c t =>
    simp only [escape]
    split
    · exact ⟨codePoint_ne _, h.sub fun d hd => List.mem_of_mem_drop (skipOne_sub _ d hd)⟩
    · exact ⟨h c (List.mem_cons_self ..), h.tail⟩

theorem NoNul.cons {c : Char} {t : Str} (h1 : c.toNat ≠ 0) (h2 : NoNul t) : NoNul (c :: t) := by
  intro d hd
  rcases List.mem_cons.1 hd with rfl | hd
  · exact h1
  · exact h2 d hd

theorem takeNameN_noNul : ∀ (n : Nat) (t : Str), NoNul t → NoNul (takeNameN n t).1 ∧ NoNul (takeNameN n t).2
  | 0, t, h => ⟨by simp [takeNameN, NoNul], by simpa [takeNameN] using h⟩
  | n + 1, [], h => ⟨by simp [takeNameN, NoNul], by simp [takeNameN, NoNul]⟩
  | n + 1, c :: t, h => by
    simp only [takeNameN]
    split
    · have := takeNameN_noNul n t h.tail
      exact ⟨.cons (h c (List.mem_cons_self ..)) this.1, this.2⟩
    · split
      · have he := escape_noNul h.tail
        have := takeNameN_noNul n _ he.2
        exact ⟨.cons he.1 this.1, this.2⟩
      · exact ⟨by simp [NoNul], h⟩

theorem takeStringN_noNul (q : Char) : ∀ (n : Nat) (t : Str), NoNul t → (∀ s, (takeStringN q n t).1 = some s → NoNul s) ∧ NoNul (takeStringN q n t).2
  | 0, t, h => ⟨by rintro s ⟨⟩; simp [NoNul], by simpa [takeStringN] using h⟩
  | n + 1, [], h => ⟨by rintro s ⟨⟩; simp [NoNul], by simp [takeStringN, NoNul]⟩
  | n + 1, c :: t, h => by
    have hmap : ∀ {e : Char} {o : Option Str}, e.toNat ≠ 0 → (∀ s, o = some s → NoNul s) → ∀ s, o.map (e :: ·) = some s → NoNul s := by
      rintro e o he ho s hs
      obtain ⟨s', rfl, rfl⟩ := Option.map_eq_some_iff.1 hs
      exact .cons he (ho s' rfl)
    simp only [takeStringN]
    split
    · exact ⟨by rintro s ⟨⟩; simp [NoNul], h.tail⟩
    split
    · exact ⟨by rintro s ⟨⟩, h⟩
    split
    · split
      · exact ⟨by rintro s ⟨⟩; simp [NoNul], by simp [NoNul]⟩
      split
      · exact takeStringN_noNul q n _ (h.tail.sub fun d hd => List.mem_of_mem_tail hd)
      · have he := escape_noNul h.tail
        have := takeStringN_noNul q n _ he.2
        exact ⟨hmap he.1 this.1, this.2⟩
    · have := takeStringN_noNul q n t h.tail
      exact ⟨hmap (h c (List.mem_cons_self ..)) this.1, this.2⟩

theorem remnantsN_noNul : ∀ (n : Nat) (t : Str), NoNul t → NoNul (remnantsN n t)
  | 0, t, h => by simpa [remnantsN] using h
  | n + 1, [], h => by simp [remnantsN, NoNul]
  | n + 1, c :: t, h => by
    simp only [remnantsN]
    split
    · exact h.tail
    split
    · exact remnantsN_noNul n _ (escape_noNul h.tail).2
    · exact remnantsN_noNul n _ h.tail

theorem takeUrlN_noNul : ∀ (n : Nat) (t : Str), NoNul t → (∀ s, (takeUrlN n t).1 = some s → NoNul s) ∧ NoNul (takeUrlN n t).2
  | 0, t, h => ⟨by rintro s ⟨⟩; simp [NoNul], by simpa [takeUrlN] using h⟩
  | n + 1, [], h => ⟨by rintro s ⟨⟩; simp [NoNul], by simp [takeUrlN, NoNul]⟩
  | n + 1, c :: t, h => by
    have hmap : ∀ {e : Char} {o : Option Str}, e.toNat ≠ 0 → (∀ s, o = some s → NoNul s) → ∀ s, o.map (e :: ·) = some s → NoNul s := by
      rintro e o he ho s hs
      obtain ⟨s', rfl, rfl⟩ := Option.map_eq_some_iff.1 hs
      exact .cons he (ho s' rfl)
    simp only [takeUrlN]
    split
    · exact ⟨by rintro s ⟨⟩; simp [NoNul], h.tail⟩
    split
    · have hd := h.tail.dropWhile isWs
      split
      · exact ⟨by rintro s ⟨⟩; simp [NoNul], by simp [NoNul]⟩
      · rename_i e; rw [e] at hd; exact ⟨by rintro s ⟨⟩; simp [NoNul], hd.tail⟩
      · exact ⟨by rintro s ⟨⟩, remnantsN_noNul _ _ hd⟩
    split
    · exact ⟨by rintro s ⟨⟩, remnantsN_noNul _ _ h.tail⟩
    split
    · split
      · have he := escape_noNul h.tail
        have := takeUrlN_noNul n _ he.2
        exact ⟨hmap he.1 this.1, this.2⟩
      · exact ⟨by rintro s ⟨⟩, remnantsN_noNul _ _ h.tail⟩
    · have := takeUrlN_noNul n t h.tail
      exact ⟨hmap (h c (List.mem_cons_self ..)) this.1, this.2⟩

theorem takeNumber_sub (t : Str) : ∀ c ∈ (takeNumber t).2, c ∈ t := by
  have hs : ∀ x : Str, ∀ c ∈ (takeSign x).2, c ∈ x := by
    intro x c hc
    unfold takeSign at hc
    split at hc
    · exact List.mem_cons_of_mem _ hc
    · exact List.mem_cons_of_mem _ hc
    · exact hc
  have hd : ∀ x : Str, ∀ c ∈ (takeDigits x).2, c ∈ x := fun x c hc => (List.dropWhile_sublist _).subset hc
  have hf : ∀ x : Str, ∀ c ∈ (takeFrac x).2, c ∈ x := by
    intro x c hc
    unfold takeFrac at hc
    split at hc
    · split at hc
      · exact List.mem_cons_of_mem _ (hd _ c hc)
      · exact hc
    · exact hc
  have he : ∀ x : Str, ∀ c ∈ (takeExp x).2.2, c ∈ x := by
    intro x c hc
    unfold takeExp at hc
    split at hc
    · split at hc
      · exact List.mem_cons_of_mem _ (hs _ c (hd _ c hc))
      · exact hc
    · exact hc
  intro c hc
  rw [takeNumber_rest] at hc
  exact hs _ c (hd _ c (hf _ c (he _ c hc)))

theorem takeComment_sub (t : Str) : ∀ c ∈ (takeComment t).2, c ∈ t := by
  fun_induction takeComment t with
  | case1 t => intro c hc; simp only at hc; simp [hc]
  | case2 c t _ s r h ih => intro d hd; rw [h] at ih; exact List.mem_cons_of_mem _ (ih d hd)
  | case3 => simp

theorem takeComment_ok (t : Str) : ¬ cs!"*/" <:+: (takeComment t).1 := by
  have key : ∀ (x : Str), ¬ cs!"*/" <:+: x ↔ ∀ a b, x ≠ a ++ '*' :: '/' :: b := by
    intro x
    constructor
    · rintro h a b rfl; exact h ⟨a, b, by simp⟩
    · rintro h ⟨a, b, e⟩; exact h a b (by rw [← e]; simp)
  have hp : ∀ (x : Str) c y, takeComment x = (c :: y, (takeComment x).2) → ∃ z, x = c :: z ∧ (takeComment z).1 = y ∧ ¬ ∃ w, x = '*' :: '/' :: w := by
    intro x c y h
    match x with
    | [] => simp [takeComment] at h
    | '*' :: '/' :: t => simp [takeComment] at h
    | d :: t =>
      by_cases hx : ∃ w, d :: t = '*' :: '/' :: w
      · obtain ⟨w, e⟩ := hx; rw [e] at h; simp [takeComment] at h
      · rw [takeComment.eq_2 _ _ (by rintro t' rfl rfl; exact hx ⟨t', rfl⟩)] at h
        simp only [Prod.mk.injEq, List.cons.injEq] at h
        exact ⟨t, by rw [h.1.1], h.1.2, hx⟩
  have gen : ∀ a x b, (takeComment x).1 ≠ a ++ '*' :: '/' :: b := by
    intro a
    induction a with
    | nil =>
      intro x b e
      obtain ⟨z, rfl, h1, h2⟩ := hp x '*' ('/' :: b) (by rw [List.nil_append] at e; rw [← e])
      obtain ⟨z', rfl, -, -⟩ := hp z '/' b (by rw [← h1])
      exact h2 ⟨z', rfl⟩
    | cons d a ih =>
      intro x b e
      obtain ⟨z, rfl, h1, -⟩ := hp x d (a ++ '*' :: '/' :: b) (by rw [List.cons_append] at e; rw [← e])
      exact ih z b h1
  rw [key]
  intro a b
  exact gen a t b

theorem takeName_ne {t : Str} (h : continues t = true) : (takeName t).1 ≠ [] := by
  cases t with
  | nil => cases h
  | cons c t =>
    simp only [takeName, List.length_cons, takeNameN]
    split
    · simp
    · rename_i hn
      have : validEscape (c :: t) = true := by simpa [continues, hn] using h
      rw [if_pos this]
      simp

/-- What is true of the tokens of a text without null characters. -/
def Good : Tok → Prop
  | .ident s | .atKeyword s | .func s | .hash s => NoNul s ∧ s ≠ []
  | .string s | .url s => NoNul s
  | .delim c => c = '\\' ∨ (delimOk c = true ∧ ownToken c = false)
  | .dimension _ u => NoNul u
  | .ws s => s ≠ [] ∧ ∀ c ∈ s, isWs c = true
  | .comment s => ¬ cs!"*/" <:+: s
  | _ => True

theorem good_identLike {x : Str} (h : NoNul x) (hs : startsIdent x = true) : Good (identLike x).1 ∧ NoNul (identLike x).2 := by
  have hn := takeNameN_noNul x.length x h
  have hne := takeName_ne (continues_of_starts hs)
  have e : takeNameN x.length x = takeName x := rfl
  rw [e] at hn
  unfold identLike
  split
  · rename_i s r e
    rw [e] at hn hne
    have hu := takeUrlN_noNul (r.dropWhile isWs).length _ (hn.2.tail.dropWhile isWs)
    split
    · split
      · rename_i e'; rw [e'] at hu; exact ⟨hu.1 _ rfl, hu.2⟩
      · rename_i e'; rw [e'] at hu; exact ⟨trivial, hu.2⟩
    · exact ⟨⟨hn.1, hne⟩, hn.2.tail⟩
  · rename_i s r _ e
    rw [e] at hn hne
    exact ⟨⟨hn.1, hne⟩, hn.2⟩

theorem mem_takeWhile {p : Char → Bool} : ∀ {t : Str} {d : Char}, d ∈ t.takeWhile p → p d = true
  | c :: t, d, h => by
    simp only [List.takeWhile] at h
    split at h
    · rename_i hc
      rcases List.mem_cons.1 h with rfl | h
      · exact hc
      · exact mem_takeWhile h
    · cases h

theorem good_next {c : Char} {t : Str} (h : NoNul (c :: t)) : Good (next c t).1 ∧ NoNul (next c t).2 := by
  unfold next
  split
  · exact ⟨takeComment_ok _, h.tail.sub fun d hd => List.mem_of_mem_tail (takeComment_sub _ d hd)⟩
  split
  · rename_i hw
    refine ⟨⟨by simp, ?_⟩, h.tail.dropWhile _⟩
    intro d hd
    rcases List.mem_cons.1 hd with rfl | hd
    · exact hw
    · exact mem_takeWhile hd
  rename_i hws
  split
  · have := takeStringN_noNul c t.length t h.tail
    split
    · rename_i e; rw [e] at this; exact ⟨this.1 _ rfl, this.2⟩
    · rename_i e; rw [e] at this; exact ⟨trivial, this.2⟩
  rename_i hquote
  split
  · rename_i hc
    subst hc
    split
    · rename_i hco
      have := takeNameN_noNul t.length t h.tail
      exact ⟨⟨this.1, takeName_ne hco⟩, this.2⟩
    · exact ⟨.inr (by decide), h.tail⟩
  split
  · rename_i hp
    refine ⟨?_, h.tail⟩
    obtain ⟨p, hp⟩ := Option.isSome_iff_exists.1 hp
    rw [hp]
    unfold punctuation at hp
    iterate 9
      split at hp
      · injection hp with hp; subst hp; trivial
    cases hp
  rename_i hpunct
  have hnum := h.sub (takeNumber_sub (c :: t))
  split
  · simp only [numeric]
    split
    · have := takeNameN_noNul (takeNumber (c :: t)).2.length _ hnum
      exact ⟨this.1, this.2⟩
    · split
      · rename_i e; rw [e] at hnum; exact ⟨trivial, hnum.tail⟩
      · exact ⟨trivial, hnum⟩
  rename_i hnotnum
  split
  · exact ⟨trivial, h.tail.sub fun d hd => List.mem_of_mem_drop hd⟩
  split
  · rename_i hs; exact good_identLike h hs
  rename_i hid
  split
  · exact ⟨trivial, h.tail.sub fun d hd => List.mem_of_mem_drop hd⟩
  split
  · rename_i hat
    simp only [Bool.and_eq_true] at hat
    have := takeNameN_noNul t.length t h.tail
    exact ⟨⟨this.1, takeName_ne (continues_of_starts hat.2)⟩, this.2⟩
  · refine ⟨?_, h.tail⟩
    by_cases hb : c = '\\'
    · exact .inl hb
    refine .inr ⟨?_, ?_⟩
    · simp only [delimOk, Bool.or_eq_true, Bool.not_eq_true', decide_eq_true_eq]
      by_cases hd : c = '-'
      · exact .inr hd
      refine .inl ?_
      simp only [isName, Bool.or_eq_false_iff, decide_eq_false_iff_not]
      refine ⟨⟨?_, ?_⟩, hd⟩
      · rw [← Bool.not_eq_true]
        intro hn
        refine hid ?_
        unfold startsIdent
        split
        · rename_i e; simp only [List.cons.injEq] at e; exact absurd e.1 hd
        · rename_i e; simp only [List.cons.injEq] at e; rw [← e.1, hn]; rfl
        · simp_all
      · rw [← Bool.not_eq_true]
        intro hn
        exact hnotnum (by simp [startsNumber, hn])
    · simp only [ownToken, Bool.or_eq_false_iff]
      refine ⟨by simpa using hws, ?_⟩
      simp only [Bool.or_eq_true, decide_eq_true_eq, not_or] at hquote
      rw [← Bool.not_eq_true]
      intro hm
      have hm : c ∈ cs!"\"'()[]{},:;\\" := by simpa using hm
      have : ∀ d ∈ cs!"\"'()[]{},:;\\", d = '"' ∨ d = '\'' ∨ d = '\\' ∨ (punctuation d).isSome = true := by decide
      rcases this c hm with e | e | e | e
      · exact hquote.1 e
      · exact hquote.2 e
      · exact hb e
      · exact hpunct e

theorem good_lex : ∀ (n : Nat) (s : Str), s.length ≤ n → NoNul s → ∀ t ∈ lex s, Good t
  | n, [], _, _ => by simp [lex_nil]
  | 0, _ :: _, h, _ => by simp at h
  | n + 1, c :: t, h, hn => by
    rw [lex_cons]
    have hg := good_next hn
    simp only [List.length_cons, Nat.add_le_add_iff_right] at h
    intro x hx
    rcases List.mem_cons.1 hx with rfl | hx
    · exact hg.1
    · exact good_lex n _ ((next_length c t).trans h) hg.2 x hx

theorem ok_of_stored {dtoa : ℚ → Num} {a : Tok} {t : Token} (h : Stored dtoa a t) (hg : Good a) (hw : Writable t) : Ok t := by
  cases h with
  | delim c => rcases hg with e | e
               · exact absurd e hw
               · exact e
  | dimension v u => exact ⟨hw.1, hw.2.1, hg, hw.2.2⟩
  | number v => exact hw
  | percentage v p z => exact hw
  | _ => exact hg

theorem meaning_of_stored {dtoa : ℚ → Num} {a : Tok} {t : Token} (h : Stored dtoa a t) : meaning t = [rounded dtoa a] := by
  cases h <;> rfl

/-- **C70** For every source text of a value: the tokens read from it, printed one after the other, are read as the same tokens again, with their numbers rounded,
when comments are kept or there are none, unless a number is glued to the token before it or a rare pair occurs. -/
theorem C70_source_partial (minify : Bool) (dtoa : ℚ → Num) (s r : Str) (ts : List Token) (hs : NoNul s) (hst : List.Forall₂ (Stored dtoa) (lex s) ts)
    (hc : minify = true → ∀ c, .comment c ∉ ts) (hp : Plain ts) (hw : ∀ t ∈ ts, Writable t) (hr : ValueEnd r) :
    clean (lex (printTokens minify ts ++ r)) = clean ((lex s).map (rounded dtoa) ++ lex r) := by
  have hshown : shown minify ts = ts := by
    cases minify with
    | false => rfl
    | true =>
      refine List.filter_eq_self.2 fun t ht => ?_
      cases t with
      | comment c => exact absurd ht (hc rfl c)
      | _ => rfl
  have hok : ∀ t ∈ ts, Ok t := by
    have hg := good_lex s.length s (le_refl _) hs
    generalize lex s = l at hst hg
    intro t ht
    clear hc hp hr hshown
    induction hst with
    | nil => cases ht
    | cons h _ ih =>
      rcases List.mem_cons.1 ht with rfl | ht'
      · exact ok_of_stored h (hg _ (List.mem_cons_self ..)) (hw _ ht)
      · exact ih (fun t ht => hw t (List.mem_cons_of_mem _ ht)) (fun t ht => hg t (List.mem_cons_of_mem _ ht)) ht'
  rw [C69_roundtrip_partial minify ts r hok (by rw [hshown]; exact apart_of_source s.length s ts (le_refl _) hst hp) hr]
  congr 2
  clear hc hp hr hshown hok hw
  generalize lex s = l at hst
  induction hst with
  | nil => rfl
  | cons h _ ih =>
    rw [List.flatMap_cons, meaning_of_stored h, List.map_cons, ih]
    rfl
end Verif.Tokens
