import Verif.Tokens.Join
/-! Printed tokens read back as the same tokens (C68, C69). -/
namespace Verif.Tokens
open Verif.Modules (isWs continues startsIdent)

/-! ### Clean lists -/

theorem clean_cons {a b : List Tok} (h : clean a = clean b) (t : Tok) : clean (t :: a) = clean (t :: b) := by
  cases t <;> simp only [clean, h]

theorem clean_append {a b : List Tok} (h : clean a = clean b) : ∀ ts : List Tok, clean (ts ++ a) = clean (ts ++ b)
  | [] => h
  | t :: ts => clean_cons (clean_append h ts) t

theorem clean_ws (a b : Str) (ts : List Tok) : clean (.ws a :: ts) = clean (.ws b :: ts) := rfl

theorem clean_ws_ws (a b : Str) (ts : List Tok) : clean (.ws a :: .ws b :: ts) = clean (.ws a :: ts) := by
  simp only [clean]
  rcases clean ts with _ | ⟨t, us⟩
  · rfl
  · cases t <;> rfl

theorem lex_ws {w rest : Str} (h1 : w ≠ []) (h2 : ∀ c ∈ w, isWs c = true) : lex (w ++ rest) = .ws (w ++ rest.takeWhile isWs) :: lex (rest.dropWhile isWs) := by
  cases w with
  | nil => exact absurd rfl h1
  | cons c w =>
    have hc := h2 c (List.mem_cons_self ..)
    have hw : ∀ d ∈ w, isWs d = true := fun d hd => h2 d (List.mem_cons_of_mem _ hd)
    refine lex_of_next (List.cons_append ..) ?_
    have hs : c ≠ '/' := by rintro rfl; exact absurd hc (by decide)
    rw [next, if_neg (by simp [hs]), if_pos hc, takeWhile_append_of hw, dropWhile_append_of hw]
    rfl

theorem clean_lex_ws {w rest : Str} (h1 : w ≠ []) (h2 : ∀ c ∈ w, isWs c = true) : clean (lex (w ++ rest)) = clean (.ws w :: lex rest) := by
  rw [lex_ws h1 h2]
  cases rest with
  | nil => exact clean_ws _ _ _
  | cons c t =>
    cases hc : isWs c with
    | false =>
      have : (c :: t).dropWhile isWs = c :: t := by simp [List.dropWhile, hc]
      rw [this]
      exact clean_ws _ _ _
    | true =>
      have e := lex_ws (w := [c]) (rest := t) (by simp) (by simpa using hc)
      rw [List.singleton_append] at e
      have hd : (c :: t).dropWhile isWs = t.dropWhile isWs := by simp [List.dropWhile, hc]
      rw [e, clean_ws_ws, hd]
      exact clean_ws _ _ _

/-! ### One token -/

theorem lex_token (m : Bool) {t : Token} {r : Str} (hok : Ok t) (hc : m = true → ∀ s, t ≠ .comment s) (ha : After t r) :
    clean (lex (printToken m t ++ r)) = clean (meaning t ++ lex r) := by
  cases t with
  | ident s => exact congrArg clean (lex_ident hok.1 hok.2 ha.1 ha.2.1 ha.2.2)
  | atKeyword s => exact congrArg clean (lex_at hok.1 hok.2 ha)
  | hash s => exact congrArg clean (lex_hash hok.1 hok.2 ha)
  | idHash s => exact congrArg clean (lex_idHash hok.1 hok.2 ha)
  | string s => exact congrArg clean (lex_string hok)
  | url s => exact congrArg clean (lex_url hok)
  | func s =>
    rw [printToken, List.append_assoc]
    exact congrArg clean (lex_func hok.1 hok.2 ha)
  | delim c => exact congrArg clean (lex_delim hok.1 hok.2 ha)
  | number n =>
    have h := printNumber_read hok (numEnd_of_after ha.1 ha.2.2)
    exact congrArg clean (lex_number h.1 h.2 ha.1 ha.2.1)
  | dimension n unit =>
    have hu := unit_front hok.2.2.1 hok.2.2.2 r
    have h := printDimension_read hok.1 hok.2.1 hu.1
    exact congrArg clean (lex_dimension h.1 h.2 hu.2.1 (hu.2.2 ha))
  | percentage plus dotZero n =>
    have h := writeNumeric_read (plus := plus) (dotZero := dotZero) hok (r := '%' :: r) ⟨rfl, by simp, takeExp_other (by decide)⟩
    rw [printToken, List.append_assoc]
    exact congrArg clean (lex_percentage h.1 h.2)
  | ws s =>
    cases m with
    | true => exact (clean_lex_ws (w := [' ']) (by decide) (by decide)).trans (clean_ws _ _ _)
    | false => exact clean_lex_ws hok.1 hok.2
  | comment s =>
    cases m with
    | true => exact absurd rfl (hc rfl s)
    | false => exact congrArg clean (lex_comment hok)
  | colon => exact congrArg clean (lex_punct rfl (.inr (by decide)) r)
  | semicolon => exact congrArg clean (lex_punct rfl (.inr (by decide)) r)
  | comma => exact congrArg clean (lex_punct rfl (.inr (by decide)) r)
  | openParen => exact congrArg clean (lex_punct rfl (.inr (by decide)) r)
  | openSquare => exact congrArg clean (lex_punct rfl (.inr (by decide)) r)
  | openCurly => exact congrArg clean (lex_punct rfl (.inr (by decide)) r)
  | closeParen => exact congrArg clean (lex_punct rfl (.inr (by decide)) r)
  | closeSquare => exact congrArg clean (lex_punct rfl (.inr (by decide)) r)
  | closeCurly => exact congrArg clean (lex_punct rfl (.inr (by decide)) r)
  | cdo => exact congrArg clean (lex_cdo r)
  | cdc => exact congrArg clean (lex_cdc r)
  | includeMatch =>
    refine congrArg clean (?_ : lex ('~' :: '=' :: r) = _)
    rw [lex_delim (by decide) (by decide) (by simp [After]), lex_delim (by decide) (by decide) (by simp [After])]; rfl
  | dashMatch =>
    refine congrArg clean (?_ : lex ('|' :: '=' :: r) = _)
    rw [lex_delim (by decide) (by decide) (by simp [After]), lex_delim (by decide) (by decide) (by simp [After])]; rfl
  | prefixMatch =>
    refine congrArg clean (?_ : lex ('^' :: '=' :: r) = _)
    rw [lex_delim (by decide) (by decide) (by simp [After]), lex_delim (by decide) (by decide) (by simp [After])]; rfl
  | suffixMatch =>
    refine congrArg clean (?_ : lex ('$' :: '=' :: r) = _)
    rw [lex_delim (by decide) (by decide) (by simp [After]), lex_delim (by decide) (by decide) (by simp [After])]; rfl
  | substringMatch =>
    refine congrArg clean (?_ : lex ('*' :: '=' :: r) = _)
    rw [lex_delim (by decide) (by decide) (by simp [After]), lex_delim (by decide) (by decide) (by simp [After])]; rfl

/-! ### Lists -/

theorem after_end {t : Token} {r : Str} (h : ValueEnd r) (hq : needsQuote t = false) : After t r := by
  have hx : continues r = false ∧ dotDigit r = false ∧ digitAhead r = false ∧ (∀ c ∈ cs!"(%*>!", r.head? ≠ some c) := by
    rcases h with rfl | ⟨c, u, rfl, h⟩
    · exact ⟨rfl, rfl, rfl, by simp⟩
    · have : ∀ c, (c = ';' ∨ c = '}' ∨ c = ')') → Verif.Modules.isName c = false ∧ c ≠ '\\' ∧ c.isDigit = false ∧ c ≠ '.' ∧ ∀ d ∈ cs!"(%*>!", c ≠ d := by
        rintro c (rfl | rfl | rfl) <;> decide
      obtain ⟨a1, a2, a3, a4, a5⟩ := this c h
      exact ⟨continues_cons a1 a2, dotDigit_cons a3 a4, a3, fun d hd e => a5 d hd (by simpa using e)⟩
  obtain ⟨a1, a2, a3, a4⟩ := hx
  have a5 := starts_of_continues a1
  cases t with
  | ident s => exact ⟨a1, a4 _ (by decide), fun h => a4 '>' (by decide) h.2⟩
  | atKeyword s => exact a1
  | hash s => exact a1
  | idHash s => exact a1
  | dimension n s => exact a1
  | number n => exact ⟨a5.1, a4 _ (by decide), a2⟩
  | func s => intro h; rw [show isUrlName s = false from hq] at h; cases h
  | delim c =>
    refine ⟨fun _ => a1, fun _ => a2, fun _ => ⟨a2, a5.2⟩, fun _ => a3, fun _ e => a4 '!' (by decide) ?_, fun _ => a5.1, fun _ => a4 _ (by decide)⟩
    cases r with
    | nil => simp at e
    | cons a x => simp only [List.take_succ_cons, List.cons.injEq] at e; rw [e.1]; rfl
  | _ => trivial

theorem quoteAhead_string (s r : Str) : quoteAhead (serString s ++ r) = true := by
  simp [quoteAhead, serString, List.dropWhile, isWs]

theorem quoteAhead_ws {w : Str} (h : ∀ c ∈ w, isWs c = true) (r : Str) : quoteAhead (w ++ r) = quoteAhead r := by
  simp only [quoteAhead, dropWhile_append_of h]

theorem roundtrip_shown (m : Bool) {r : Str} (hr : ValueEnd r) : ∀ ts : List Token, (∀ t ∈ ts, Ok t) → (m = true → ∀ s, .comment s ∉ ts) → Apart ts →
    clean (lex (printTokens m ts ++ r)) = clean (ts.flatMap meaning ++ lex r) ∧ ∀ t ts', ts = t :: ts' → After t (printTokens m ts' ++ r)
  | [], _, _, _ => ⟨rfl, by simp⟩
  | [t], hok, hc, ha => by
    have h := after_end hr ha
    refine ⟨?_, ?_⟩
    · simpa [printTokens] using lex_token m (hok t (by simp)) (fun hm s e => hc hm s (by simp [e])) h
    · rintro t' ts' e
      simp only [List.cons.injEq] at e
      obtain ⟨rfl, rfl⟩ := e
      exact h
  | t :: u :: ts, hok, hc, ha => by
    obtain ⟨ha1, ha2, ha3, ha4⟩ := ha
    obtain ⟨ih1, ih2⟩ := roundtrip_shown m hr (u :: ts) (fun t ht => hok t (List.mem_cons_of_mem _ ht)) (fun hm s hs => hc hm s (List.mem_cons_of_mem _ hs)) ha4
    have hu : Ok u := hok u (by simp)
    have h2 := ih2 u ts rfl
    have e : printTokens m (u :: ts) ++ r = printToken m u ++ (printTokens m ts ++ r) := by simp [printTokens]
    have h : After t (printTokens m (u :: ts) ++ r) := by
      rw [e]
      refine after_of m hu (fun hm s e => hc hm s (by simp [e])) h2 ha1 ha2 fun hq => ?_
      rcases ha3 hq with ⟨s, rfl⟩ | ⟨w, s, ts', rfl, rfl⟩
      · exact quoteAhead_string _ _
      · have : printTokens m (.string s :: ts') ++ r = serString s ++ (printTokens m ts' ++ r) := by simp [printTokens, printToken]
        rw [this]
        cases m with
        | true => rw [printToken, if_pos rfl, quoteAhead_ws (by decide)]; exact quoteAhead_string _ _
        | false => rw [printToken, if_neg (by decide), quoteAhead_ws hu.2]; exact quoteAhead_string _ _
    refine ⟨?_, ?_⟩
    · have e' : printTokens m (t :: u :: ts) ++ r = printToken m t ++ (printTokens m (u :: ts) ++ r) := by simp [printTokens]
      rw [e', lex_token m (hok t (by simp)) (fun hm s e => hc hm s (by simp [e])) h, List.flatMap_cons, List.append_assoc]
      exact clean_append ih1 _
    · rintro t' ts' e'
      simp only [List.cons.injEq] at e'
      obtain ⟨rfl, rfl⟩ := e'
      exact h

theorem print_shown (m : Bool) : ∀ ts : List Token, printTokens m (shown m ts) = printTokens m ts ∧
    ∀ a b : List Tok, clean a = clean b → clean ((shown m ts).flatMap meaning ++ a) = clean (ts.flatMap meaning ++ b)
  | [] => ⟨by cases m <;> rfl, by cases m <;> exact fun a b h => h⟩
  | t :: ts => by
    obtain ⟨h1, h2⟩ := print_shown m ts
    cases m with
    | false => exact ⟨rfl, fun a b h => clean_append h _⟩
    | true =>
      by_cases hc : ∃ s, t = .comment s
      · obtain ⟨s, rfl⟩ := hc
        refine ⟨h1, fun a b h => ?_⟩
        have : shown true (.comment s :: ts) = shown true ts := rfl
        rw [this, h2 a b h]
        rfl
      · have e : shown true (t :: ts) = t :: shown true ts := by
          cases t with
          | comment s => exact absurd ⟨s, rfl⟩ hc
          | _ => rfl
        rw [e]
        refine ⟨?_, fun a b h => ?_⟩
        · simp only [printTokens, List.flatMap_cons]; exact congrArg _ h1
        · simp only [List.flatMap_cons, List.append_assoc]
          exact clean_append (h2 a b h) _

/-- **C69** The tokens of a value, printed one after the other, minified or not, and read again by the tokenizer of CSS Syntax with any end of a value after them,
are the same tokens, if no two neighbours run together. Comments and the amount of whitespace do not count.
Small negative dimensions that are not written with `-0.` and units like `e1` and `E` are left out (`Ok`). -/
theorem C69_roundtrip_partial (minify : Bool) (ts : List Token) (r : Str) (hok : ∀ t ∈ ts, Ok t) (ha : Apart (shown minify ts)) (hr : ValueEnd r) :
    clean (lex (printTokens minify ts ++ r)) = clean (ts.flatMap meaning ++ lex r) := by
  obtain ⟨h1, h2⟩ := print_shown minify ts
  have hsub : ∀ t ∈ shown minify ts, t ∈ ts := by
    intro t ht
    cases minify with
    | true => exact (List.mem_filter.1 ht).1
    | false => exact ht
  have hnc : minify = true → ∀ s, .comment s ∉ shown minify ts := by
    rintro rfl s hs
    have := (List.mem_filter.1 hs).2
    simp at this
  rw [← h1, (roundtrip_shown minify hr _ (fun t ht => hok t (hsub t ht)) hnc ha).1]
  exact h2 _ _ rfl

/-- **C68** For lists without dimensions this is so whatever the numbers are: names, strings, urls with any characters in them, numbers, percentages, delimiters and punctuation,
printed one after the other and read again, are the same tokens, if no two neighbours run together. -/
theorem C68_roundtrip (minify : Bool) (ts : List Token) (r : Str) (hd : ∀ n u, .dimension n u ∉ ts) (hok : ∀ t ∈ ts, (∀ n u, t ≠ .dimension n u) → Ok t)
    (ha : Apart (shown minify ts)) (hr : ValueEnd r) : clean (lex (printTokens minify ts ++ r)) = clean (ts.flatMap meaning ++ lex r) :=
  C69_roundtrip_partial minify ts r (fun t ht => hok t ht fun n u e => hd n u (e ▸ ht)) ha hr
end Verif.Tokens
