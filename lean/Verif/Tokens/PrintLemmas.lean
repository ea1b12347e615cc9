import Verif.Tokens.Lemmas
/-! What single printed tokens are read as. -/
namespace Verif.Tokens
open Verif.Modules (isHex isWs isNameStart isName validEscape continues startsIdent hexNumber Reads hexEscape serName serIdent hexDigit hexDigit_val
  plain isName_plain not_hex_of_not_plain)

/-! ### Escapes -/

theorem hexEscape_eq {c : Char} (h : c.toNat < 256) : ∃ ds, hexEscape c = '\\' :: ds ++ [' '] ∧ ds ≠ [] ∧ ds.length ≤ 6 ∧
    (∀ d ∈ ds, isHex d = true) ∧ hexNumber ds = c.toNat := by
  unfold hexEscape
  split
  · have h1 := hexDigit_val (c.toNat / 16) (by omega)
    have h2 := hexDigit_val (c.toNat % 16) (by omega)
    exact ⟨[hexDigit (c.toNat / 16), hexDigit (c.toNat % 16)], rfl, by simp, by simp, by simp [h1.1, h2.1],
      by simp only [hexNumber, List.foldl_cons, List.foldl_nil, h1.2, h2.2]; omega⟩
  · have h1 := hexDigit_val c.toNat (by omega)
    exact ⟨[hexDigit c.toNat], rfl, by simp, by simp, by simp [h1.1], by simp only [hexNumber, List.foldl_cons, List.foldl_nil, h1.2]; omega⟩

theorem hex_ne_nl {ds t : Str} (h1 : ds ≠ []) (h3 : ∀ d ∈ ds, isHex d = true) : ∃ d u, ds ++ t = d :: u ∧ d ≠ '\n' := by
  cases ds with
  | nil => exact absurd rfl h1
  | cons d ds =>
    refine ⟨d, ds ++ t, rfl, ?_⟩
    rintro rfl
    exact absurd (h3 _ (List.mem_cons_self ..)) (by decide)

theorem valid_of_ne {c : Char} {t : Str} (h : c ≠ '\n') : validEscape ('\\' :: c :: t) = true := by simp [validEscape, h]

/-! ### Strings -/

theorem string_escape {d e : Char} {t r s r' : Str} {q : Char} {n : Nat} (hq : q ≠ '\\') (hd : d ≠ '\n') (he : escape (d :: t) = (e, r))
    (hr : takeStringN q n r = (some s, r')) : takeStringN q (n + 1) ('\\' :: d :: t) = (some (e :: s), r') := by
  rw [takeStringN, if_neg (fun h => hq h.symm), if_neg (by decide), if_pos rfl, if_neg (by simp), if_neg (by simp [hd]), he]
  simp [hr]

theorem takeString_ser (rest : Str) : ∀ (s : Str) (n : Nat), NoNul s → (s.flatMap stringChar ++ '"' :: rest).length ≤ n →
    takeStringN '"' n (s.flatMap stringChar ++ '"' :: rest) = (some s, rest)
  | [], 0, _, h => by simp at h
  | [], n + 1, _, _ => by simp [takeStringN]
  | c :: s, 0, _, h => by simp at h
  | c :: s, n + 1, hn, h => by
    have h0 : c.toNat ≠ 0 := hn c (List.mem_cons_self ..)
    have ih := takeString_ser rest s n (fun d hd => hn d (List.mem_cons_of_mem _ hd))
    rw [List.flatMap_cons, List.append_assoc] at h ⊢
    rw [stringChar] at h ⊢
    by_cases h1 : c = '"'
    · subst h1
      rw [if_pos rfl] at h ⊢
      simp only [List.cons_append, List.nil_append, List.length_cons] at h ⊢
      exact string_escape (by decide) (by decide) (escape_char (by decide)) (ih (by omega))
    rw [if_neg h1] at h ⊢
    by_cases h2 : c = '\\'
    · subst h2
      rw [if_pos rfl] at h ⊢
      simp only [List.cons_append, List.nil_append, List.length_cons] at h ⊢
      exact string_escape (by decide) (by decide) (escape_char (by decide)) (ih (by omega))
    rw [if_neg h2, if_neg h0] at h ⊢
    by_cases h3 : (decide (c.toNat < 32) || decide (c.toNat = 127)) = true
    · rw [if_pos h3] at h ⊢
      simp only [Bool.or_eq_true, decide_eq_true_eq] at h3
      obtain ⟨ds, e, a1, a2, a3, a4⟩ := hexEscape_eq (c := c) (by omega)
      rw [e] at h ⊢
      obtain ⟨d, u, e', hd⟩ := hex_ne_nl (t := ' ' :: (s.flatMap stringChar ++ '"' :: rest)) a1 a3
      have he := escape_hexSpace (t := s.flatMap stringChar ++ '"' :: rest) a1 a2 a3 (w := ' ') rfl a4 h0
      simp only [List.cons_append, List.append_assoc, List.nil_append, List.length_cons, List.length_append] at h ⊢
      rw [e'] at he ⊢
      exact string_escape (by decide) hd he (ih (by simp only [List.length_cons, List.length_append]; omega))
    · rw [if_neg h3] at h ⊢
      have h4 : c ≠ '\n' := by rintro rfl; exact h3 (by decide)
      simp only [List.cons_append, List.nil_append, List.length_cons] at h ⊢
      rw [takeStringN, if_neg h1, if_neg h4, if_neg h2, ih (by omega)]
      rfl

/-! ### Urls -/

theorem url_escape {d e : Char} {t r s r' : Str} {n : Nat} (hd : d ≠ '\n') (he : escape (d :: t) = (e, r))
    (hr : takeUrlN n r = (some s, r')) : takeUrlN (n + 1) ('\\' :: d :: t) = (some (e :: s), r') := by
  rw [takeUrlN, if_neg (by decide), if_neg (by decide), if_neg (by decide), if_pos rfl, if_pos (valid_of_ne hd), he]
  simp [hr]

theorem takeUrl_ser (rest : Str) : ∀ (s : Str) (n : Nat), NoNul s → (serUrl s ++ ')' :: rest).length ≤ n →
    takeUrlN n (serUrl s ++ ')' :: rest) = (some s, rest)
  | [], 0, _, h => by simp at h
  | [], n + 1, _, _ => by simp [takeUrlN, serUrl]
  | c :: s, 0, _, h => by simp at h
  | c :: s, n + 1, hn, h => by
    have h0 : c.toNat ≠ 0 := hn c (List.mem_cons_self ..)
    have ih := takeUrl_ser rest s n (fun d hd => hn d (List.mem_cons_of_mem _ hd))
    rw [serUrl, List.flatMap_cons, List.append_assoc, ← serUrl] at h ⊢
    rw [urlChar] at h ⊢
    by_cases h3 : (decide (c.toNat ≤ 32) || decide (c.toNat = 127)) = true
    · rw [if_pos h3] at h ⊢
      simp only [Bool.or_eq_true, decide_eq_true_eq] at h3
      obtain ⟨ds, e, a1, a2, a3, a4⟩ := hexEscape_eq (c := c) (by omega)
      rw [e] at h ⊢
      obtain ⟨d, u, e', hd⟩ := hex_ne_nl (t := ' ' :: (serUrl s ++ ')' :: rest)) a1 a3
      have he := escape_hexSpace (t := serUrl s ++ ')' :: rest) a1 a2 a3 (w := ' ') rfl a4 h0
      simp only [List.cons_append, List.append_assoc, List.nil_append, List.length_cons, List.length_append] at h ⊢
      rw [e'] at he ⊢
      exact url_escape hd he (ih (by simp only [List.length_cons, List.length_append]; omega))
    rw [if_neg h3] at h ⊢
    by_cases h4 : (decide (c = '(') || decide (c = ')') || decide (c = '"') || decide (c = '\'') || decide (c = '\\')) = true
    · rw [if_pos h4] at h ⊢
      simp only [Bool.or_eq_true, decide_eq_true_eq] at h4
      have a1 : c ≠ '\n' := by rintro rfl; exact h3 (by decide)
      have a2 : isHex c = false := by rcases h4 with (((rfl | rfl) | rfl) | rfl) | rfl <;> decide
      simp only [List.cons_append, List.nil_append, List.length_cons] at h ⊢
      exact url_escape a1 (escape_char a2) (ih (by omega))
    rw [if_neg h4] at h ⊢
    simp only [Bool.or_eq_true, decide_eq_true_eq, not_or] at h3 h4
    obtain ⟨⟨⟨⟨b1, b2⟩, b3⟩, b4⟩, b5⟩ := h4
    have b6 : isWs c = false := by
      rw [← Bool.not_eq_true]
      simp only [isWs, Bool.or_eq_true, decide_eq_true_eq]
      rintro ((rfl | rfl) | rfl) <;> exact h3.1 (by decide)
    have b7 : nonPrintable c = false := by
      simp only [nonPrintable, Bool.or_eq_false_iff, Bool.and_eq_false_iff, decide_eq_false_iff_not]
      omega
    simp only [List.cons_append, List.nil_append, List.length_cons] at h ⊢
    rw [takeUrlN, if_neg b2, b6, if_neg (by decide), if_neg (by simp [b1, b3, b4, b7]), if_neg b5, ih (by omega)]
    rfl

/-! ### Comments and whitespace -/

theorem takeComment_ser (rest : Str) : ∀ (s : Str), ¬ cs!"*/" <:+: s → takeComment (s ++ '*' :: '/' :: rest) = (s, rest)
  | [], _ => by simp [takeComment]
  | c :: s, h => by
    have ih := takeComment_ser rest s (fun h' => h (h'.trans (List.suffix_cons c s).isInfix))
    have hc : ∀ t', c :: (s ++ '*' :: '/' :: rest) ≠ '*' :: '/' :: t' := by
      intro t' e
      simp only [List.cons.injEq] at e
      obtain ⟨rfl, e⟩ := e
      cases s with
      | nil => simp at e
      | cons d s =>
        simp only [List.cons_append, List.cons.injEq] at e
        obtain ⟨rfl, -⟩ := e
        exact h ⟨[], s, rfl⟩
    rw [List.cons_append, takeComment.eq_2 _ _ (by rintro t' rfl e; exact hc t' (by rw [e])), ih]

theorem takeWhile_ws {s rest : Str} (h : ∀ c ∈ s, isWs c = true) : (s ++ rest).dropWhile isWs = rest.dropWhile isWs := dropWhile_append_of h
end Verif.Tokens
