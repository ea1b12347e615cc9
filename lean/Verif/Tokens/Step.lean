import Verif.Tokens.NumLemmas
/-! One step of the tokenizer on the text of a token. -/
namespace Verif.Tokens
open Verif.Modules (isHex isWs isNameStart isName validEscape continues startsIdent hexNumber Reads hexEscape serName serIdent serDigit nameChar hexDigit hexDigit_val
  plain isName_plain not_hex_of_not_plain starts_append reads_serIdent reads_serName serIdent_cases starts_serDigit startsAny nameChar_cases)

theorem nameStart_not {c : Char} (h : isNameStart c = true) : c.isDigit = false ∧ c ≠ '.' ∧ c ≠ '+' ∧ c ≠ '-' := by
  refine ⟨?_, ?_, ?_, ?_⟩
  · rw [← Bool.not_eq_true]
    intro hd
    simp only [Char.isDigit, Bool.and_eq_true, decide_eq_true_eq] at hd
    simp only [isNameStart, Char.isUpper, Char.isLower, Bool.or_eq_true, Bool.and_eq_true, decide_eq_true_eq] at h
    have e : ∀ a : Char, a.val.toNat = a.toNat := fun _ => rfl
    simp only [ge_iff_le, UInt32.le_iff_toNat_le, e] at hd h
    have b1 : (97 : UInt32).toNat = 97 := rfl
    have b2 : (122 : UInt32).toNat = 122 := rfl
    have b3 : (65 : UInt32).toNat = 65 := rfl
    have b4 : (90 : UInt32).toNat = 90 := rfl
    have b5 : (57 : UInt32).toNat = 57 := rfl
    have b6 : (48 : UInt32).toNat = 48 := rfl
    have c1 : '0'.toNat = 48 := rfl
    have c2 : '9'.toNat = 57 := rfl
    have c3 : 'a'.toNat = 97 := rfl
    have c4 : 'z'.toNat = 122 := rfl
    rcases h with ((h | h) | rfl) | h
    · have : 'A'.toNat = 65 := rfl
      have : 'Z'.toNat = 90 := rfl
      omega
    · omega
    · have : '_'.toNat = 95 := rfl
      omega
    · omega
  all_goals rintro rfl; revert h; decide

/-- The first character of text that starts an identifier. -/
theorem starts_head {c : Char} {t : Str} (h : startsIdent (c :: t) = true) : c = '-' ∨ c = '\\' ∨ isNameStart c = true := by
  unfold startsIdent at h
  split at h
  · rename_i e; simp only [List.cons.injEq] at e; exact .inl e.1
  · rename_i c' t' _ e
    simp only [List.cons.injEq] at e
    obtain ⟨rfl, rfl⟩ := e
    rcases Bool.or_eq_true _ _ ▸ h with h | h
    · exact .inr (.inr h)
    · exact .inr (.inl (validEscape_cons h))
  · cases h

theorem dotDigit_cons {c : Char} {t : Str} (h1 : c.isDigit = false) (h2 : c ≠ '.') : dotDigit (c :: t) = false := by
  unfold dotDigit
  split
  · rename_i e; simp only [List.cons.injEq] at e; exact absurd e.1 h2
  · exact h1

theorem not_number_of_ident {x : Str} (h : startsIdent x = true) : startsNumber x = false := by
  cases x with
  | nil => rfl
  | cons c t =>
    rcases starts_head h with rfl | rfl | hn
    · have hd : dotDigit t = false := by
        simp only [startsIdent] at h
        cases t with
        | nil => rfl
        | cons d t =>
          simp only [Bool.or_eq_true, decide_eq_true_eq] at h
          rcases h with (h | rfl) | h
          · exact dotDigit_cons (nameStart_not h).1 (nameStart_not h).2.1
          · exact dotDigit_cons (by decide) (by decide)
          · rw [validEscape_cons h]; exact dotDigit_cons (by decide) (by decide)
      simp [startsNumber, hd]
    · simp [startsNumber]
    · have := nameStart_not hn
      simp [startsNumber, this]

/-- Characters that do not start any of the first tokens of the tokenizer. -/
structure Late (c : Char) : Prop where
  slash : c ≠ '/'
  ws : isWs c = false
  quote : c ≠ '"'
  quote' : c ≠ '\''
  hash : c ≠ '#'
  punct : punctuation c = none

theorem late_of {c : Char} (h : c ∉ cs!"/\"'#()[]{},:; \n\t") : Late c := by
  have hne : ∀ d, d ∈ cs!"/\"'#()[]{},:; \n\t" → c ≠ d := by rintro d hd rfl; exact h hd
  refine ⟨hne _ (by decide), ?_, hne _ (by decide), hne _ (by decide), hne _ (by decide), ?_⟩
  · simp [isWs, hne '\n' (by decide), hne ' ' (by decide), hne '\t' (by decide)]
  · simp [punctuation, hne '(' (by decide), hne ')' (by decide), hne '[' (by decide), hne ']' (by decide), hne '{' (by decide), hne '}' (by decide),
      hne ',' (by decide), hne ':' (by decide), hne ';' (by decide)]

theorem late_of_pred {p : Char → Bool} {c : Char} (h : p c = true) (hp : (cs!"/\"'#()[]{},:; \n\t").all (fun d => !p d) = true) : Late c := by
  refine late_of fun hc => ?_
  have := List.all_eq_true.1 hp c hc
  simp [h] at this

theorem next_late {c : Char} (h : Late c) (t : Str) : next c t =
    if startsNumber (c :: t) then numeric (c :: t)
    else if c = '-' && t.take 2 = cs!"->" then (.cdc, t.drop 2)
    else if startsIdent (c :: t) then identLike (c :: t)
    else if c = '<' && t.take 3 = cs!"!--" then (.cdo, t.drop 3)
    else if c = '@' && startsIdent t then (.atKeyword (takeName t).1, (takeName t).2)
    else (.delim c, t) := by
  rw [next, if_neg (by simp [h.slash]), h.ws, if_neg (by decide), if_neg (by simp [h.quote, h.quote']), if_neg h.hash, h.punct, if_neg (by decide)]

theorem late_number {c : Char} {t : Str} (h : startsNumber (c :: t) = true) : Late c := by
  by_cases hd : c.isDigit = true
  · exact late_of_pred (p := Char.isDigit) hd (by decide)
  · refine late_of_pred (p := fun c => c = '.' || c = '+' || c = '-') ?_ (by decide)
    simp only [startsNumber, hd, Bool.false_or, Bool.or_eq_true, Bool.and_eq_true, decide_eq_true_eq] at h ⊢
    tauto

theorem late_ident {c : Char} {t : Str} (h : startsIdent (c :: t) = true) : Late c := by
  rcases starts_head h with rfl | rfl | h
  · exact late_of (by decide)
  · exact late_of (by decide)
  · exact late_of_pred (p := isNameStart) h (by decide)

theorem next_number {c : Char} {t : Str} (h : startsNumber (c :: t) = true) : next c t = numeric (c :: t) := by
  rw [next_late (late_number h), if_pos h]

theorem next_ident {c : Char} {t : Str} (h : startsIdent (c :: t) = true) (hc : (c :: t).take 3 ≠ cs!"-->") : next c t = identLike (c :: t) := by
  rw [next_late (late_ident h), not_number_of_ident h, if_neg (by decide), if_neg, if_pos h]
  simp only [Bool.and_eq_true, decide_eq_true_eq, not_and]
  rintro rfl h2
  exact hc (by simpa using h2)

/-! ### Text at the beginning of identifiers -/

theorem serName_head {s rest : Str} (hn : NoNul s) {c : Char} {t : Str} (h : serName s ++ rest = c :: t) (hc : plain c = false) (hc' : c ≠ '\\') : s = [] := by
  cases s with
  | nil => rfl
  | cons d s =>
    rw [serName, List.flatMap_cons, List.append_assoc] at h
    rcases nameChar_cases (hn d (List.mem_cons_self ..)) with ⟨hp, e⟩ | ⟨-, h1, e⟩ | ⟨-, -, e⟩
    · rw [e] at h; simp only [List.cons_append, List.cons.injEq] at h; rw [h.1, hc] at hp; cases hp
    · obtain ⟨ds, e', -⟩ := hexEscape_eq h1
      rw [e, e'] at h; simp only [List.cons_append, List.cons.injEq] at h; exact absurd h.1.symm hc'
    · rw [e] at h; simp only [List.cons_append, List.cons.injEq] at h; exact absurd h.1.symm hc'

theorem serIdent_not_cdc {s rest : Str} (hn : NoNul s) (hne : s ≠ []) (hr : ¬ (s = cs!"--" ∧ rest.head? = some '>')) :
    (serIdent s ++ rest).take 3 ≠ cs!"-->" := by
  intro h
  have h' : ∃ r, serIdent s ++ rest = '-' :: '-' :: '>' :: r := by
    generalize serIdent s ++ rest = x at h
    rcases x with _ | ⟨a, _ | ⟨b, _ | ⟨c, r⟩⟩⟩ <;> simp at h
    exact ⟨r, by simp [h]⟩
  obtain ⟨r, h'⟩ := h'
  have na : ∀ t, startsAny ('-' :: t) = false := by intro t; simp [startsAny, isNameStart, validEscape]
  rcases serIdent_cases hne with ⟨t, rfl, e⟩ | ⟨rfl, e⟩ | ⟨t, rfl, h1, h2, e⟩ | ⟨h2, e⟩
  · rw [e] at h'
    simp only [List.cons_append, List.cons.injEq, true_and] at h'
    have : t = [] := serName_head (fun d hd => hn d (by simp [hd])) h' (by decide) (by decide)
    subst this
    simp only [serName, List.flatMap_nil, List.nil_append] at h'
    exact hr ⟨rfl, by simp [h']⟩
  · rw [e] at h'; simp at h'
  · rw [e] at h'
    simp only [List.cons_append, List.cons.injEq, true_and] at h'
    have := starts_serDigit (t := rest) (fun d hd => hn d (by simp [hd])) h1 h2
    rw [h', na] at this; cases this
  · rw [e] at h'
    have := starts_serDigit (t := rest) hn hne h2
    rw [h', na] at this; cases this

theorem serIdent_ne {s : Str} (hn : NoNul s) (hne : s ≠ []) (rest : Str) : ∃ c t, serIdent s ++ rest = c :: t := by
  have := starts_append hn hne rest
  cases h : serIdent s ++ rest with
  | nil => rw [h] at this; cases this
  | cons c t => exact ⟨c, t, rfl⟩

theorem reads_ident {s rest : Str} (hn : NoNul s) (hr : continues rest = false) : takeName (serIdent s ++ rest) = (s, rest) :=
  takeName_reads (by simpa using reads_serIdent hn (.done rest hr))

theorem reads_name {s rest : Str} (hn : NoNul s) (hr : continues rest = false) : takeName (serName s ++ rest) = (s, rest) :=
  takeName_reads (by simpa using reads_serName hn (.done rest hr))

/-! ### Steps -/

theorem lex_of_next {x rest : Str} {c : Char} {t : Str} {tok : Tok} (hx : x = c :: t) (h : next c t = (tok, rest)) : lex x = tok :: lex rest := by
  rw [hx, lex_cons, h]

theorem lex_ident {s rest : Str} (hn : NoNul s) (hne : s ≠ []) (h1 : continues rest = false) (h2 : rest.head? ≠ some '(')
    (h3 : ¬ (s = cs!"--" ∧ rest.head? = some '>')) : lex (serIdent s ++ rest) = .ident s :: lex rest := by
  obtain ⟨c, t, e⟩ := serIdent_ne hn hne rest
  refine lex_of_next e ?_
  rw [next_ident (by rw [← e]; exact starts_append hn hne rest) (by rw [← e]; exact serIdent_not_cdc hn hne h3), ← e, identLike, reads_ident hn h1]
  split
  · rename_i e; simp only [Prod.mk.injEq] at e; rw [e.2] at h2; simp at h2
  · rename_i e; simp only [Prod.mk.injEq] at e; rw [e.1, e.2]

theorem lex_func {s rest : Str} (hn : NoNul s) (hne : s ≠ []) (h : isUrlName s = true → quoteAhead rest = true) :
    lex (serIdent s ++ '(' :: rest) = .func s :: lex rest := by
  obtain ⟨c, t, e⟩ := serIdent_ne hn hne ('(' :: rest)
  refine lex_of_next e ?_
  rw [next_ident (by rw [← e]; exact starts_append hn hne _) (by rw [← e]; exact serIdent_not_cdc hn hne (by simp)), ← e, identLike,
    reads_ident hn (by simp [continues, validEscape, isName, isNameStart])]
  simp only
  rw [if_neg]
  simp only [Bool.and_eq_true, Bool.not_eq_true', not_and]
  intro hu
  simp [h hu]

theorem urlChar_head {c : Char} : ∃ d u, urlChar c = d :: u ∧ isWs d = false ∧ d ≠ '"' ∧ d ≠ '\'' := by
  unfold urlChar
  split
  · rename_i h
    simp only [Bool.or_eq_true, decide_eq_true_eq] at h
    obtain ⟨ds, e, -⟩ := hexEscape_eq (c := c) (by omega)
    exact ⟨'\\', _, e, by decide, by decide, by decide⟩
  · rename_i h
    split
    · exact ⟨'\\', _, rfl, by decide, by decide, by decide⟩
    · rename_i h2
      simp only [Bool.or_eq_true, decide_eq_true_eq, not_or] at h h2
      refine ⟨c, [], rfl, ?_, h2.1.1.2, h2.1.2⟩
      rw [← Bool.not_eq_true]
      simp only [isWs, Bool.or_eq_true, decide_eq_true_eq]
      rintro ((rfl | rfl) | rfl) <;> exact h.1 (by decide)

theorem serUrl_head (s rest : Str) : ∃ d u, serUrl s ++ ')' :: rest = d :: u ∧ isWs d = false ∧ d ≠ '"' ∧ d ≠ '\'' := by
  cases s with
  | nil => exact ⟨')', rest, rfl, by decide, by decide, by decide⟩
  | cons c s =>
    obtain ⟨d, u, e, h⟩ := urlChar_head (c := c)
    exact ⟨d, u ++ (serUrl s ++ ')' :: rest), by simp [serUrl, e], h⟩

theorem lex_url {s rest : Str} (hn : NoNul s) : lex (cs!"url(" ++ serUrl s ++ [')'] ++ rest) = .url s :: lex rest := by
  have e : cs!"url(" ++ serUrl s ++ [')'] ++ rest = 'u' :: 'r' :: 'l' :: '(' :: (serUrl s ++ ')' :: rest) := by simp
  refine lex_of_next e ?_
  have hr : takeName ('u' :: 'r' :: 'l' :: '(' :: (serUrl s ++ ')' :: rest)) = (cs!"url", '(' :: (serUrl s ++ ')' :: rest)) :=
    takeName_reads (.char _ _ _ _ (by decide) (.char _ _ _ _ (by decide) (.char _ _ _ _ (by decide) (.done _ (by simp [continues, validEscape, isName, isNameStart])))))
  obtain ⟨d, u, e', h1, h2, h3⟩ := serUrl_head s rest
  have hd : (serUrl s ++ ')' :: rest).dropWhile isWs = serUrl s ++ ')' :: rest := by rw [e']; simp [List.dropWhile, h1]
  have hq : quoteAhead (serUrl s ++ ')' :: rest) = false := by
    rw [quoteAhead, hd, e']; simp [h2, h3]
  rw [next_ident (by simp [startsIdent, isNameStart]) (by simp), identLike, hr]
  simp only [hq, hd]
  rw [if_pos (by decide), takeUrl_ser rest s _ hn (le_refl _)]

theorem lex_string {s rest : Str} (hn : NoNul s) : lex (serString s ++ rest) = .string s :: lex rest := by
  have e : serString s ++ rest = '"' :: (s.flatMap stringChar ++ '"' :: rest) := by simp [serString]
  refine lex_of_next e ?_
  rw [next, if_neg (by simp), if_neg (by decide), if_pos (by decide), takeString_ser rest s _ hn (le_refl _)]

theorem serName_cons {s : Str} (hn : NoNul s) (hne : s ≠ []) (rest : Str) : continues (serName s ++ rest) = true := by
  cases s with
  | nil => exact absurd rfl hne
  | cons d s =>
    rw [serName, List.flatMap_cons, List.append_assoc]
    rcases nameChar_cases (hn d (List.mem_cons_self ..)) with ⟨hp, e⟩ | ⟨-, h1, e⟩ | ⟨-, h1, e⟩
    · rw [e]; simp [continues, isName_plain, hp]
    · rw [e]; simp [continues, Verif.Modules.hexEscape_valid d h1]
    · rw [e]; simp [continues, valid_of_ne h1]

theorem lex_hash {s rest : Str} (hn : NoNul s) (hne : s ≠ []) (h1 : continues rest = false) : lex ('#' :: (serName s ++ rest)) = .hash s :: lex rest := by
  refine lex_of_next rfl ?_
  rw [next, if_neg (by simp), if_neg (by decide), if_neg (by decide), if_pos rfl, serName_cons hn hne, if_pos rfl, reads_name hn h1]

theorem lex_idHash {s rest : Str} (hn : NoNul s) (hne : s ≠ []) (h1 : continues rest = false) : lex ('#' :: (serIdent s ++ rest)) = .hash s :: lex rest := by
  refine lex_of_next rfl ?_
  rw [next, if_neg (by simp), if_neg (by decide), if_neg (by decide), if_pos rfl, continues_of_starts (starts_append hn hne rest), if_pos rfl, reads_ident hn h1]

theorem lex_at {s rest : Str} (hn : NoNul s) (hne : s ≠ []) (h1 : continues rest = false) : lex ('@' :: (serIdent s ++ rest)) = .atKeyword s :: lex rest := by
  refine lex_of_next rfl ?_
  have h2 : startsIdent ('@' :: (serIdent s ++ rest)) = false := by simp [startsIdent, isNameStart, validEscape]
  have h3 : startsNumber ('@' :: (serIdent s ++ rest)) = false := by simp [startsNumber]
  rw [next_late (late_of (by decide)), h2, h3, if_neg (by decide), if_neg (by simp), if_neg (by decide), if_neg (by simp), starts_append hn hne rest, if_pos (by simp), reads_ident hn h1]

theorem lex_number {x rest : Str} {v : ℚ} (h : startsNumber (x ++ rest) = true) (h' : takeNumber (x ++ rest) = (v, rest)) (h1 : startsIdent rest = false)
    (h2 : rest.head? ≠ some '%') : lex (x ++ rest) = .number v :: lex rest := by
  cases e : x ++ rest with
  | nil => rw [e] at h; cases h
  | cons c t =>
    refine lex_of_next rfl ?_
    rw [next_number (by rw [← e]; exact h), ← e, numeric, h']
    simp only [h1, Bool.false_eq_true, if_false]
    split
    · rename_i h; simp at h2
    · rfl

theorem lex_percentage {x rest : Str} {v : ℚ} (h : startsNumber (x ++ '%' :: rest) = true) (h' : takeNumber (x ++ '%' :: rest) = (v, '%' :: rest)) :
    lex (x ++ '%' :: rest) = .percentage v :: lex rest := by
  cases e : x ++ '%' :: rest with
  | nil => rw [e] at h; cases h
  | cons c t =>
    refine lex_of_next rfl ?_
    rw [next_number (by rw [← e]; exact h), ← e, numeric, h']
    have : startsIdent ('%' :: rest) = false := by simp [startsIdent, isNameStart, validEscape]
    simp [this]

theorem lex_dimension {x u rest unit : Str} {v : ℚ} (h : startsNumber (x ++ rest) = true) (h' : takeNumber (x ++ rest) = (v, u ++ rest)) (h1 : startsIdent (u ++ rest) = true)
    (h2 : takeName (u ++ rest) = (unit, rest)) : lex (x ++ rest) = .dimension v unit :: lex rest := by
  cases e : x ++ rest with
  | nil => rw [e] at h; cases h
  | cons c t =>
    refine lex_of_next rfl ?_
    rw [next_number (by rw [← e]; exact h), ← e, numeric, h']
    simp [h1, h2]

theorem lex_comment {s rest : Str} (h : ¬ cs!"*/" <:+: s) : lex (cs!"/*" ++ s ++ cs!"*/" ++ rest) = .comment s :: lex rest := by
  have e : cs!"/*" ++ s ++ cs!"*/" ++ rest = '/' :: '*' :: (s ++ '*' :: '/' :: rest) := by simp
  refine lex_of_next e ?_
  rw [next, if_pos (by simp), List.tail_cons, takeComment_ser rest s h]

theorem lex_punct {c : Char} {p : Tok} (h : punctuation c = some p) (h' : Late c ∨ c ∈ cs!"()[]{},:;") (rest : Str) : lex (c :: rest) = p :: lex rest := by
  have hc : c ∈ cs!"()[]{},:;" := by
    rcases h' with h' | h'
    · rw [h'.punct] at h; cases h
    · exact h'
  refine lex_of_next rfl ?_
  have hne : ∀ d, d ∉ cs!"()[]{},:;" → c ≠ d := by rintro d hd rfl; exact hd hc
  rw [next, if_neg (by simp [hne '/' (by decide)]), if_neg, if_neg (by simp [hne '"' (by decide), hne '\'' (by decide)]), if_neg (hne '#' (by decide)), h]
  · simp
  · simp [isWs, hne '\n' (by decide), hne ' ' (by decide), hne '\t' (by decide)]

theorem lex_cdc (rest : Str) : lex (cs!"-->" ++ rest) = .cdc :: lex rest := by
  refine lex_of_next (c := '-') (t := '-' :: '>' :: rest) rfl ?_
  rw [next_late (late_of (by decide)), if_neg, if_pos (by simp)]
  · simp
  · simp [startsNumber, dotDigit, digitAhead]

theorem lex_cdo (rest : Str) : lex (cs!"<!--" ++ rest) = .cdo :: lex rest := by
  refine lex_of_next (c := '<') (t := '!' :: '-' :: '-' :: rest) rfl ?_
  have h1 : startsIdent ('<' :: '!' :: '-' :: '-' :: rest) = false := by simp [startsIdent, isNameStart, validEscape]
  have h2 : startsNumber ('<' :: '!' :: '-' :: '-' :: rest) = false := by simp [startsNumber]
  rw [next_late (late_of (by decide)), h1, h2, if_neg (by decide), if_neg (by simp), if_neg (by decide), if_pos (by simp)]
  simp

/-- What must hold of the text after a token. -/
def After : Token → Str → Prop
  | .ident s, r => continues r = false ∧ r.head? ≠ some '(' ∧ ¬ (s = cs!"--" ∧ r.head? = some '>')
  | .atKeyword _, r | .hash _, r | .idHash _, r | .dimension _ _, r => continues r = false
  | .number _, r => startsIdent r = false ∧ r.head? ≠ some '%' ∧ dotDigit r = false
  | .func s, r => isUrlName s = true → quoteAhead r = true
  | .delim c, r => (c = '#' → continues r = false) ∧ (c = '+' → dotDigit r = false) ∧ (c = '-' → dotDigit r = false ∧ startsIdent ('-' :: r) = false) ∧
      (c = '.' → digitAhead r = false) ∧ (c = '<' → r.take 3 ≠ cs!"!--") ∧ (c = '@' → startsIdent r = false) ∧ (c = '/' → r.head? ≠ some '*')
  | _, _ => True

theorem lex_delim {c : Char} {rest : Str} (h : delimOk c = true) (h' : ownToken c = false) (ha : After (.delim c) rest) : lex (c :: rest) = .delim c :: lex rest := by
  refine lex_of_next rfl ?_
  obtain ⟨a1, a2, a3, a4, a5, a6, a7⟩ := ha
  simp only [ownToken, Bool.or_eq_false_iff] at h'
  obtain ⟨w, h'⟩ := h'
  have hne : ∀ d, d ∈ cs!"\"'()[]{},:;\\" → c ≠ d := by
    rintro d hd rfl
    exact absurd hd (by simpa using h')
  have hp : punctuation c = none := by
    simp [punctuation, hne '(' (by decide), hne ')' (by decide), hne '[' (by decide), hne ']' (by decide), hne '{' (by decide), hne '}' (by decide),
      hne ',' (by decide), hne ':' (by decide), hne ';' (by decide)]
  by_cases hs : c = '#'
  · subst hs
    rw [next, if_neg (by simp), if_neg (by decide), if_neg (by decide), if_pos rfl, a1 rfl, if_neg (by decide)]
  by_cases hsl : c = '/'
  · subst hsl
    have h1 : startsIdent ('/' :: rest) = false := by simp [startsIdent, isNameStart, validEscape]
    have h2 : startsNumber ('/' :: rest) = false := by simp [startsNumber]
    rw [next, if_neg (by simpa using a7 rfl), if_neg (by decide), if_neg (by decide), if_neg (by decide), if_neg (by decide), h1, h2]
    simp
  have hl : Late c := ⟨hsl, w, hne _ (by decide), hne _ (by decide), hs, hp⟩
  have hbs : c ≠ '\\' := hne _ (by decide)
  have hnum : startsNumber (c :: rest) = false := by
    have hd : c.isDigit = false := by
      rw [delimOk, isName] at h
      simp only [Bool.or_eq_true, Bool.not_eq_true', decide_eq_true_eq, Bool.or_eq_false_iff] at h
      rcases h with h | rfl
      · exact h.1.2
      · rfl
    have e2 : c = '+' ∨ c = '-' → dotDigit rest = false := by
      rintro (e | e)
      · exact a2 e
      · exact (a3 e).1
    simp only [startsNumber, hd, Bool.false_or, Bool.or_eq_false_iff, Bool.and_eq_false_iff, decide_eq_false_iff_not]
    refine ⟨?_, ?_⟩
    · by_cases e : c = '.'
      · exact .inr (a4 e)
      · exact .inl e
    · by_cases e : c = '+' ∨ c = '-'
      · exact .inr (e2 e)
      · rw [not_or] at e; exact .inl e
  have hid : startsIdent (c :: rest) = false := by
    by_cases e : c = '-'
    · subst e; exact (a3 rfl).2
    · rw [delimOk, isName] at h
      simp only [Bool.or_eq_true, Bool.not_eq_true', decide_eq_true_eq, Bool.or_eq_false_iff, e, or_false] at h
      rw [← Bool.not_eq_true]
      intro hst
      rcases starts_head hst with h1 | h1 | h1
      · exact e h1
      · exact hbs h1
      · rw [h.1.1] at h1; cases h1
  rw [next_late hl, hnum, hid, if_neg (by decide), if_neg, if_neg (by decide), if_neg, if_neg]
  · simp only [Bool.and_eq_true, decide_eq_true_eq, not_and]; intro e; simp [a6 e]
  · simp only [Bool.and_eq_true, decide_eq_true_eq, not_and]; intro e; exact a5 e
  · simp only [Bool.and_eq_true, decide_eq_true_eq, not_and]
    rintro rfl e2
    have := (a3 rfl).2
    rcases rest with _ | ⟨x, r⟩
    · simp at e2
    · simp at e2
      simp [startsIdent, e2.1] at this
end Verif.Tokens
