import Verif.Tokens.Spec
import Verif.Modules.NameProps
import Mathlib.Tactic.Ring
import Mathlib.Tactic.Linarith
/-! Lemmas on the tokenizer. -/
namespace Verif.Tokens
open Verif.Modules (isHex isWs isNameStart isName validEscape continues startsIdent hexNumber Reads)

/-! ### Lengths -/

theorem skipOne_length (t : Str) : (skipOne t).length ≤ t.length := by
  cases t with
  | nil => simp [skipOne]
  | cons c t => simp only [skipOne]; split <;> simp

theorem escape_length (t : Str) : (escape t).2.length ≤ t.length := by
  cases t with
  | nil => simp [escape]
  | cons c t =>
    simp only [escape]
    split
    · exact (skipOne_length _).trans (by simp)
    · simp

theorem dropWhile_length {α : Type} (p : α → Bool) (t : List α) : (t.dropWhile p).length ≤ t.length := by
  induction t with
  | nil => simp
  | cons c t ih => simp only [List.dropWhile]; split <;> simp <;> omega

theorem takeNameN_length : ∀ (n : Nat) (t : Str), (takeNameN n t).2.length ≤ t.length
  | 0, t => by simp [takeNameN]
  | n + 1, [] => by simp [takeNameN]
  | n + 1, c :: t => by
    simp only [takeNameN]
    split
    · have := takeNameN_length n t; simp; omega
    · split
      · have := takeNameN_length n (escape t).2
        have := escape_length t
        simp; omega
      · simp

theorem takeStringN_length (q : Char) : ∀ (n : Nat) (t : Str), (takeStringN q n t).2.length ≤ t.length
  | 0, t => by simp [takeStringN]
  | n + 1, [] => by simp [takeStringN]
  | n + 1, c :: t => by
    simp only [takeStringN]
    split
    · simp
    split
    · simp
    split
    · split
      · simp
      split
      · have := takeStringN_length q n t.tail; have : t.tail.length ≤ t.length := by (cases t <;> simp)
        simp only [List.length_cons]; omega
      · have := takeStringN_length q n (escape t).2
        have := escape_length t
        simp; omega
    · have := takeStringN_length q n t; simp; omega

theorem remnantsN_length : ∀ (n : Nat) (t : Str), (remnantsN n t).length ≤ t.length
  | 0, t => by simp [remnantsN]
  | n + 1, [] => by simp [remnantsN]
  | n + 1, c :: t => by
    simp only [remnantsN]
    split
    · simp
    split
    · have := remnantsN_length n (escape t).2
      have := escape_length t
      simp; omega
    · have := remnantsN_length n t; simp; omega

theorem takeUrlN_length : ∀ (n : Nat) (t : Str), (takeUrlN n t).2.length ≤ t.length
  | 0, t => by simp [takeUrlN]
  | n + 1, [] => by simp [takeUrlN]
  | n + 1, c :: t => by
    simp only [takeUrlN]
    split
    · simp
    split
    · have hl := dropWhile_length isWs t
      split
      · simp
      · rename_i h; rw [h] at hl; simp at hl ⊢; omega
      · rename_i r _ h; have := remnantsN_length (t.dropWhile isWs).length (t.dropWhile isWs); simp; omega
    split
    · have := remnantsN_length t.length t; simp; omega
    split
    · split
      · have := takeUrlN_length n (escape t).2
        have := escape_length t
        simp; omega
      · have := remnantsN_length t.length t; simp; omega
    · have := takeUrlN_length n t; simp; omega

theorem takeComment_length : ∀ (t : Str), (takeComment t).2.length ≤ t.length := by
  intro t
  fun_induction takeComment t with
  | case1 t => simp; omega
  | case2 c t _ s r h ih => rw [h] at ih; simp at ih ⊢; omega
  | case3 => simp

theorem takeDigits_length (t : Str) : (takeDigits t).2.length ≤ t.length := dropWhile_length _ _

theorem takeFrac_length (t : Str) : (takeFrac t).2.length ≤ t.length := by
  unfold takeFrac
  split
  · rename_i t; have := takeDigits_length t; split <;> simp; omega
  · simp

theorem takeSign_length (t : Str) : (takeSign t).2.length ≤ t.length := by
  unfold takeSign
  split <;> simp

theorem takeExp_length (t : Str) : (takeExp t).2.2.length ≤ t.length := by
  unfold takeExp
  split
  · rename_i c t
    split
    · have := takeDigits_length (takeSign t).2
      have := takeSign_length t
      simp only [List.length_cons]; omega
    · simp
  · simp

theorem takeNumber_rest (t : Str) : (takeNumber t).2 = (takeExp (takeFrac (takeDigits (takeSign t).2).2).2).2.2 := rfl

theorem takeNumber_length {c : Char} {t : Str} (h : startsNumber (c :: t) = true) : (takeNumber (c :: t)).2.length ≤ t.length := by
  rw [takeNumber_rest]
  refine (takeExp_length _).trans ?_
  have hs : c = '-' ∨ c = '+' ∨ (takeSign (c :: t) = (false, c :: t) ∧ (c.isDigit = true ∨ (c = '.' ∧ digitAhead t = true))) := by
    by_cases h1 : c = '-'
    · exact .inl h1
    by_cases h2 : c = '+'
    · exact .inr (.inl h2)
    refine .inr (.inr ⟨?_, ?_⟩)
    · unfold takeSign
      split <;> simp_all
    · simpa [startsNumber, h1, h2] using h
  rcases hs with rfl | rfl | ⟨e, hd | ⟨rfl, hd⟩⟩
  · exact (takeFrac_length _).trans (takeDigits_length _)
  · exact (takeFrac_length _).trans (takeDigits_length _)
  · rw [e]
    refine (takeFrac_length _).trans ?_
    simp only [takeDigits, List.dropWhile, hd]
    exact dropWhile_length _ _
  · rw [e]
    have : (takeDigits ('.' :: t)).2 = '.' :: t := by simp [takeDigits, List.dropWhile]
    simp only [this, takeFrac, hd, if_true]
    exact takeDigits_length t

theorem validEscape_cons {c : Char} {t : Str} (h : validEscape (c :: t) = true) : c = '\\' := by
  unfold validEscape at h
  split at h <;> simp_all

theorem isName_of_start {c : Char} (h : isNameStart c = true) : isName c = true := by simp [isName, h]

theorem continues_of_starts {t : Str} (h : startsIdent t = true) : continues t = true := by
  unfold startsIdent at h
  split at h
  · simp [continues, isName]
  · rename_i c t _
    rcases Bool.or_eq_true _ _ ▸ h with h | h
    · simp [continues, isName_of_start h]
    · simp [continues, h]
  · cases h

theorem takeName_length {c : Char} {t : Str} (h : continues (c :: t) = true) : (takeName (c :: t)).2.length ≤ t.length := by
  simp only [takeName, List.length_cons, takeNameN]
  split
  · exact takeNameN_length _ _
  · rename_i hn
    have : validEscape (c :: t) = true := by simpa [continues, hn] using h
    rw [if_pos this]
    exact (takeNameN_length _ _).trans (escape_length t)

theorem identLike_length {c : Char} {t : Str} (h : startsIdent (c :: t) = true) : (identLike (c :: t)).2.length ≤ t.length := by
  have hl := takeName_length (continues_of_starts h)
  unfold identLike
  split
  · rename_i s r e
    rw [e] at hl
    have h1 := takeUrlN_length (r.dropWhile isWs).length (r.dropWhile isWs)
    have h2 := dropWhile_length isWs r
    simp only [List.length_cons] at hl
    split
    · split
      · rename_i e'; rw [e'] at h1; simp only at h1 ⊢; omega
      · rename_i e'; rw [e'] at h1; simp only at h1 ⊢; omega
    · simp only; omega
  · rename_i s r _ e
    rw [e] at hl
    exact hl

theorem numeric_length {c : Char} {t : Str} (h : startsNumber (c :: t) = true) : (numeric (c :: t)).2.length ≤ t.length := by
  have hl := takeNumber_length h
  simp only [numeric]
  split
  · exact (takeNameN_length _ _).trans hl
  · split
    · rename_i e; rw [e] at hl; simp at hl; simp only; omega
    · exact hl

theorem tail_length (t : Str) : t.tail.length ≤ t.length := by cases t <;> simp

/-- Every step of the tokenizer consumes something. -/
theorem next_length (c : Char) (t : Str) : (next c t).2.length ≤ t.length := by
  unfold next
  split
  · exact (takeComment_length _).trans (tail_length t)
  split
  · exact dropWhile_length _ _
  split
  · have h := takeStringN_length c t.length t
    split
    · rename_i e; rw [e] at h; exact h
    · rename_i e; rw [e] at h; exact h
  split
  · split
    · exact takeNameN_length _ _
    · exact le_refl _
  split
  · exact le_refl _
  split
  · rename_i h; exact numeric_length h
  split
  · simp
  split
  · rename_i h; exact identLike_length h
  split
  · simp
  split
  · exact takeNameN_length _ _
  · exact le_refl _

theorem lexN_eq : ∀ {n m : Nat} {t : Str}, t.length ≤ n → t.length ≤ m → lexN n t = lexN m t
  | 0, 0, _, _, _ => rfl
  | 0, m + 1, [], _, _ => rfl
  | 0, m + 1, _ :: _, h, _ => by simp at h
  | n + 1, 0, [], _, _ => rfl
  | n + 1, 0, _ :: _, _, h => by simp at h
  | n + 1, m + 1, [], _, _ => rfl
  | n + 1, m + 1, c :: t, h1, h2 => by
    simp only [lexN]
    have := next_length c t
    simp only [List.length_cons] at h1 h2
    rw [lexN_eq (n := n) (m := m) (by omega) (by omega)]

theorem lex_nil : lex [] = [] := rfl

theorem lex_cons (c : Char) (t : Str) : lex (c :: t) = (next c t).1 :: lex (next c t).2 := by
  simp only [lex, List.length_cons, lexN]
  rw [lexN_eq (next_length c t) (le_refl _)]

/-! ### Names -/

theorem takeWhile_append_of {α : Type} {p : α → Bool} : ∀ {a b : List α}, (∀ x ∈ a, p x = true) → (a ++ b).takeWhile p = a ++ b.takeWhile p
  | [], _, _ => rfl
  | x :: a, b, h => by
    simp only [List.cons_append, List.takeWhile, h x (List.mem_cons_self ..)]
    rw [takeWhile_append_of fun y hy => h y (List.mem_cons_of_mem _ hy)]

theorem dropWhile_append_of {α : Type} {p : α → Bool} : ∀ {a b : List α}, (∀ x ∈ a, p x = true) → (a ++ b).dropWhile p = b.dropWhile p
  | [], _, _ => rfl
  | x :: a, b, h => by
    simp only [List.cons_append, List.dropWhile, h x (List.mem_cons_self ..)]
    rw [dropWhile_append_of fun y hy => h y (List.mem_cons_of_mem _ hy)]

theorem ws_not_hex {w : Char} (h : isWs w = true) : isHex w = false := by
  simp only [isWs, Bool.or_eq_true, decide_eq_true_eq] at h
  rcases h with (rfl | rfl) | rfl <;> rfl

theorem codePoint_toNat {c : Char} (h : c.toNat ≠ 0) : codePoint c.toNat = c := by
  have hv := c.valid
  simp only [UInt32.isValidChar, Nat.isValidChar] at hv
  have e : c.toNat = c.val.toNat := rfl
  rw [codePoint, if_neg, Char.ofNat_toNat]
  have h' : c.val.toNat ≠ 0 := h
  rw [e]
  omega

theorem escape_hexSpace {ds : Str} {w : Char} {t : Str} {c : Char} (h1 : ds ≠ []) (h2 : ds.length ≤ 6) (h3 : ∀ d ∈ ds, isHex d = true) (h4 : isWs w = true)
    (h5 : hexNumber ds = c.toNat) (h6 : c.toNat ≠ 0) : escape (ds ++ w :: t) = (c, t) := by
  cases ds with
  | nil => exact absurd rfl h1
  | cons d ds =>
    have e : ((d :: ds ++ w :: t).takeWhile isHex).take 6 = d :: ds := by
      rw [takeWhile_append_of h3, List.takeWhile, ws_not_hex h4, List.append_nil, List.take_of_length_le h2]
    simp only [List.cons_append, escape, h3 d (List.mem_cons_self ..), if_true]
    rw [List.cons_append] at e
    rw [e, h5, codePoint_toNat h6]
    simp [skipOne, h4]

theorem escape_hexEnd {ds : Str} {t : Str} {c : Char} (h1 : ds ≠ []) (h2 : ds.length ≤ 6) (h3 : ∀ d ∈ ds, isHex d = true)
    (h4 : ∀ d t', t = d :: t' → isWs d = false ∧ (ds.length < 6 → isHex d = false)) (h5 : hexNumber ds = c.toNat) (h6 : c.toNat ≠ 0) :
    escape (ds ++ t) = (c, t) := by
  cases ds with
  | nil => exact absurd rfl h1
  | cons d ds =>
    have e : ((d :: ds ++ t).takeWhile isHex).take 6 = d :: ds := by
      rw [takeWhile_append_of h3]
      by_cases hl : (d :: ds).length < 6
      · cases t with
        | nil => simp only [List.takeWhile, List.append_nil, List.take_of_length_le h2]
        | cons e t => rw [List.takeWhile, (h4 e t rfl).2 hl, List.append_nil, List.take_of_length_le h2]
      · rw [List.take_append_of_le_length (by omega), List.take_of_length_le h2]
    simp only [List.cons_append, escape, h3 d (List.mem_cons_self ..), if_true]
    rw [List.cons_append] at e
    rw [e, h5, codePoint_toNat h6]
    cases t with
    | nil => simp [skipOne]
    | cons x t => simpa [skipOne] using (h4 x t rfl).1

theorem escape_char {c : Char} {t : Str} (h : isHex c = false) : escape (c :: t) = (c, t) := by simp [escape, h]

theorem takeNameN_reads {t s r : Str} (h : Reads t s r) : ∀ n, t.length ≤ n → takeNameN n t = (s, r) := by
  induction h with
  | done t h =>
    intro n hn
    cases n with
    | zero => simp [takeNameN]
    | succ n =>
      cases t with
      | nil => rfl
      | cons c t =>
        simp only [continues, Bool.or_eq_false_iff] at h
        simp [takeNameN, h.1, h.2]
  | char c t s r hc _ ih =>
    intro n hn
    cases n with
    | zero => simp at hn
    | succ n =>
      simp only [List.length_cons] at hn
      simp [takeNameN, hc, ih n (by omega)]
  | escape c t s r h1 h2 _ ih =>
    intro n hn
    cases n with
    | zero => simp at hn
    | succ n =>
      simp only [List.length_cons] at hn
      have h3 : isName '\\' = false := by decide
      have h4 : validEscape ('\\' :: c :: t) = true := by simp [validEscape, h2]
      simp [takeNameN, h3, h4, escape_char h1, ih n (by omega)]
  | hexSpace ds w t s r c h1 h2 h3 h4 h5 h6 _ ih =>
    intro n hn
    cases n with
    | zero => simp at hn
    | succ n =>
      simp only [List.cons_append, List.length_cons, List.length_append] at hn
      have h7 : isName '\\' = false := by decide
      have h8 : validEscape ('\\' :: (ds ++ w :: t)) = true := by
        cases ds with
        | nil => exact absurd rfl h1
        | cons d ds =>
          have : d ≠ '\n' := by
            rintro rfl; exact absurd (h3 _ (List.mem_cons_self ..)) (by decide)
          simp [validEscape, this]
      simp [takeNameN, h7, h8, escape_hexSpace h1 h2 h3 h4 h5 h6, ih n (by omega)]
  | hexEnd ds t s r c h1 h2 h3 h4 h5 h6 _ ih =>
    intro n hn
    cases n with
    | zero => simp at hn
    | succ n =>
      simp only [List.cons_append, List.length_cons, List.length_append] at hn
      have h7 : isName '\\' = false := by decide
      have h8 : validEscape ('\\' :: (ds ++ t)) = true := by
        cases ds with
        | nil => exact absurd rfl h1
        | cons d ds =>
          have : d ≠ '\n' := by
            rintro rfl; exact absurd (h3 _ (List.mem_cons_self ..)) (by decide)
          simp [validEscape, this]
      simp [takeNameN, h7, h8, escape_hexEnd h1 h2 h3 h4 h5 h6, ih n (by omega)]

theorem takeName_reads {t s r : Str} (h : Reads t s r) : takeName t = (s, r) := takeNameN_reads h _ (le_refl _)
end Verif.Tokens
