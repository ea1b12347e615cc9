import Verif.Urls.Model
import Verif.Urls.Spec
import Verif.Tokens.Props
/-! Printed urls read back as the same url, in the shorter of the two forms (C71, C72); `is_absolute` (C73). -/
namespace Verif.Urls
open Verif.Tokens

theorem lex_quoted {s rest : Str} (hn : NoNul s) : lex (cs!"url(" ++ serString s ++ [')'] ++ rest) = .func cs!"url" :: .string s :: .closeParen :: lex rest := by
  have h := lex_func (s := cs!"url") (rest := serString s ++ (')' :: rest)) (by unfold NoNul; decide) (by decide) (fun _ => quoteAhead_string _ _)
  have e : Verif.Modules.serIdent cs!"url" = cs!"url" := by decide +kernel
  rw [e] at h
  have e2 : cs!"url(" ++ serString s ++ [')'] ++ rest = cs!"url" ++ '(' :: (serString s ++ (')' :: rest)) := by simp
  rw [e2]
  rw [show cs!"url" ++ '(' :: (serString s ++ (')' :: rest)) = cs!"url" ++ ['('] ++ (serString s ++ (')' :: rest)) by simp] at *
  rw [h]
  rw [lex_string hn, lex_punct (c := ')') (p := .closeParen) (by decide) (.inr (by decide))]

/-- **C71.** Whatever characters a url has, minified or not, the text printed for it is read as exactly that url, and what follows is not touched. -/
theorem C71_roundtrip (minify : Bool) (url rest : Str) (hn : NoNul url) : readUrl (lex (printUrl minify url ++ rest)) = some (url, lex rest) := by
  have hq : readUrl (lex (cs!"url(" ++ serString url ++ [')'] ++ rest)) = some (url, lex rest) := by
    rw [lex_quoted hn]; simp [readUrl, isUrlName, lower]
  have hu : readUrl (lex (printToken true (.url url) ++ rest)) = some (url, lex rest) := by
    rw [printToken, lex_url hn]; rfl
  simp only [printUrl]
  repeat' split
  all_goals first | exact hq | exact hu

theorem bytes_eq (s : Str) : utf8Len s = bytes s := by
  induction s with
  | nil => rfl
  | cons c s ih => simp only [utf8Len, bytes, List.map_cons, List.sum_cons, List.foldr_cons] at ih ⊢; rw [ih]

theorem bytes_append (a b : Str) : bytes (a ++ b) = bytes a + bytes b := by
  simp only [← bytes_eq, utf8Len, List.map_append, List.sum_append]

theorem one_byte (c : Char) : 1 ≤ c.utf8Size := c.utf8Size_pos

theorem low_size {c : Char} (h : c.toNat ≤ 127) : c.utf8Size = 1 := by
  unfold Char.utf8Size
  have h2 : c.val ≤ 127 := UInt32.le_iff_toNat_le.2 h
  exact if_pos h2

theorem stringChar_bytes (c : Char) : c.utf8Size ≤ bytes (stringChar c) := by
  unfold stringChar
  by_cases h1 : c = '"'
  · subst h1; decide
  rw [if_neg h1]
  by_cases h2 : c = '\\'
  · subst h2; decide
  rw [if_neg h2]
  by_cases h3 : c.toNat = 0
  · rw [if_pos h3, low_size (by omega)]; decide
  rw [if_neg h3]
  split
  · rename_i h
    simp only [Bool.or_eq_true, decide_eq_true_eq] at h
    rw [low_size (by omega)]
    have e : ∃ t, Verif.Modules.hexEscape c = '\\' :: t := by
      unfold Verif.Modules.hexEscape
      split
      · exact ⟨_, rfl⟩
      · exact ⟨_, rfl⟩
    obtain ⟨t, e⟩ := e
    rw [e]
    simp only [bytes, List.foldr_cons]
    have := one_byte '\\'
    omega
  · simp [bytes]

theorem serString_bytes (s : Str) : bytes s + 2 ≤ bytes (serString s) := by
  have : bytes s ≤ bytes (s.flatMap stringChar) := by
    induction s with
    | nil => simp [bytes]
    | cons c s ih =>
      rw [List.flatMap_cons, bytes_append]
      have := stringChar_bytes c
      simp only [bytes, List.foldr_cons] at *
      omega
  have e : serString s = ['"'] ++ s.flatMap stringChar ++ ['"'] := rfl
  rw [e, bytes_append, bytes_append]
  have : bytes ['"'] = 1 := by decide
  omega

/-- **C72.** Minified, a url is printed in the shorter of its two forms: as long as the shorter of the escaped and the quoted text, in bytes. -/
theorem C72_shortest (url : Str) :
    bytes (printUrl true url) = min (bytes (cs!"url(" ++ serUrl url ++ [')'])) (bytes (cs!"url(" ++ serString url ++ [')'])) := by
  have h := serString_bytes url
  have e5 : ∀ t : Str, bytes (cs!"url(" ++ t ++ [')']) = bytes t + 5 := by
    intro t
    rw [bytes_append, bytes_append]
    have h1 : bytes cs!"url(" = 4 := by decide
    have h2 : bytes [')'] = 1 := by decide
    omega
  simp only [printUrl, if_true, bytes_eq, printToken]
  rw [e5, e5]
  split
  · split
    · rw [e5]; omega
    · rw [e5]; omega
  · rw [e5]; omega

/-- The hypothesis of `C71_roundtrip` is met by every text without NUL, and both forms occur. -/
example : NoNul cs!"a b(c)'d'\\\n" ∧ printUrl true cs!"a(b" = cs!"url(a\\(b)" ∧ printUrl true cs!"a b c d" = cs!"url(\"a b c d\")" ∧ printUrl false cs!"a" = cs!"url(\"a\")" := by
  refine ⟨by unfold NoNul; decide, by decide +kernel, by decide +kernel, by decide +kernel⟩

theorem letter_alpha (c : Char) : isLetter c = c.isAlpha := by
  have e : ∀ a b : Char, (a ≤ b) = (a.val ≤ b.val) := fun _ _ => rfl
  simp only [isLetter, Char.isAlpha, Char.isUpper, Char.isLower, e, ge_iff_le, Bool.or_comm, Bool.decide_and]

theorem schemeLoop_iff (s : Str) : schemeLoop s = true ↔ ∃ p r, s = p ++ ':' :: r ∧ ∀ c ∈ p, c.isAlphanum = true ∨ c = '+' ∨ c = '-' ∨ c = '.' := by
  have hd : ∀ c : Char, ((isLetter c || ('0' ≤ c && c ≤ '9') || c = '+' || c = '-' || c = '.') = true) ↔ (c.isAlphanum = true ∨ c = '+' ∨ c = '-' ∨ c = '.') := by
    intro c
    have : (decide ('0' ≤ c) && decide (c ≤ '9')) = c.isDigit := rfl
    rw [this, letter_alpha]
    simp only [Char.isAlphanum, Bool.or_eq_true, decide_eq_true_eq]
    tauto
  induction s with
  | nil => simp [schemeLoop]
  | cons c s ih =>
    rw [schemeLoop]
    by_cases h : (isLetter c || ('0' ≤ c && c ≤ '9') || c = '+' || c = '-' || c = '.') = true
    · rw [if_pos h]
      refine Iff.trans ih ?_
      constructor
      · rintro ⟨p, r, rfl, hp⟩
        exact ⟨c :: p, r, rfl, fun d hd' => by
          rcases List.mem_cons.1 hd' with rfl | h'
          · exact (hd _).1 h
          · exact hp d h'⟩
      · rintro ⟨p, r, e, hp⟩
        cases p with
        | nil =>
          simp only [List.nil_append, List.cons.injEq] at e
          rw [e.1] at h
          exact absurd h (by decide)
        | cons d p =>
          simp only [List.cons_append, List.cons.injEq] at e
          exact ⟨p, r, e.2, fun x hx => hp x (List.mem_cons_of_mem _ hx)⟩
    · rw [if_neg h]
      by_cases h2 : c = ':'
      · rw [if_pos h2]
        simp only [true_iff]
        exact ⟨[], s, by rw [h2]; rfl, by simp⟩
      · rw [if_neg h2]
        simp only [Bool.false_eq_true, false_iff]
        rintro ⟨p, r, e, hp⟩
        cases p with
        | nil => simp only [List.nil_append, List.cons.injEq] at e; exact h2 e.1
        | cons d p =>
          simp only [List.cons_append, List.cons.injEq] at e
          exact h ((hd c).2 (e.1 ▸ hp d List.mem_cons_self))

/-- **C73.** A url is taken for absolute exactly if it starts with a slash, with `#`, or with a scheme. -/
theorem C73_absolute (url : Str) : isAbsolute url = true ↔ Absolute url := by
  have hs : ∀ c t, url = c :: t → (HasScheme url ↔ (isLetter c = true ∧ schemeLoop url = true)) := by
    intro c t e
    rw [schemeLoop_iff, letter_alpha]
    constructor
    · rintro ⟨a, s, r, e', ha, hc⟩
      rw [e] at e'
      simp only [List.cons.injEq] at e'
      obtain ⟨rfl, e2⟩ := e'
      refine ⟨ha, c :: s, r, by rw [e, e2]; rfl, fun x hx => ?_⟩
      rcases List.mem_cons.1 hx with rfl | h
      · left; simp [Char.isAlphanum, ha]
      · exact hc x h
    · rintro ⟨ha, p, r, e', hp⟩
      cases p with
      | nil =>
        rw [e] at e'
        simp only [List.nil_append, List.cons.injEq] at e'
        rw [e'.1] at ha
        exact absurd ha (by decide)
      | cons d p =>
        have e2 := e'
        rw [e] at e'
        simp only [List.cons_append, List.cons.injEq] at e'
        exact ⟨d, p, r, e2, e'.1 ▸ ha, fun x hx => hp x (List.mem_cons_of_mem _ hx)⟩
  cases url with
  | nil => simp [isAbsolute, Absolute, HasScheme]
  | cons c t =>
    have hs := hs c t rfl
    simp only [isAbsolute, List.head?_cons, Option.some.injEq, Absolute, List.cons.injEq, exists_and_left, exists_eq', and_true]
    rw [hs]
    by_cases h1 : c = '.'
    · rw [if_pos h1]
      subst h1
      simp [show isLetter '.' = false by decide]
    rw [if_neg h1]
    by_cases h2 : c = '/'
    · rw [if_pos h2]; simp [h2]
    rw [if_neg h2]
    by_cases h3 : c = '#'
    · rw [if_pos h3]; simp [h3]
    rw [if_neg h3]
    by_cases h4 : isLetter c = true
    · simp [h2, h3, h4]
    · simp [h2, h3, h4]

/-- Urls of both kinds. -/
example : Absolute cs!"https://a" ∧ Absolute cs!"data:x" ∧ Absolute cs!"/a" ∧ Absolute cs!"#a" ∧ ¬ Absolute cs!"a/b:c" ∧ ¬ Absolute cs!"1:b" ∧ ¬ Absolute cs!"" := by
  simp only [← C73_absolute]; decide

end Verif.Urls
