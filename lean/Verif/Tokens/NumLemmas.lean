import Verif.Tokens.PrintLemmas
/-! What printed numbers are read as. -/
namespace Verif.Tokens
open Verif.Modules (isHex isWs isNameStart isName validEscape continues startsIdent hexNumber Reads hexEscape serName serIdent hexDigit hexDigit_val
  plain isName_plain not_hex_of_not_plain)

/-- Text that does not continue a number. -/
structure NumEnd (r : Str) : Prop where
  digit : digitAhead r = false
  dot : ∀ t, r = '.' :: t → digitAhead t = false
  exp : takeExp r = (false, [], r)

theorem takeDigits_append {a b : Str} (ha : Digits a) (hb : digitAhead b = false) : takeDigits (a ++ b) = (a, b) := by
  have h1 : b.takeWhile Char.isDigit = [] ∧ b.dropWhile Char.isDigit = b := by
    cases b with
    | nil => simp
    | cons c b => simp only [digitAhead] at hb; simp [List.takeWhile, List.dropWhile, hb]
  rw [takeDigits, takeWhile_append_of ha, dropWhile_append_of ha, h1.1, h1.2, List.append_nil]

/-- The text of an exponent. -/
def expText : Option (Bool × Str) → Str
  | none => []
  | some (neg, ds) => 'e' :: (if neg then '-' :: ds else ds)

/-- The exponent. -/
def expValue : Option (Bool × Str) → Bool × Str
  | none => (false, [])
  | some p => p

theorem digits_cons {ds : Str} (h1 : Digits ds) (h2 : ds ≠ []) (r : Str) : ∃ d u, ds ++ r = d :: u ∧ d.isDigit = true := by
  cases ds with
  | nil => exact absurd rfl h2
  | cons d ds => exact ⟨d, ds ++ r, rfl, h1 d (List.mem_cons_self ..)⟩

theorem takeExp_text {e : Option (Bool × Str)} (he : ∀ neg ds, e = some (neg, ds) → Digits ds ∧ ds ≠ []) {r : Str} (hr : NumEnd r) :
    takeExp (expText e ++ r) = ((expValue e).1, (expValue e).2, r) := by
  cases e with
  | none => exact hr.exp
  | some p =>
    obtain ⟨neg, ds⟩ := p
    obtain ⟨h1, h2⟩ := he neg ds rfl
    obtain ⟨d, u, e, hd⟩ := digits_cons h1 h2 r
    have ht := takeDigits_append h1 hr.digit
    have hs : takeSign ((if neg then '-' :: ds else ds) ++ r) = (neg, ds ++ r) := by
      cases neg with
      | true => rfl
      | false =>
        simp only [Bool.false_eq_true, if_false]
        rw [e, takeSign]
        · rintro t h; simp only [List.cons.injEq] at h; obtain ⟨rfl, -⟩ := h; simp at hd
        · rintro t h; simp only [List.cons.injEq] at h; obtain ⟨rfl, -⟩ := h; simp at hd
    have hda : digitAhead (ds ++ r) = true := by rw [e]; exact hd
    simp only [expText, expValue, List.cons_append]
    simp only [takeExp, hs, hda, ht]
    simp

theorem expText_end {e : Option (Bool × Str)} {r : Str} (hr : NumEnd r) : digitAhead (expText e ++ r) = false ∧
    ∀ t, expText e ++ r = '.' :: t → digitAhead t = false := by
  cases e with
  | none => exact ⟨hr.digit, hr.dot⟩
  | some p => obtain ⟨neg, ds⟩ := p; simp [expText, digitAhead]

theorem takeFrac_text {f : Str} (hf : Digits f) {r : Str} (hr : digitAhead r = false ∧ ∀ t, r = '.' :: t → digitAhead t = false) :
    takeFrac ((if f = [] then [] else '.' :: f) ++ r) = (f, r) := by
  by_cases h : f = []
  · subst h
    simp only [if_true, List.nil_append]
    unfold takeFrac
    split
    · rename_i t; rw [hr.2 t rfl]; rfl
    · rfl
  · obtain ⟨d, u, e, hd⟩ := digits_cons hf h r
    have ht := takeDigits_append hf hr.1
    rw [if_neg h, List.cons_append, takeFrac]
    rw [e] at ht ⊢
    simp [digitAhead, hd, ht]

/-- A number with its parts written one after the other is read as its value. -/
theorem takeNumber_text {neg plus : Bool} {int frac : Str} {e : Option (Bool × Str)} (h1 : Digits int) (h2 : Digits frac) (h3 : int ≠ [] ∨ frac ≠ [])
    (he : ∀ neg ds, e = some (neg, ds) → Digits ds ∧ ds ≠ []) {r : Str} (hr : NumEnd r) :
    startsNumber ((if neg then ['-'] else if plus then ['+'] else []) ++ (int ++ ((if frac = [] then [] else '.' :: frac) ++ (expText e ++ r)))) = true ∧
    takeNumber ((if neg then ['-'] else if plus then ['+'] else []) ++ (int ++ ((if frac = [] then [] else '.' :: frac) ++ (expText e ++ r)))) =
      (numValue neg int frac (expValue e).1 (expValue e).2, r) := by
  have a1 := takeFrac_text h2 (expText_end (e := e) hr)
  generalize hf : (if frac = [] then [] else '.' :: frac) ++ (expText e ++ r) = f at a1
  have hd : digitAhead f = false := by
    rw [← hf]
    split
    · exact (expText_end hr).1
    · simp [digitAhead]
  have a2 := takeDigits_append h1 hd
  have hx : ∃ d u, int ++ f = d :: u ∧ (d.isDigit = true ∨ d = '.' ∧ digitAhead u = true) := by
    by_cases hi : int = []
    · have h3 := h3.resolve_left (fun h => h hi)
      rw [hi]
      obtain ⟨d, u, e', hd⟩ := digits_cons h2 h3 (expText e ++ r)
      rw [if_neg h3, List.cons_append, e'] at hf
      exact ⟨'.', d :: u, by rw [← hf]; rfl, .inr ⟨rfl, by simpa [digitAhead] using hd⟩⟩
    · obtain ⟨d, u, e, hd⟩ := digits_cons h1 hi f
      exact ⟨d, u, e, .inl hd⟩
  obtain ⟨d, u, e', hx⟩ := hx
  have n1 : d ≠ '-' := by rintro rfl; simp at hx
  have n2 : d ≠ '+' := by rintro rfl; simp at hx
  have hs : takeSign ((if neg then ['-'] else if plus then ['+'] else []) ++ (int ++ f)) = (neg, int ++ f) := by
    cases neg with
    | true => rfl
    | false =>
      cases plus with
      | true => rfl
      | false =>
        simp only [Bool.false_eq_true, if_false, List.nil_append]
        rw [e', takeSign]
        · rintro t h; simp only [List.cons.injEq] at h; exact n1 h.1
        · rintro t h; simp only [List.cons.injEq] at h; exact n2 h.1
  constructor
  · rw [e']
    have hm : dotDigit (d :: u) = true := by
      unfold dotDigit
      split
      · rename_i h
        simp only [List.cons.injEq] at h
        obtain ⟨rfl, rfl⟩ := h
        rcases hx with h | h
        · simp at h
        · exact h.2
      · rename_i h
        rcases hx with h' | ⟨rfl, _⟩
        · exact h'
        · exact absurd rfl (h u)
    cases neg with
    | true => simp only [if_true, List.cons_append, List.nil_append, startsNumber, hm]; simp
    | false =>
      cases plus with
      | true => simp only [Bool.false_eq_true, if_false, if_true, List.cons_append, List.nil_append, startsNumber, hm]; simp
      | false =>
        simp only [Bool.false_eq_true, if_false, List.nil_append, startsNumber]
        rcases hx with h | ⟨rfl, h⟩
        · rw [h]; rfl
        · rw [h]; rfl
  · unfold takeNumber
    rw [hs]
    simp only [a2, a1]
    rw [takeExp_text he hr]

theorem tail_eq (n : Num) : n.tail = (if n.frac = [] then [] else '.' :: n.frac) ++ expText n.exp := by
  unfold Num.tail expText
  rcases n.exp with _ | ⟨neg, ds⟩ <;> rfl

theorem value_eq (n : Num) : n.value = numValue n.neg n.int n.frac (expValue n.exp).1 (expValue n.exp).2 := by
  unfold Num.value expValue
  rcases n.exp with _ | ⟨neg, ds⟩ <;> rfl

theorem trimZeros_digits {n : Num} (h : n.Ok) (hs : n.small = true) (u : Str) :
    trimZeros (n.int ++ (n.tail ++ u)) = (if n.int = ['0'] then [] else n.int) ++ (n.tail ++ u) := by
  by_cases hi : n.int = ['0']
  · have hf := h.small hs hi
    rw [if_pos hi, hi, tail_eq, if_neg hf]
    simp [trimZeros, List.dropWhile]
  · have hl := h.lead.resolve_left hi
    rw [if_neg hi]
    cases hn : n.int with
    | nil => exact absurd hn h.int.2
    | cons d ds =>
      rw [hn] at hl
      simp only [List.head?_cons, ne_eq, Option.some.injEq] at hl
      simp [trimZeros, List.dropWhile, hl]

/-- The digits that are printed before the point. -/
def intText (n : Num) : Str := if n.small = true ∧ n.int = ['0'] then [] else n.int

theorem printNumber_eq {n : Num} (h : n.Ok) (u : Str) : printNumber n ++ u = (if n.neg then ['-'] else []) ++ (intText n ++ (n.tail ++ u)) := by
  have hh : ∃ d ds, n.int = d :: ds ∧ d ≠ '-' := by
    cases hn : n.int with
    | nil => exact absurd hn h.int.2
    | cons d ds =>
      refine ⟨d, ds, rfl, ?_⟩
      rintro rfl
      have := h.int.1 '-' (by simp [hn])
      simp at this
  obtain ⟨d, ds, e, hd⟩ := hh
  unfold printNumber intText
  cases hs : n.small with
  | false => simp [Num.dtoa]
  | true =>
    have ht := trimZeros_digits h hs []
    simp only [List.append_nil] at ht
    simp only [if_true, true_and]
    cases hn : n.neg with
    | false => simp only [Num.dtoa, hn, Bool.false_eq_true, if_false, List.nil_append]; rw [ht]; simp
    | true =>
      have : trimDashes n.dtoa = n.int ++ n.tail := by
        simp [trimDashes, Num.dtoa, hn, List.dropWhile, e, hd]
      simp only [if_true]
      rw [this, ht]; simp

theorem trimZeros_append {n : Num} (h : n.Ok) (hs : n.small = true) (u : Str) : trimZeros (n.int ++ (n.tail ++ u)) = trimZeros (n.int ++ n.tail) ++ u := by
  have := trimZeros_digits h hs []
  simp only [List.append_nil] at this
  rw [trimZeros_digits h hs u, this, List.append_assoc]

theorem printDimension_eq {n : Num} (h : n.Ok) (hneg : n.small = true → n.neg = true → n.int = ['0']) (unit u : Str) :
    printDimension n unit ++ u = (if n.neg then ['-'] else []) ++ (intText n ++ (n.tail ++ (printUnit unit ++ u))) := by
  unfold printDimension intText
  cases hs : n.small with
  | false => simp [Num.dtoa]
  | true =>
    simp only [if_true, true_and]
    cases hn : n.neg with
    | false =>
      simp only [Num.dtoa, hn, Bool.false_eq_true, if_false, List.nil_append, List.append_assoc]
      rw [trimZeros_digits h hs]
      simp
    | true =>
      have hi := hneg hs hn
      have hf := h.small hs hi
      simp only [if_true, Num.dtoa, hn, hi, List.cons_append, List.nil_append, trimDashZero]
      rw [tail_eq, if_neg hf]
      simp [trimDashZero]

theorem intText_ok {n : Num} (h : n.Ok) : Digits (intText n) ∧ (intText n ≠ [] ∨ n.frac ≠ []) ∧
    ∀ a b c, numValue n.neg (intText n) a b c = numValue n.neg n.int a b c := by
  unfold intText
  split
  · rename_i hs
    refine ⟨by simp [Digits], .inr (h.small hs.1 hs.2), fun a b c => ?_⟩
    rw [hs.2]
    rfl
  · exact ⟨h.int.1, .inl h.int.2, fun _ _ _ => rfl⟩

theorem printNumber_read {n : Num} (h : n.Ok) {r : Str} (hr : NumEnd r) :
    startsNumber (printNumber n ++ r) = true ∧ takeNumber (printNumber n ++ r) = (n.value, r) := by
  obtain ⟨h1, h2, h3⟩ := intText_ok h
  have := takeNumber_text (neg := n.neg) (plus := false) h1 h.frac h2 h.exp hr
  simp only [Bool.false_eq_true, if_false] at this
  rw [printNumber_eq h, tail_eq, List.append_assoc, value_eq, ← h3]
  exact this

theorem printDimension_read {n : Num} (h : n.Ok) (hneg : n.small = true → n.neg = true → n.int = ['0']) {unit r : Str} (hr : NumEnd (printUnit unit ++ r)) :
    startsNumber (printDimension n unit ++ r) = true ∧ takeNumber (printDimension n unit ++ r) = (n.value, printUnit unit ++ r) := by
  obtain ⟨h1, h2, h3⟩ := intText_ok h
  have := takeNumber_text (neg := n.neg) (plus := false) h1 h.frac h2 h.exp hr
  simp only [Bool.false_eq_true, if_false] at this
  rw [printDimension_eq h hneg, tail_eq, List.append_assoc, value_eq, ← h3]
  exact this

theorem writeNumeric_read {plus dotZero : Bool} {n : Num} (h : n.Ok) {r : Str} (hr : NumEnd r) :
    startsNumber (writeNumeric plus dotZero n ++ r) = true ∧ takeNumber (writeNumeric plus dotZero n ++ r) = (n.value, r) := by
  have key : ∀ x : Str, (if plus && !n.neg then ['+'] else []) ++ n.dtoa ++ x =
      (if n.neg then ['-'] else if plus then ['+'] else []) ++ (n.int ++ (n.tail ++ x)) := by
    intro x
    cases plus <;> cases hn : n.neg <;> simp [Num.dtoa, hn]
  rw [writeNumeric, List.append_assoc, key, tail_eq, value_eq, List.append_assoc]
  by_cases hz : (dotZero && decide (n.frac = []) && decide (n.exp = none)) = true
  · simp only [Bool.and_eq_true, decide_eq_true_eq] at hz
    have := takeNumber_text (neg := n.neg) (plus := plus) (int := n.int) (frac := ['0']) (e := none) h.int.1 (by simp [Digits]) (.inl h.int.2) (by simp) hr
    have e : (dotZero && decide (n.frac = []) && decide (n.exp = none)) = true := by simp [hz]
    rw [e]
    rw [hz.1.2, hz.2]
    simp only [List.cons_ne_nil, if_false, if_true, expText, List.nil_append, List.cons_append] at this ⊢
    refine ⟨this.1, this.2.trans ?_⟩
    simp [numValue, digitsNat, expValue]
  · rw [if_neg hz, List.nil_append]
    exact takeNumber_text (neg := n.neg) (plus := plus) h.int.1 h.frac (.inl h.int.2) h.exp hr
end Verif.Tokens
