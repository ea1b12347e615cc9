import Verif.Common.Chars
/-!
Decimal notation: what Rust's `{}` writes for an unsigned integer, and reading it back.
-/
namespace Verif

/-- The character of a decimal digit. -/
def digitChar : Nat → Char
  | 0 => '0' | 1 => '1' | 2 => '2' | 3 => '3' | 4 => '4'
  | 5 => '5' | 6 => '6' | 7 => '7' | 8 => '8' | _ => '9'

/-- The value of a decimal digit. -/
def digitVal (c : Char) : Option Nat :=
  if '0' ≤ c ∧ c ≤ '9' then some (c.toNat - 48) else none

/-- Digits of `n` in front of `acc`; the first argument bounds the number of digits. -/
def showAux : Nat → Nat → Str → Str
  | 0, _, acc => acc
  | f + 1, n, acc =>
      if n < 10 then digitChar n :: acc else showAux f (n / 10) (digitChar (n % 10) :: acc)

/-- Decimal notation of a natural number, without leading zeros. -/
def showNat (n : Nat) : Str := showAux (n + 1) n []

/-- The number denoted by a list of digits, given the number denoted by those before it. -/
def readAux (acc : Nat) : Str → Option Nat
  | [] => some acc
  | c :: cs => match digitVal c with
      | some d => readAux (acc * 10 + d) cs
      | none => none

/-- The number denoted by a non-empty list of digits. -/
def readNat : Str → Option Nat
  | [] => none
  | s => readAux 0 s

theorem digitVal_digitChar {n : Nat} (h : n < 10) : digitVal (digitChar n) = some n := by
  have : ∀ n : Fin 10, digitVal (digitChar n.1) = some n.1 := by decide
  exact this ⟨n, h⟩

theorem showAux_acc (f n : Nat) (acc : Str) : showAux f n acc = showAux f n [] ++ acc := by
  induction f generalizing n acc with
  | zero => rfl
  | succ f ih =>
    simp only [showAux]
    split
    · rfl
    · rw [ih, ih (n / 10) [digitChar (n % 10)]]
      simp

theorem readAux_append (a : Nat) (xs ys : Str) :
    readAux a (xs ++ ys) = (readAux a xs).bind (readAux · ys) := by
  induction xs generalizing a with
  | nil => rfl
  | cons c cs ih =>
    simp only [List.cons_append, readAux]
    cases digitVal c with
    | none => rfl
    | some d => exact ih _

theorem readAux_showAux (f n : Nat) (h : n < f) : readAux 0 (showAux f n []) = some n := by
  induction f generalizing n with
  | zero => omega
  | succ f ih =>
    simp only [showAux]
    split
    · rename_i h'
      simp [readAux, digitVal_digitChar h']
    · rw [showAux_acc, readAux_append, ih _ (by omega)]
      simp only [Option.bind_some, readAux, digitVal_digitChar (Nat.mod_lt n (by omega : 10 > 0))]
      congr 1
      omega

theorem showAux_ne_nil (f n : Nat) : showAux (f + 1) n [] ≠ [] := by
  simp only [showAux]
  split
  · simp
  · rw [showAux_acc]; simp

theorem showNat_ne_nil (n : Nat) : showNat n ≠ [] := showAux_ne_nil n n

/-- Decimal notation reads back as the same number. -/
theorem readNat_showNat (n : Nat) : readNat (showNat n) = some n := by
  have h := readAux_showAux (n + 1) n (by omega)
  unfold readNat
  split
  · rename_i h'; exact absurd h' (showNat_ne_nil n)
  · exact h

theorem showNat_inj {m n : Nat} (h : showNat m = showNat n) : m = n := by
  have := congrArg readNat h
  rw [readNat_showNat, readNat_showNat] at this
  exact Option.some.inj this

/-- Is it a decimal digit? -/
def isDigit (c : Char) : Bool := (digitVal c).isSome

theorem showAux_digits (f n : Nat) : ∀ c ∈ showAux f n [], isDigit c = true := by
  induction f generalizing n with
  | zero => simp [showAux]
  | succ f ih =>
    simp only [showAux]
    split
    · rename_i h
      intro c hc
      simp only [List.mem_singleton] at hc
      subst hc
      simp [isDigit, digitVal_digitChar h]
    · intro c hc
      rw [showAux_acc] at hc
      rcases List.mem_append.1 hc with hc | hc
      · exact ih _ c hc
      · simp only [List.mem_singleton] at hc
        subst hc
        simp [isDigit, digitVal_digitChar (Nat.mod_lt n (by omega : 10 > 0))]

theorem showNat_digits (n : Nat) : ∀ c ∈ showNat n, isDigit c = true := showAux_digits (n + 1) n

/-- Split off the leading digits. -/
def spanDigits (s : Str) : Str × Str := s.span isDigit

theorem span_loop_eq {α} (p : α → Bool) (l acc : List α) :
    List.span.loop p l acc = (acc.reverse ++ l.takeWhile p, l.dropWhile p) := by
  induction l generalizing acc with
  | nil => simp [List.span.loop]
  | cons a l ih =>
    simp only [List.span.loop]
    cases h : p a <;> simp [h, ih]

theorem span_eq {α} (p : α → Bool) (l : List α) : l.span p = (l.takeWhile p, l.dropWhile p) := by
  simp [List.span, span_loop_eq]

/-- The digits of a number are split off exactly, if what follows does not start with a digit. -/
theorem spanDigits_showNat (n : Nat) (rest : Str) (h : ∀ c, rest.head? = some c → isDigit c = false) :
    spanDigits (showNat n ++ rest) = (showNat n, rest) := by
  rw [spanDigits, span_eq]
  have hd := showNat_digits n
  have e1 : (showNat n ++ rest).takeWhile isDigit = showNat n := by
    rw [List.takeWhile_append_of_pos hd]
    cases rest with
    | nil => simp
    | cons c cs => simp [h c rfl]
  have e2 : (showNat n ++ rest).dropWhile isDigit = rest := by
    rw [List.dropWhile_append_of_pos hd]
    cases rest with
    | nil => simp
    | cons c cs => simp [h c rfl]
  rw [e1, e2]

theorem spanDigits_nondigit (rest : Str) (h : ∀ c, rest.head? = some c → isDigit c = false) :
    spanDigits rest = ([], rest) := by
  rw [spanDigits, span_eq]
  cases rest with
  | nil => simp
  | cons c cs => simp [h c rfl]

/-- What Rust's `{}` writes for a signed integer. -/
def showInt (i : Int) : Str := if i < 0 then '-' :: showNat i.natAbs else showNat i.natAbs

/-- What Rust's `{:+}` writes for a signed integer. -/
def showIntPlus (i : Int) : Str := if i < 0 then '-' :: showNat i.natAbs else '+' :: showNat i.natAbs

example : showInt (-120) = cs!"-120" ∧ showIntPlus 7 = cs!"+7" ∧ readNat cs!"0123" = some 123 := by
  decide +kernel

end Verif
