import Verif.Selectors.Nth
/-!
# Selectors: printing `:nth-child()` and friends (C55)
-/
namespace Verif.Selectors.Nth

/-! ## Model -/

/-- `write_affine` (selectors/parser.rs:1324-1341). -/
def writeAffine (a b : Int) : Str :=
  if a = 0 ∧ b = 0 then cs!"0"
  else if a = 1 ∧ b = 0 then cs!"n"
  else if a = -1 ∧ b = 0 then cs!"-n"
  else if b = 0 then showInt a ++ cs!"n"
  else if a = 2 ∧ b = 1 then cs!"odd"
  else if a = 0 then showInt b
  else if a = 1 then cs!"n" ++ showIntPlus b
  else if a = -1 then cs!"-n" ++ showIntPlus b
  else showInt a ++ cs!"n" ++ showIntPlus b

/-- `write_start` (selectors/parser.rs:1305-1319). -/
def writeStart (ty : NthType) (isFunction : Bool) : Str :=
  match ty, isFunction with
  | .child, true => cs!":nth-child("
  | .child, false => cs!":first-child"
  | .lastChild, true => cs!":nth-last-child("
  | .lastChild, false => cs!":last-child"
  | .ofType, true => cs!":nth-of-type("
  | .ofType, false => cs!":first-of-type"
  | .lastOfType, true => cs!":nth-last-of-type("
  | .lastOfType, false => cs!":last-of-type"
  | .onlyChild, _ => cs!":only-child"
  | .onlyOfType, _ => cs!":only-of-type"
  | .col, _ => cs!":nth-col("
  | .lastCol, _ => cs!":nth-last-col("

/-- `NthSelectorData::is_function()` (selectors/parser.rs:1300-1302). -/
def NthData.isFn (d : NthData) : Bool := d.a != 0 || d.b != 1

/-- The `Nth` case of `Component::to_css` (selectors/parser.rs:2015-2022). -/
def writeNth (d : NthData) : Str :=
  writeStart d.ty (NthData.isFn d) ++
    (if NthData.isFn d then writeAffine d.a d.b ++ cs!")" else [])

/-! ## Specification: reading (CSS Syntax, the An+B microsyntax, without white space) -/

/-- An optional sign. -/
def readSign : Str → Int × Str
  | '+' :: s => (1, s)
  | '-' :: s => (-1, s)
  | s => (1, s)

/-- What may follow `n`: nothing, or a signed integer. -/
def readB : Str → Option Int
  | [] => some 0
  | '+' :: s => (readNat s).map fun (n : Nat) => (n : Int)
  | '-' :: s => (readNat s).map fun (n : Nat) => -(n : Int)
  | _ => none

/-- `<an+b>`: `odd`, `even`, an integer, or an optional sign and integer, `n`, and `readB`. -/
def readAnB (s : Str) : Option (Int × Int) :=
  if s = cs!"odd" then some (2, 1)
  else if s = cs!"even" then some (2, 0)
  else
    let (sign, rest) := readSign s
    let (digits, rest) := spanDigits rest
    match rest with
    | [] => (readNat digits).map fun (n : Nat) => (0, sign * n)
    | 'n' :: rest =>
        (readB rest).bind fun b =>
          if digits = [] then some (sign, b)
          else (readNat digits).map fun (n : Nat) => (sign * n, b)
    | _ => none

/-- The text up to a closing parenthesis that ends it. -/
def readClosed (s : Str) : Option Str :=
  if s.getLast? = some ')' then some s.dropLast else none

/-- Reading one of the pseudo-classes: which elements are counted, A and B (Selectors 4, section 14:
`:first-child` is `:nth-child(1)`, and so on). -/
def readNth (s : Str) : Option (NthType × Int × Int) :=
  let fn (ty : NthType) (n : Nat) : Option (NthType × Int × Int) :=
    (readClosed (s.drop n)).bind fun t => (readAnB t).map fun (a, b) => (ty, a, b)
  if s = cs!":first-child" then some (.child, 0, 1)
  else if s = cs!":last-child" then some (.lastChild, 0, 1)
  else if s = cs!":first-of-type" then some (.ofType, 0, 1)
  else if s = cs!":last-of-type" then some (.lastOfType, 0, 1)
  else if s = cs!":only-child" then some (.onlyChild, 0, 1)
  else if s = cs!":only-of-type" then some (.onlyOfType, 0, 1)
  else if cs!":nth-child(".isPrefixOf s then fn .child 11
  else if cs!":nth-last-child(".isPrefixOf s then fn .lastChild 16
  else if cs!":nth-of-type(".isPrefixOf s then fn .ofType 13
  else if cs!":nth-last-of-type(".isPrefixOf s then fn .lastOfType 18
  else if cs!":nth-col(".isPrefixOf s then fn .col 9
  else if cs!":nth-last-col(".isPrefixOf s then fn .lastCol 14
  else none

/-! ## Lemmas -/

theorem showNat_head (n : Nat) : ∃ c s, showNat n = c :: s ∧ isDigit c = true := by
  cases h : showNat n with
  | nil => exact absurd h (showNat_ne_nil n)
  | cons c s => exact ⟨c, s, rfl, showNat_digits n c (by simp [h])⟩

theorem isDigit_ne {c : Char} (h : isDigit c = true) : c ≠ '+' ∧ c ≠ '-' ∧ c ≠ 'o' ∧ c ≠ 'e' ∧ c ≠ 'n' := by
  refine ⟨?_, ?_, ?_, ?_, ?_⟩ <;> (rintro rfl; exact absurd h (by decide))

theorem readSign_showInt (i : Int) (rest : Str) :
    readSign (showInt i ++ rest) = (if i < 0 then -1 else 1, showNat i.natAbs ++ rest) := by
  unfold showInt
  split
  · rfl
  · obtain ⟨c, s, hs, hd⟩ := showNat_head i.natAbs
    rw [hs]
    obtain ⟨h1, h2, _⟩ := isDigit_ne hd
    simp only [List.cons_append]
    unfold readSign
    split
    · rename_i heq; simp only [List.cons.injEq] at heq; exact absurd heq.1 h1
    · rename_i heq; simp only [List.cons.injEq] at heq; exact absurd heq.1 h2
    · rfl

theorem showInt_ne (i : Int) (rest : Str) :
    showInt i ++ rest ≠ cs!"odd" ∧ showInt i ++ rest ≠ cs!"even" := by
  unfold showInt
  obtain ⟨c, s, hs, hd⟩ := showNat_head i.natAbs
  obtain ⟨_, _, h3, h4, _⟩ := isDigit_ne hd
  split <;> rw [hs] <;> constructor <;> intro h <;> simp only [List.cons_append, List.cons.injEq] at h
  · exact absurd h.1 (by decide)
  · exact absurd h.1 (by decide)
  · exact h3 h.1
  · exact h4 h.1

theorem sign_natAbs (i : Int) : (if i < 0 then (-1 : Int) else 1) * (i.natAbs : Int) = i := by
  split <;> omega

theorem readB_showIntPlus (b : Int) : readB (showIntPlus b) = some b := by
  unfold showIntPlus
  split
  · simp only [readB, readNat_showNat, Option.map_some]
    congr 1; omega
  · simp only [readB, readNat_showNat, Option.map_some]
    congr 1; omega

theorem readAnB_int (b : Int) : readAnB (showInt b) = some (0, b) := by
  unfold readAnB
  have h := showInt_ne b []
  rw [List.append_nil] at h
  rw [if_neg h.1, if_neg h.2]
  have hs := readSign_showInt b []
  rw [List.append_nil] at hs
  rw [hs]
  simp only
  rw [spanDigits_showNat _ _ (by simp)]
  simp only [readNat_showNat, Option.map_some, sign_natAbs]

theorem readAnB_a (a b : Int) (tail : Str) (h : readB tail = some b) :
    readAnB (showInt a ++ 'n' :: tail) = some (a, b) := by
  unfold readAnB
  have h' := showInt_ne a ('n' :: tail)
  rw [if_neg h'.1, if_neg h'.2, readSign_showInt]
  simp only
  rw [spanDigits_showNat _ _ (by intro c hc; simp at hc; subst hc; decide)]
  simp only [h, Option.bind_some, readNat_showNat, Option.map_some, sign_natAbs]
  rw [if_neg (showNat_ne_nil _)]

theorem readAnB_n (b : Int) (tail : Str) (h : readB tail = some b) :
    readAnB ('n' :: tail) = some (1, b) := by
  unfold readAnB
  rw [if_neg (by simp), if_neg (by simp)]
  rw [show readSign ('n' :: tail) = (1, 'n' :: tail) from rfl]
  simp only
  rw [spanDigits_nondigit _ (by intro c hc; simp at hc; subst hc; decide)]
  simp [h]

theorem readAnB_minus_n (b : Int) (tail : Str) (h : readB tail = some b) :
    readAnB ('-' :: 'n' :: tail) = some (-1, b) := by
  unfold readAnB
  rw [if_neg (by simp), if_neg (by simp)]
  rw [show readSign ('-' :: 'n' :: tail) = (-1, 'n' :: tail) from rfl]
  simp only
  rw [spanDigits_nondigit _ (by intro c hc; simp at hc; subst hc; decide)]
  simp [h]

/-! ## Properties -/

/-- C55. The printed An+B reads back as the same A and B, for all integers. -/
theorem affine_roundtrip (a b : Int) : readAnB (writeAffine a b) = some (a, b) := by
  unfold writeAffine
  split
  · rename_i h; obtain ⟨rfl, rfl⟩ := h; decide +kernel
  split
  · rename_i h; obtain ⟨rfl, rfl⟩ := h; exact readAnB_n 0 [] rfl
  split
  · rename_i h; obtain ⟨rfl, rfl⟩ := h; exact readAnB_minus_n 0 [] rfl
  split
  · rename_i h; subst h; exact readAnB_a a 0 [] rfl
  split
  · rename_i h; obtain ⟨rfl, rfl⟩ := h; rfl
  split
  · rename_i h; subst h; exact readAnB_int b
  split
  · rename_i h; subst h; exact readAnB_n b _ (readB_showIntPlus b)
  split
  · rename_i h; subst h; exact readAnB_minus_n b _ (readB_showIntPlus b)
  · rw [List.append_assoc]
    exact readAnB_a a b _ (readB_showIntPlus b)

theorem readClosed_append (s : Str) : readClosed (s ++ cs!")") = some s := by
  simp [readClosed]

/-- The data of one of the pseudo-classes that can be parsed: `:only-child` and `:only-of-type` take no
argument (selectors/parser.rs:1237-1246). -/
def Parsed (d : NthData) : Prop :=
  (d.ty = .onlyChild ∨ d.ty = .onlyOfType) → d.a = 0 ∧ d.b = 1

/-- C55. Every `:nth-…()`, `:first-…`, `:last-…` and `:only-…` pseudo-class reads back from its printed
form as the same kind of position with the same A and B.

Missing: `:nth-col(1)` and `:nth-last-col(1)`, which are printed without their closing parenthesis
(see `nth_col_one_wrong`). -/
theorem nth_roundtrip_partial (d : NthData) (hp : Parsed d)
    (hcol : (d.ty = .col ∨ d.ty = .lastCol) → NthData.isFn d = true) :
    readNth (writeNth d) = some (d.ty, d.a, d.b) := by
  obtain ⟨ty, f, a, b⟩ := d
  cases hf : NthData.isFn ⟨ty, f, a, b⟩ with
  | false =>
    have hab : a = 0 ∧ b = 1 := by simpa [NthData.isFn] using hf
    obtain ⟨rfl, rfl⟩ := hab
    simp only [writeNth, hf]
    cases ty
    case col => rw [hcol (.inl rfl)] at hf; cases hf
    case lastCol => rw [hcol (.inr rfl)] at hf; cases hf
    all_goals decide +kernel
  | true =>
    have hone : ty ≠ .onlyChild ∧ ty ≠ .onlyOfType := by
      constructor <;> rintro rfl
      · have := hp (.inl rfl); simp at this; simp [NthData.isFn, this] at hf
      · have := hp (.inr rfl); simp at this; simp [NthData.isFn, this] at hf
    simp only [writeNth, hf, if_true]
    cases ty
    case onlyChild => exact absurd rfl hone.1
    case onlyOfType => exact absurd rfl hone.2
    all_goals
      simp only [writeStart, readNth]
      generalize hw : writeAffine a b = w
      have hr : readAnB w = some (a, b) := hw ▸ affine_roundtrip a b
      simp [List.isPrefixOf, readClosed, hr]

/-- Counterexample: `:nth-col(1)` is printed as `:nth-col(`, which is not closed. -/
theorem nth_col_one_wrong : writeNth ⟨.col, true, 0, 1⟩ = cs!":nth-col(" ∧
    readNth (writeNth ⟨.col, true, 0, 1⟩) = none := by decide +kernel

/-- Non-vacuity. -/
example : Parsed ⟨.lastOfType, true, -3, 10⟩ ∧
    writeNth ⟨.lastOfType, true, -3, 10⟩ = cs!":nth-last-of-type(-3n+10)" ∧
    writeNth ⟨.child, true, 2, 1⟩ = cs!":nth-child(odd)" ∧
    writeNth ⟨.child, true, 0, 1⟩ = cs!":first-child" := by
  refine ⟨by simp [Parsed], ?_⟩
  decide +kernel

end Verif.Selectors.Nth
