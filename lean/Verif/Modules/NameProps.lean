import Verif.Modules.Spec
import Mathlib.Tactic.Common
/-! Names in the output read back as the exported names (C32), and hashes (C33). -/
namespace Verif.Modules

theorem hexDigit_val : ∀ n, n < 16 → isHex (hexDigit n) = true ∧ hexVal (hexDigit n) = n := by decide

theorem isName_plain (c : Char) : isName c = plain c := by
  unfold isName isNameStart plain
  cases c.isUpper <;> cases c.isLower <;> cases c.isDigit <;> cases decide (c = '_') <;> cases decide (c = '-') <;> simp

theorem not_hex_of_not_plain {c : Char} (h : plain c = false) : isHex c = false := by
  have hl : c.isLower = false := by revert h; unfold plain; cases c.isLower <;> simp
  have hu : c.isUpper = false := by revert h; unfold plain; cases c.isUpper <;> simp
  have hd : c.isDigit = false := by revert h; unfold plain; cases c.isDigit <;> simp
  unfold isHex
  rw [hd]
  simp only [Char.isLower, Char.isUpper, Bool.and_eq_false_iff, decide_eq_false_iff_not, Bool.false_or, Bool.or_eq_false_iff] at hl hu ⊢
  have key : ∀ x y : Char, x ≤ y ↔ x.val ≤ y.val := fun _ _ => Iff.rfl
  simp only [key, UInt32.le_iff_toNat_le] at hl hu ⊢
  have e : ∀ a : Char, a.val.toNat = a.toNat := fun _ => rfl
  have a1 : 'a'.val.toNat = 97 := rfl
  have a2 : 'f'.val.toNat = 102 := rfl
  have a3 : 'A'.val.toNat = 65 := rfl
  have a4 : 'F'.val.toNat = 70 := rfl
  rw [a1, a2, a3, a4]
  have b1 : (97 : UInt32).toNat = 97 := rfl
  have b2 : (122 : UInt32).toNat = 122 := rfl
  have d1 : 'z'.val.toNat = 122 := rfl
  have d2 : 'Z'.val.toNat = 90 := rfl
  have b3 : (65 : UInt32).toNat = 65 := rfl
  have b4 : (90 : UInt32).toNat = 90 := rfl
  omega

theorem reads_hexEscape {c : Char} {t n r : Str} (h0 : c.toNat ≠ 0) (h : c.toNat < 256) (ht : Reads t n r) : Reads (hexEscape c ++ t) (c :: n) r := by
  unfold hexEscape
  split
  · have h1 := hexDigit_val (c.toNat / 16) (by omega)
    have h2 := hexDigit_val (c.toNat % 16) (by omega)
    have := Reads.hexSpace [hexDigit (c.toNat / 16), hexDigit (c.toNat % 16)] ' ' t n r c (by simp) (by simp) (by simp [h1.1, h2.1]) rfl
      (by simp only [hexNumber, List.foldl_cons, List.foldl_nil, h1.2, h2.2]; omega) h0 ht
    simpa using this
  · have h1 := hexDigit_val c.toNat (by omega)
    have := Reads.hexSpace [hexDigit c.toNat] ' ' t n r c (by simp) (by simp) (by simp [h1.1]) rfl
      (by simp only [hexNumber, List.foldl_cons, List.foldl_nil, h1.2]; omega) h0 ht
    simpa using this

theorem nameChar_cases {c : Char} (h0 : c.toNat ≠ 0) : (plain c = true ∧ nameChar c = [c]) ∨ (plain c = false ∧ c.toNat < 256 ∧ nameChar c = hexEscape c) ∨
    (plain c = false ∧ c ≠ '\n' ∧ nameChar c = ['\\', c]) := by
  unfold nameChar
  cases hp : plain c
  · simp only [Bool.false_eq_true, if_false, if_neg h0]
    by_cases h2 : (decide (c.toNat < 32) || decide (c.toNat = 127)) = true
    · rw [if_pos h2]
      simp only [Bool.or_eq_true, decide_eq_true_eq] at h2
      exact .inr (.inl ⟨trivial, by omega, rfl⟩)
    · rw [if_neg h2]
      refine .inr (.inr ⟨trivial, ?_, rfl⟩)
      rintro rfl
      exact h2 (by decide)
  · simp

theorem reads_nameChar {c : Char} {t n r : Str} (h0 : c.toNat ≠ 0) (ht : Reads t n r) : Reads (nameChar c ++ t) (c :: n) r := by
  rcases nameChar_cases h0 with ⟨h, e⟩ | ⟨h, h1, e⟩ | ⟨h, h1, e⟩
  · rw [e]; exact .char c t n r ((isName_plain c).trans h) ht
  · rw [e]; exact reads_hexEscape h0 h1 ht
  · rw [e]; exact .escape c t n r (not_hex_of_not_plain h) h1 ht

/-- No NUL characters (they are replaced in any text before tokenizing, so no parsed name has any). -/
def NoNul (s : Str) : Prop := ∀ c ∈ s, c.toNat ≠ 0

theorem reads_serName : ∀ {s t n r : Str}, NoNul s → Reads t n r → Reads (serName s ++ t) (s ++ n) r
  | [], _, _, _, _, ht => ht
  | c :: s, t, n, r, h, ht => by
    have ih := reads_serName (s := s) (fun d hd => h d (List.mem_cons_of_mem _ hd)) ht
    have := reads_nameChar (h c (List.mem_cons_self ..)) ih
    simpa [serName] using this

theorem serDigit_cons (c : Char) (s : Str) : serDigit (c :: s) = if c.isDigit then hexEscape c ++ serName s else serName (c :: s) := rfl

theorem digit_lt {c : Char} (hc : c.isDigit = true) : c.toNat < 256 := by
  simp only [Char.isDigit, Bool.and_eq_true, decide_eq_true_eq, ge_iff_le, UInt32.le_iff_toNat_le] at hc
  have b2 : '9'.val.toNat = 57 := rfl
  have e : c.val.toNat = c.toNat := rfl
  omega

theorem reads_serDigit {s t n r : Str} (h : NoNul s) (ht : Reads t n r) : Reads (serDigit s ++ t) (s ++ n) r := by
  cases s with
  | nil => exact ht
  | cons c s =>
    rw [serDigit_cons]
    split
    · rename_i hc
      have := reads_hexEscape (h c (List.mem_cons_self ..)) (digit_lt hc) (reads_serName (s := s) (fun d hd => h d (List.mem_cons_of_mem _ hd)) ht)
      simpa using this
    · exact reads_serName h ht

theorem name_dash : isName '-' = true := by decide

theorem reads_serIdent {s t n r : Str} (h : NoNul s) (ht : Reads t n r) : Reads (serIdent s ++ t) (s ++ n) r := by
  unfold serIdent
  split
  · exact ht
  · rename_i s
    exact .char _ _ _ _ name_dash (.char _ _ _ _ name_dash (reads_serName (fun d hd => h d (by simp [hd])) ht))
  · exact .escape '-' _ _ _ (by decide) (by decide) ht
  · rename_i s _ _
    exact .char _ _ _ _ name_dash (reads_serDigit (fun d hd => h d (by simp [hd])) ht)
  · exact reads_serDigit h ht

/-- What an escape begins with. -/
theorem hexEscape_valid (c : Char) (hc : c.toNat < 256) (t : Str) : validEscape (hexEscape c ++ t) = true := by
  have : ∀ n, n < 16 → (hexDigit n != '\n') = true := by decide
  unfold hexEscape
  split
  · simp only [List.cons_append, validEscape]; exact this _ (by omega)
  · simp only [List.cons_append, validEscape]; exact this _ (by omega)

/-- Text that starts an identifier, or would with a dash before it. -/
def startsAny (t : Str) : Bool := (match t with | c :: _ => isNameStart c | [] => false) || validEscape t

theorem starts_serDigit {s t : Str} (h : NoNul s) (hne : s ≠ []) (hd : s.head? ≠ some '-') : startsAny (serDigit s ++ t) = true := by
  cases s with
  | nil => exact absurd rfl hne
  | cons c s =>
    rw [serDigit_cons]
    split
    · rename_i hc
      rw [List.append_assoc]
      simp only [startsAny, hexEscape_valid c (digit_lt hc), Bool.or_true]
    · rename_i hc
      simp only [List.head?_cons, ne_eq, Option.some.injEq] at hd
      rw [serName, List.flatMap_cons, List.append_assoc]
      rcases nameChar_cases (h c (List.mem_cons_self ..)) with ⟨hp, e⟩ | ⟨-, h1, e⟩ | ⟨-, h1, e⟩
      · have : isNameStart c = true := by
          simp only [isNameStart]
          simp only [plain] at hp
          simpa [hc, hd] using hp
        rw [e]
        simp [startsAny, this]
      · rw [e]
        simp only [startsAny, hexEscape_valid c h1, Bool.or_true]
      · rw [e]
        have : (c != '\n') = true := by rw [bne_iff_ne]; exact h1
        simp [startsAny, validEscape, this]

theorem serIdent_cases {s : Str} (hne : s ≠ []) : (∃ t, s = '-' :: '-' :: t ∧ serIdent s = '-' :: '-' :: serName t) ∨ (s = ['-'] ∧ serIdent s = ['\\', '-']) ∨
    (∃ t, s = '-' :: t ∧ t ≠ [] ∧ t.head? ≠ some '-' ∧ serIdent s = '-' :: serDigit t) ∨ (s.head? ≠ some '-' ∧ serIdent s = serDigit s) := by
  unfold serIdent
  split
  · exact absurd rfl hne
  · rename_i t; exact .inl ⟨t, rfl, rfl⟩
  · exact .inr (.inl ⟨rfl, rfl⟩)
  · rename_i t h1 h2
    refine .inr (.inr (.inl ⟨t, rfl, fun h => h2 h, ?_, rfl⟩))
    intro he
    cases t with
    | nil => simp at he
    | cons d t => simp only [List.head?_cons, Option.some.injEq] at he; subst he; exact h1 t rfl
  · rename_i h1 h2 h3 h4
    refine .inr (.inr (.inr ⟨?_, rfl⟩))
    intro he
    cases s with
    | nil => simp at he
    | cons d s => simp only [List.head?_cons, Option.some.injEq] at he; subst he; exact h4 s rfl

theorem starts_of_any {t : Str} (h : startsAny t = true) : startsIdent t = true := by
  cases t with
  | nil => simp [startsAny, validEscape] at h
  | cons c t =>
    unfold startsIdent
    split
    · rename_i h'
      simp only [List.cons.injEq] at h'
      obtain ⟨rfl, rfl⟩ := h'
      exfalso
      simp only [startsAny] at h
      have h1 : isNameStart '-' = false := by decide
      have h2 : validEscape ('-' :: t) = false := by cases t <;> rfl
      simp [h1, h2] at h
    · rename_i c' t' _ h'
      simp only [List.cons.injEq] at h'
      obtain ⟨rfl, rfl⟩ := h'
      exact h
    · simp_all

theorem starts_append {s : Str} (h : NoNul s) (hne : s ≠ []) (rest : Str) : startsIdent (serIdent s ++ rest) = true := by
  rcases serIdent_cases hne with ⟨t, rfl, e⟩ | ⟨rfl, e⟩ | ⟨t, rfl, h1, h2, e⟩ | ⟨h2, e⟩
  · rw [e]; simp [startsIdent]
  · rw [e]; simp [startsIdent, validEscape, isNameStart]
  · have : startsAny (serDigit t ++ rest) = true := starts_serDigit (fun d hd => h d (by simp [hd])) h1 h2
    rw [e]
    simp only [List.cons_append, startsIdent]
    simp only [startsAny] at this
    cases hx : serDigit t ++ rest with
    | nil => rw [hx] at this; simpa using this
    | cons d u =>
      rw [hx] at this
      simp only at this ⊢
      revert this
      cases isNameStart d <;> simp_all
  · rw [e]; exact starts_of_any (starts_serDigit h hne h2)

/-- **C32** A serialized identifier starts an identifier and reads as the identifier, whatever follows that does not continue it. -/
theorem C32_ident {s rest : Str} (h : NoNul s) (hne : s ≠ []) (hr : continues rest = false) :
    startsIdent (serIdent s ++ rest) = true ∧ Reads (serIdent s ++ rest) s rest :=
  ⟨starts_append h hne rest, by simpa using reads_serIdent h (.done rest hr)⟩

theorem reads_segs {src : Source} {loc : Str} {rest : Str} (hr : continues rest = false) : ∀ {segs : List Seg}, (∀ g ∈ segs, NoNul (segText src loc g)) →
    Reads ((segs.flatMap fun g => serName (segText src loc g)) ++ rest) (segs.flatMap (segText src loc)) rest
  | [], _ => .done rest hr
  | g :: segs, h => by
    have := reads_serName (h g (List.mem_cons_self ..)) (reads_segs hr (segs := segs) fun g' hg' => h g' (List.mem_cons_of_mem _ hg'))
    simpa using this

/-- **C32** The text of a scoped name starts an identifier and reads as the compiled name. -/
theorem C32_scoped_text {seg : Seg} {segs : List Seg} {src : Source} {s rest : Str} (h : ∀ g ∈ seg :: segs, NoNul (segText src s g)) (hne : segText src s seg ≠ [])
    (hr : continues rest = false) :
    startsIdent (identText (seg :: segs) src s ++ rest) = true ∧ Reads (identText (seg :: segs) src s ++ rest) (writeName (seg :: segs) src s) rest := by
  have h1 := h seg (List.mem_cons_self ..)
  constructor
  · rw [identText, List.append_assoc]
    exact starts_append h1 hne _
  · have := reads_serIdent h1 (reads_segs hr (segs := segs) (src := src) (loc := s) fun g hg => h g (List.mem_cons_of_mem _ hg))
    simpa [identText, writeName] using this

/-- The hypotheses are met by names that need escapes everywhere. -/
example : NoNul cs!"-1a b\n" ∧ continues cs!"{" = false ∧ serIdent cs!"-1a b\n" = cs!"-\\31 a\\ b\\a " := by
  refine ⟨?_, by decide, by decide⟩
  unfold NoNul
  decide

/-! ### Collisions -/

theorem flatMap_length (src : Source) (segs : List Seg) (a b : Str) (h : a.length = b.length) :
    (writeName segs src a).length = (writeName segs src b).length := by
  induction segs with
  | nil => rfl
  | cons g segs ih =>
    simp only [writeName, List.flatMap_cons, List.length_append] at ih ⊢
    rw [ih]
    cases g <;> simp [segText, h]

theorem length_writeName (src : Source) (segs : List Seg) : ∃ k n, (.loc ∈ segs → 0 < k) ∧ ∀ s, (writeName segs src s).length = n + k * s.length := by
  induction segs with
  | nil => exact ⟨0, 0, by simp, by simp [writeName]⟩
  | cons g segs ih =>
    obtain ⟨k, n, h1, h2⟩ := ih
    simp only [writeName] at h2
    cases g with
    | loc => exact ⟨k + 1, n, by simp, fun s => by simp [writeName, segText, h2, Nat.add_mul]; omega⟩
    | lit l => exact ⟨k, l.length + n, by simpa using h1, fun s => by simp [writeName, segText, h2]; omega⟩
    | name => exact ⟨k, src.stem.length + n, by simpa using h1, fun s => by simp [writeName, segText, h2]; omega⟩
    | hash => exact ⟨k, src.hash.length + n, by simpa using h1, fun s => by simp [writeName, segText, h2]; omega⟩
    | content => exact ⟨k, src.content.length + n, by simpa using h1, fun s => by simp [writeName, segText, h2]; omega⟩

/-- **C32** Two names of one file never get the same compiled name if the pattern contains `[local]`. -/
theorem C32_injective (segs : List Seg) (src : Source) (h : .loc ∈ segs) (a b : Str) (hab : writeName segs src a = writeName segs src b) : a = b := by
  have hl : a.length = b.length := by
    obtain ⟨k, n, h1, h2⟩ := length_writeName src segs
    have := congrArg List.length hab
    rw [h2, h2] at this
    exact Nat.eq_of_mul_eq_mul_left (h1 h) (by omega)
  induction segs with
  | nil => simp at h
  | cons g segs ih =>
    simp only [writeName, List.flatMap_cons] at hab
    have hg : (segText src a g).length = (segText src b g).length := by cases g <;> simp [segText, hl]
    obtain ⟨e1, e2⟩ := List.append_inj hab hg
    cases g with
    | loc => exact e1
    | lit _ | name | hash | content => exact ih (by simpa using h) e2

example : Seg.loc ∈ [Seg.hash, .lit cs!"_", .loc] := by decide

/-- Without `[local]` all names of a file are the same. -/
theorem C32_collision (src : Source) : writeName [.hash] src cs!"a" = writeName [.hash] src cs!"b" := rfl

/-! ### Hashes -/

theorem symbols_inj : ∀ m, m < 64 → ∀ n, n < 64 → symbols.getD m 'a' = symbols.getD n 'a' → m = n := by decide +kernel

theorem sextets_lt {b0 b1 b2 b3 : Nat} (h0 : b0 < 256) (h1 : b1 < 256) (h2 : b2 < 256) (h3 : b3 < 256) : ∀ n ∈ sextets b0 b1 b2 b3, n < 64 := by
  intro n hn
  simp only [sextets, List.mem_cons, List.not_mem_nil, or_false] at hn
  omega

theorem map_symbols_inj : ∀ {l m : List Nat}, (∀ n ∈ l, n < 64) → (∀ n ∈ m, n < 64) →
    (l.map fun n => symbols.getD n 'a') = (m.map fun n => symbols.getD n 'a') → l = m
  | [], [], _, _, _ => rfl
  | [], _ :: _, _, _, h => by simp at h
  | _ :: _, [], _, _, h => by simp at h
  | x :: l, y :: m, hl, hm, h => by
    simp only [List.map_cons, List.cons.injEq] at h
    rw [symbols_inj x (hl x (List.mem_cons_self ..)) y (hm y (List.mem_cons_self ..)) h.1,
      map_symbols_inj (fun n hn => hl n (List.mem_cons_of_mem _ hn)) (fun n hn => hm n (List.mem_cons_of_mem _ hn)) h.2]

/-- **C33** The text of a hash determines the 32 bits of the hash, also if some texts have an underscore in front. -/
theorem C33_injective (a b : Nat) (atStart : Bool) (ha : a < 2 ^ 32) (hb : b < 2 ^ 32) (h : hashText a atStart = hashText b atStart) : a = b := by
  have key : sextets (a % 256) (a / 256 % 256) (a / 65536 % 256) (a / 16777216 % 256) = sextets (b % 256) (b / 256 % 256) (b / 65536 % 256) (b / 16777216 % 256) := by
    refine map_symbols_inj (sextets_lt (by omega) (by omega) (by omega) (by omega)) (sextets_lt (by omega) (by omega) (by omega) (by omega)) ?_
    have hlen := congrArg List.length h
    simp only [hashText, sextets, List.map_cons, List.map_nil] at h hlen ⊢
    split at h <;> split at h
    · exact (List.cons.inj h).2
    · exact absurd (congrArg List.length h) (by simp)
    · exact absurd (congrArg List.length h) (by simp)
    · exact h
  have bytes4 : ∀ a0 a1 a2 a3 b0 b1 b2 b3 : Nat, a0 < 256 → a1 < 256 → a2 < 256 → a3 < 256 → b0 < 256 → b1 < 256 → b2 < 256 → b3 < 256 →
      sextets a0 a1 a2 a3 = sextets b0 b1 b2 b3 → a0 = b0 ∧ a1 = b1 ∧ a2 = b2 ∧ a3 = b3 := by
    intro a0 a1 a2 a3 b0 b1 b2 b3 _ _ _ _ _ _ _ _ h
    simp only [sextets, List.cons.injEq, and_true] at h
    omega
  obtain ⟨h0, h1, h2, h3⟩ := bytes4 _ _ _ _ _ _ _ _ (by omega) (by omega) (by omega) (by omega) (by omega) (by omega) (by omega) (by omega) key
  omega

theorem C33_shape (h : Nat) (atStart : Bool) :
    ((hashText h atStart).length = 6 ∨ atStart = true ∧ (hashText h atStart).length = 7) ∧ ∀ c ∈ hashText h atStart, isName c = true := by
  have hs : ∀ n, n < 64 → isName (symbols.getD n 'a') = true := by decide +kernel
  have hlt := sextets_lt (b0 := h % 256) (b1 := h / 256 % 256) (b2 := h / 65536 % 256) (b3 := h / 16777216 % 256) (by omega) (by omega) (by omega) (by omega)
  have hm : ∀ c ∈ (sextets (h % 256) (h / 256 % 256) (h / 65536 % 256) (h / 16777216 % 256)).map fun n => symbols.getD n 'a', isName c = true := by
    intro c hc
    obtain ⟨n, hn, rfl⟩ := List.mem_map.1 hc
    exact hs n (hlt n hn)
  simp only [hashText, sextets, List.map_cons, List.map_nil] at hm ⊢
  split
  · rename_i hd
    simp only [Bool.and_eq_true] at hd
    refine ⟨.inr ⟨hd.1, rfl⟩, fun c hc => ?_⟩
    rcases List.mem_cons.1 hc with rfl | hc
    · decide
    · exact hm c hc
  · exact ⟨.inl rfl, hm⟩

/-- **C33** A hash at the start of a name is no digit. (It can be a dash before a digit, see `C33_dash`.) -/
theorem C33_start_partial (h : Nat) : ∀ c, (hashText h true).head? = some c → c.isDigit = false := by
  intro c hc
  simp only [hashText, sextets, List.map_cons, List.map_nil, Bool.true_and] at hc
  split at hc
  · simp only [List.head?_cons, Option.some.injEq] at hc
    subst hc
    decide
  · rename_i hd
    simp only [List.head?_cons, Option.some.injEq] at hc
    subst hc
    simpa using hd

/-- A hash at the start of a name need not start an identifier: it can be a dash and a digit. -/
theorem C33_dash : hashText 16639 true = cs!"-1aaaa" ∧ startsIdent cs!"-1aaaa" = false := by decide +kernel

example : hashText 3735928559 true = cs!"_887T4G" := by decide +kernel
end Verif.Modules
