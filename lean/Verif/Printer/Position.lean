import Verif.Modules.Model
import Mathlib.Tactic.Common
/-! Model of the low-level printer (src/printer.rs) and the property that its position counters are right. -/
namespace Verif.Printer
open Verif.Modules (bytes serIdent serName)

/-- src/printer.rs:66-92 the part of `Printer` that concerns positions. `line` and `col` are `u32` in the code and unbounded here
(they wrap only after 4 GiB of output). `indent` is a `u8`; additions wrap, as in a release build. `maps` are the entries
given to the source map. -/
structure Pos where
  out : Str := []
  line : Nat := 0
  col : Nat := 0
  indent : Nat := 0
  maps : List ((Nat × Nat) × Nat) := []
deriving DecidableEq, Repr

/-- src/printer.rs:145-149 `write_str` (also 437-441, the `fmt::Write` impl, through which the functions of cssparser write). -/
def writeStr (s : Str) (p : Pos) : Pos := { p with col := p.col + bytes s, out := p.out ++ s }

/-- src/printer.rs:152-167 the loop of `write_str_with_newlines`: the line, the column and `last_line_start` after the characters
of the string; `idx` is the byte index of the first of them. -/
def newlineLoop : Str → Nat → Nat × Nat × Nat → Nat × Nat × Nat
  | [], _, st => st
  | c :: s, idx, (line, col, start) =>
    newlineLoop s (idx + c.utf8Size) (if c = '\n' then (line + 1, 0, idx + 1) else (line, col, start))

/-- src/printer.rs:151-167 `write_str_with_newlines`. -/
def writeStrNl (s : Str) (p : Pos) : Pos :=
  let r := newlineLoop s 0 (p.line, p.col, 0)
  { p with line := r.1, col := r.2.1 + (bytes s - r.2.2), out := p.out ++ s }

/-- src/printer.rs:170-179 `write_char`. -/
def writeChar (c : Char) (p : Pos) : Pos :=
  if c = '\n' then { p with line := p.line + 1, col := 0, out := p.out ++ [c] }
  else { p with col := p.col + 1, out := p.out ++ [c] }

/-- src/printer.rs:185-191 `whitespace`. -/
def whitespace (minify : Bool) (p : Pos) : Pos := if minify then p else writeChar ' ' p

/-- src/printer.rs:195-201 `delim`. -/
def delim (minify : Bool) (c : Char) (before : Bool) (p : Pos) : Pos :=
  whitespace minify (writeChar c (if before then whitespace minify p else p))

/-- src/printer.rs:205-216 `newline`. -/
def newline (minify : Bool) (p : Pos) : Pos :=
  if minify then p
  else
    let p := writeChar '\n' p
    if p.indent > 0 then writeStr (List.replicate p.indent ' ') p else p

/-- src/printer.rs:294-322 `write_ident` for a renamed name: each segment of the pattern is written straight to the destination, the
first with `serialize_identifier` and the others with `serialize_name`, and counted with its unescaped length. -/
def writeSegs : List Str → Bool → Pos → Pos
  | [], _, p => p
  | s :: segs, first, p =>
    writeSegs segs false { p with col := p.col + bytes s, out := p.out ++ (if first then serIdent s else serName s) }

/-- The calls a serialiser can make. `ident` and `dashed` carry the segments of the renamed name if the name is renamed, else none.
src/printer.rs:145-355. -/
inductive Call
  | str (s : Str)
  | strNl (s : Str)
  | char (c : Char)
  | whitespace
  | delim (c : Char) (before : Bool)
  | newline
  | indentBy (n : Nat)
  | dedentBy (n : Nat)
  | ident (s : Str)
  | scopedIdent (segs : List Str)
  | dashed (s : Str)
  | scopedDashed (segs : List Str)
  | mapping (original : Nat)
deriving DecidableEq, Repr

/-- One call. `mapping` is src/printer.rs:248-288 `add_mapping` without an input source map. -/
def call (minify : Bool) (p : Pos) : Call → Pos
  | .str s => writeStr s p
  | .strNl s => writeStrNl s p
  | .char c => writeChar c p
  | .whitespace => whitespace minify p
  | .delim c b => delim minify c b p
  | .newline => newline minify p
  | .indentBy n => { p with indent := (p.indent + n) % 256 }
  | .dedentBy n => { p with indent := (p.indent + 256 - n % 256) % 256 }
  | .ident s => writeStr (serIdent s) p
  | .scopedIdent segs => writeSegs segs true p
  | .dashed s => writeStr (serName s) (writeStr cs!"--" p)
  | .scopedDashed segs => writeSegs segs false (writeStr cs!"--" p)
  | .mapping o => { p with maps := p.maps ++ [((p.line, p.col), o)] }

/-- A sequence of calls. -/
def calls (minify : Bool) (cs : List Call) (p : Pos) : Pos := cs.foldl (call minify) p

/-! ### Specification -/

/-- The line (counted from zero) at which a text ends: the number of newlines in it. -/
def endLine (s : Str) : Nat := s.count '\n'

/-- The column (in bytes, counted from zero) at which a text ends: the length of what follows its last newline. -/
def endCol (s : Str) : Nat := bytes (s.reverse.takeWhile (· ≠ '\n')).reverse

example : endLine cs!"a\nbc\nd" = 2 ∧ endCol cs!"a\nbc\ndéf" = 4 := by decide

/-- The text of a call has no line break. -/
def NoNl (s : Str) : Prop := '\n' ∉ s

/-- What the code requires of its callers: strings without line breaks (the comment at src/printer.rs:142-143), single characters
in ASCII, and renamed names that need no escape. -/
def Fine : Call → Prop
  | .str s => NoNl s
  | .char c => c.utf8Size = 1
  | .delim c _ => c.utf8Size = 1
  | .scopedIdent [] => True
  | .scopedIdent (s :: segs) => NoNl s ∧ serIdent s = s ∧ ∀ t ∈ segs, NoNl t ∧ serName t = t
  | .scopedDashed segs => ∀ t ∈ segs, NoNl t ∧ serName t = t
  | _ => True

/-! ### Lemmas -/

theorem bytes_append : ∀ a b : Str, bytes (a ++ b) = bytes a + bytes b
  | [], b => by simp [bytes]
  | c :: a, b => by simp [bytes, bytes_append a b]; omega

theorem bytes_reverse : ∀ a : Str, bytes a.reverse = bytes a
  | [] => rfl
  | c :: a => by simp [bytes_append, bytes, bytes_reverse a]; omega

theorem takeWhile_append_all {α : Type} (p : α → Bool) : ∀ a b : List α, (∀ x ∈ a, p x = true) → (a ++ b).takeWhile p = a ++ b.takeWhile p
  | [], _, _ => rfl
  | x :: a, b, h => by
    simp only [List.cons_append, List.takeWhile_cons, h x List.mem_cons_self, if_true]
    rw [takeWhile_append_all p a b (fun y hy => h y (List.mem_cons_of_mem _ hy))]

theorem endCol_append {a b : Str} (h : NoNl b) : endCol (a ++ b) = endCol a + bytes b := by
  unfold endCol
  rw [List.reverse_append, takeWhile_append_all]
  · rw [bytes_reverse, bytes_reverse, bytes_append, bytes_reverse]; omega
  · intro x hx
    simp only [List.mem_reverse] at hx
    simp only [ne_eq, decide_not, Bool.not_eq_eq_eq_not, Bool.not_true, decide_eq_false_iff_not]
    rintro rfl; exact h hx

theorem endLine_append (a b : Str) : endLine (a ++ b) = endLine a + endLine b := by simp [endLine]

theorem endLine_noNl {a : Str} (h : NoNl a) : endLine a = 0 := List.count_eq_zero.2 h

theorem endCol_nl (a : Str) : endCol (a ++ ['\n']) = 0 := by simp [endCol, bytes]

theorem noNl_spaces (n : Nat) : NoNl (List.replicate n ' ') := by
  intro h; have := List.eq_of_mem_replicate h; simp at this

theorem noNl_hexEscape (c : Char) (h : c.toNat < 256) : NoNl (Modules.hexEscape c) := by
  have key : ∀ n, n < 16 → Modules.hexDigit n ≠ '\n' := by decide
  unfold Modules.hexEscape NoNl
  split
  · have h1 := key (c.toNat / 16) (by omega)
    have h2 := key (c.toNat % 16) (by omega)
    simp [h1.symm, h2.symm]
  · next h => have h2 := key c.toNat (by omega)
              simp [h2.symm]

theorem noNl_nameChar (c : Char) : NoNl (Modules.nameChar c) := by
  unfold Modules.nameChar
  split
  · next h =>
    intro hm
    have : c = '\n' := by simpa [eq_comm] using hm
    subst this; revert h; decide
  · split
    · simp [NoNl]
    · next h0 =>
      split
      · next h => exact noNl_hexEscape c (by simp at h; omega)
      · next h =>
        intro hm
        have : c = '\n' := by simpa [eq_comm] using hm
        subst this; revert h; decide

theorem noNl_append {a b : Str} (ha : NoNl a) (hb : NoNl b) : NoNl (a ++ b) := by
  intro h; rcases List.mem_append.1 h with h | h
  · exact ha h
  · exact hb h

theorem noNl_serName (s : Str) : NoNl (serName s) := by
  intro h
  obtain ⟨c, _, hc⟩ := List.mem_flatMap.1 h
  exact noNl_nameChar c hc

theorem noNl_serDigit : ∀ s : Str, NoNl (Modules.serDigit s)
  | [] => by simp [Modules.serDigit, NoNl]
  | c :: s => by
    simp only [Modules.serDigit]
    split
    · next h =>
      refine noNl_append (noNl_hexEscape c ?_) (noNl_serName s)
      have := (Char.isDigit_iff_toNat.1 h).2
      have h9 : '9'.toNat = 57 := rfl
      omega
    · exact noNl_serName _

theorem noNl_serIdent (s : Str) : NoNl (serIdent s) := by
  unfold serIdent
  split
  · simp [NoNl]
  · next s => exact noNl_append (a := ['-', '-']) (by simp [NoNl]) (noNl_serName s)
  · simp [NoNl]
  · next s _ _ => exact noNl_append (a := ['-']) (by simp [NoNl]) (noNl_serDigit s)
  · exact noNl_serDigit _

/-- The position counters are right. -/
def Right (p : Pos) : Prop := p.line = endLine p.out ∧ p.col = endCol p.out

theorem right_writeStr {s : Str} {p : Pos} (hs : NoNl s) (h : Right p) : Right (writeStr s p) := by
  refine ⟨?_, ?_⟩
  · simp [writeStr, endLine_append, endLine_noNl hs, h.1]
  · simp [writeStr, endCol_append hs, h.2]

theorem right_writeChar {c : Char} {p : Pos} (hc : c.utf8Size = 1) (h : Right p) : Right (writeChar c p) := by
  unfold writeChar; split
  · next hn => subst hn; exact ⟨by simp [h.1, endLine], by simp [endCol_nl]⟩
  · next hn =>
    have hs : NoNl [c] := by simpa [NoNl, eq_comm] using hn
    refine ⟨by simp [endLine_append, endLine_noNl hs, h.1], ?_⟩
    simp only [endCol_append hs, h.2, bytes, hc]

theorem right_whitespace {m : Bool} {p : Pos} (h : Right p) : Right (whitespace m p) := by
  unfold whitespace; split
  · exact h
  · exact right_writeChar rfl h

/-- The loop of `write_str_with_newlines` finds the last line of the string. -/
theorem newlineLoop_spec : ∀ (s pre : Str) (l c st : Nat), st ≤ bytes pre →
    let r := newlineLoop s (bytes pre) (l, c, st)
    r.1 = l + endLine s ∧
    ((NoNl s ∧ r.2.1 = c ∧ r.2.2 = st) ∨ (¬ NoNl s ∧ r.2.1 = 0 ∧ r.2.2 ≤ bytes (pre ++ s) ∧ bytes (pre ++ s) - r.2.2 = endCol s))
  | [], pre, l, c, st, _ => by simp [newlineLoop, endLine, NoNl]
  | d :: s, pre, l, c, st, hst => by
    simp only [newlineLoop]
    have hb : bytes pre + d.utf8Size = bytes (pre ++ [d]) := by simp [bytes_append, bytes]
    rw [hb]
    by_cases hd : d = '\n'
    · subst hd
      simp only [if_true]
      have hle : bytes pre + 1 ≤ bytes (pre ++ ['\n']) := by simp [bytes_append, bytes, Char.utf8Size]
      obtain ⟨h1, h2⟩ := newlineLoop_spec s (pre ++ ['\n']) (l + 1) 0 (bytes pre + 1) hle
      refine ⟨by rw [h1]; simp [endLine]; omega, Or.inr ⟨by simp [NoNl], ?_⟩⟩
      have happ : pre ++ '\n' :: s = (pre ++ ['\n']) ++ s := by simp
      rcases h2 with ⟨hn, e1, e2⟩ | ⟨hn, e1, e2, e3⟩
      · refine ⟨e1, ?_, ?_⟩
        · rw [e2, happ, bytes_append]; omega
        · have h9 : bytes ['\n'] = 1 := by decide
          rw [e2, happ, bytes_append, bytes_append, h9]
          have : endCol ('\n' :: s) = bytes s := by
            have := endCol_append (a := ['\n']) hn
            simpa [endCol_nl [], show endCol ['\n'] = 0 by decide] using this
          rw [this]; omega
      · refine ⟨e1, by rw [happ]; exact e2, ?_⟩
        rw [happ, e3]
        have : ∀ a : Str, ¬ NoNl s → endCol (a ++ s) = endCol s := by
          intro a hs
          unfold endCol
          rw [List.reverse_append]
          have : ∃ x ∈ s.reverse, x = '\n' := by
            simp only [NoNl, not_not] at hs
            exact ⟨'\n', by simpa using hs, rfl⟩
          obtain ⟨x, hx, rfl⟩ := this
          have key : ∀ u v : Str, '\n' ∈ u → (u ++ v).takeWhile (· ≠ '\n') = u.takeWhile (· ≠ '\n') := by
            intro u
            induction u with
            | nil => intro v h; cases h
            | cons y u ih =>
              intro v h
              by_cases hy : y = '\n'
              · subst hy; simp
              · simp only [List.cons_append, List.takeWhile_cons]
                rw [ih v (by rcases List.mem_cons.1 h with h | h; exact absurd h.symm hy; exact h)]
          rw [key _ _ hx]
        rw [show '\n' :: s = ['\n'] ++ s from rfl, this _ hn]
    · simp only [hd, if_false]
      have hle : st ≤ bytes (pre ++ [d]) := by rw [bytes_append]; omega
      obtain ⟨h1, h2⟩ := newlineLoop_spec s (pre ++ [d]) l c st hle
      have happ : pre ++ d :: s = (pre ++ [d]) ++ s := by simp
      refine ⟨by rw [h1]; simp [endLine, hd], ?_⟩
      rcases h2 with ⟨hn, e1, e2⟩ | ⟨hn, e1, e2, e3⟩
      · exact Or.inl ⟨by simp only [NoNl, List.mem_cons, not_or]; exact ⟨fun h => hd h.symm, hn⟩, e1, e2⟩
      · refine Or.inr ⟨fun h => hn (fun hx => h (List.mem_cons_of_mem _ hx)), e1, by rw [happ]; exact e2, ?_⟩
        rw [happ, e3]
        unfold endCol
        have key : ∀ u v : Str, '\n' ∈ u → (u ++ v).takeWhile (· ≠ '\n') = u.takeWhile (· ≠ '\n') := by
          intro u
          induction u with
          | nil => intro v h; cases h
          | cons y u ih =>
            intro v h
            by_cases hy : y = '\n'
            · subst hy; simp
            · simp only [List.cons_append, List.takeWhile_cons]
              rw [ih v (by rcases List.mem_cons.1 h with h | h; exact absurd h.symm hy; exact h)]
        rw [List.reverse_cons, key _ _ (by simpa [NoNl] using hn)]

theorem right_writeStrNl {s : Str} {p : Pos} (h : Right p) : Right (writeStrNl s p) := by
  obtain ⟨h1, h2⟩ := newlineLoop_spec s [] p.line p.col 0 (Nat.zero_le _)
  simp only [bytes, List.nil_append] at h1 h2
  refine ⟨?_, ?_⟩
  · simp only [writeStrNl]; rw [h1, endLine_append, h.1]
  · simp only [writeStrNl]
    rcases h2 with ⟨hn, e1, e2⟩ | ⟨hn, e1, _, e3⟩
    · rw [e1, e2, endCol_append hn, h.2]; omega
    · rw [e1, e3]
      unfold endCol
      have key : ∀ u v : Str, '\n' ∈ u → (u ++ v).takeWhile (· ≠ '\n') = u.takeWhile (· ≠ '\n') := by
        intro u
        induction u with
        | nil => intro v h; cases h
        | cons y u ih =>
          intro v h
          by_cases hy : y = '\n'
          · subst hy; simp
          · simp only [List.cons_append, List.takeWhile_cons]
            rw [ih v (by rcases List.mem_cons.1 h with h | h; exact absurd h.symm hy; exact h)]
      rw [List.reverse_append, key _ _ (by simpa [NoNl] using hn)]
      omega

theorem right_writeSegs : ∀ (segs : List Str) (first : Bool) (p : Pos),
    (∀ s t, segs = s :: t → first = true → NoNl s ∧ serIdent s = s) →
    (∀ s ∈ (if first then segs.tail else segs), NoNl s ∧ serName s = s) → Right p → Right (writeSegs segs first p)
  | [], _, _, _, _, h => h
  | s :: segs, first, p, h1, h2, h => by
    simp only [writeSegs]
    have hs : NoNl s ∧ (if first then serIdent s else serName s) = s := by
      cases first with
      | true => simpa using h1 s segs rfl rfl
      | false => simpa using h2 s (by simp)
    refine right_writeSegs segs false _ (by simp) ?_ ?_
    · intro t ht
      refine h2 t ?_
      cases first with
      | true => simpa using ht
      | false => simpa using Or.inr ht
    · rw [hs.2]
      exact right_writeStr hs.1 h

theorem right_call {m : Bool} {p : Pos} {c : Call} (hc : Fine c) (h : Right p) : Right (call m p c) := by
  cases c with
  | str s => exact right_writeStr hc h
  | strNl s => exact right_writeStrNl h
  | char c => exact right_writeChar hc h
  | whitespace => exact right_whitespace h
  | delim c b =>
    refine right_whitespace (right_writeChar hc ?_)
    split
    · exact right_whitespace h
    · exact h
  | newline =>
    simp only [call, newline]
    split
    · exact h
    · split
      · exact right_writeStr (noNl_spaces _) (right_writeChar rfl h)
      · exact right_writeChar rfl h
  | indentBy n => exact h
  | dedentBy n => exact h
  | ident s => exact right_writeStr (noNl_serIdent _) h
  | scopedIdent segs =>
    cases segs with
    | nil => exact h
    | cons s segs =>
      refine right_writeSegs _ _ _ ?_ ?_ h
      · rintro _ _ ⟨⟩ _; exact ⟨hc.1, hc.2.1⟩
      · exact hc.2.2
  | dashed s => exact right_writeStr (noNl_serName _) (right_writeStr (by simp [NoNl]) h)
  | scopedDashed segs => exact right_writeSegs _ _ _ (by simp) hc (right_writeStr (by simp [NoNl]) h)
  | mapping o => exact h

theorem right_calls {m : Bool} : ∀ {cs : List Call} {p : Pos}, (∀ c ∈ cs, Fine c) → Right p → Right (calls m cs p)
  | [], _, _, h => h
  | c :: _, p, hc, h => by
    show Right (calls m _ (call m p c))
    exact right_calls (fun d hd => hc d (List.mem_cons_of_mem _ hd)) (right_call (hc c List.mem_cons_self) h)

/-! ### Calls only append -/

theorem writeSegs_maps : ∀ (segs : List Str) (f : Bool) (p : Pos), (writeSegs segs f p).maps = p.maps
  | [], _, _ => rfl
  | s :: segs, f, p => by simp only [writeSegs]; rw [writeSegs_maps]

theorem writeChar_maps (c : Char) (p : Pos) : (writeChar c p).maps = p.maps := by unfold writeChar; split <;> rfl

theorem whitespace_maps (m : Bool) (p : Pos) : (whitespace m p).maps = p.maps := by
  unfold whitespace; split
  · rfl
  · exact writeChar_maps _ _

theorem call_maps (m : Bool) (p : Pos) (c : Call) (hc : ∀ o, c ≠ .mapping o) : (call m p c).maps = p.maps := by
  cases c with
  | char c => exact writeChar_maps _ _
  | whitespace => exact whitespace_maps _ _
  | delim c b =>
    simp only [call, delim]
    rw [whitespace_maps, writeChar_maps]; split
    · exact whitespace_maps _ _
    · rfl
  | newline =>
    simp only [call, newline]; split
    · rfl
    · split
      · simp [writeStr, writeChar_maps]
      · exact writeChar_maps _ _
  | scopedIdent segs => exact writeSegs_maps _ _ _
  | scopedDashed segs => simp only [call]; rw [writeSegs_maps]; rfl
  | mapping o => exact absurd rfl (hc o)
  | _ => rfl

theorem calls_append (m : Bool) (a b : List Call) (p : Pos) : calls m (a ++ b) p = calls m b (calls m a p) := List.foldl_append

theorem calls_maps (m : Bool) : ∀ (cs : List Call) (p : Pos), ∃ l, (calls m cs p).maps = p.maps ++ l
  | [], p => ⟨[], by simp [calls]⟩
  | c :: cs, p => by
    obtain ⟨l, hl⟩ := calls_maps m cs (call m p c)
    by_cases hc : ∃ o, c = .mapping o
    · obtain ⟨o, rfl⟩ := hc
      refine ⟨((p.line, p.col), o) :: l, ?_⟩
      show (calls m cs (call m p (.mapping o))).maps = _
      rw [hl]; simp [call]
    · refine ⟨l, ?_⟩
      show (calls m cs (call m p c)).maps = _
      rw [hl, call_maps m p c (fun o h => hc ⟨o, h⟩)]

/-! ### The property -/

/-- **C35** For every sequence of printer calls that respects the requirements of the calls, the printer's position is the end of
what has been written. -/
theorem C35_position_partial (minify : Bool) (cs : List Call) (h : ∀ c ∈ cs, Fine c) :
    (calls minify cs {}).line = endLine (calls minify cs {}).out ∧ (calls minify cs {}).col = endCol (calls minify cs {}).out :=
  right_calls h ⟨rfl, rfl⟩

/-- **C35** so every source map entry is recorded with the position at which the text that follows it starts. -/
theorem C35_mapping_partial (minify : Bool) (before after : List Call) (original : Nat) (h : ∀ c ∈ before, Fine c) :
    ∃ l, (calls minify (before ++ .mapping original :: after) {}).maps =
      (calls minify before {}).maps ++
        ((endLine (calls minify before {}).out, endCol (calls minify before {}).out), original) :: l := by
  obtain ⟨h1, h2⟩ := C35_position_partial minify before h
  rw [calls_append]
  obtain ⟨l, hl⟩ := calls_maps minify after (call minify (calls minify before {}) (.mapping original))
  refine ⟨l, ?_⟩
  show (calls minify after (call minify (calls minify before {}) (.mapping original))).maps = _
  rw [hl]
  simp [call, h1, h2]

/-- Calls only append to the output, so the recorded position is that of the following text in the final output too. -/
theorem call_out (m : Bool) (p : Pos) (c : Call) : p.out <+: (call m p c).out := by
  have hch : ∀ (c : Char) (p : Pos), p.out <+: (writeChar c p).out := by
    intro c p; unfold writeChar; split <;> exact List.prefix_append _ _
  have hws : ∀ (p : Pos), p.out <+: (whitespace m p).out := by
    intro p; unfold whitespace; split
    · exact List.prefix_refl _
    · exact hch _ _
  have hst : ∀ (s : Str) (p : Pos), p.out <+: (writeStr s p).out := fun s p => List.prefix_append _ _
  have hsg : ∀ (segs : List Str) (f : Bool) (p : Pos), p.out <+: (writeSegs segs f p).out := by
    intro segs
    induction segs with
    | nil => intro f p; exact List.prefix_refl _
    | cons s segs ih => intro f p; simp only [writeSegs]; refine List.IsPrefix.trans ?_ (ih false _); exact List.prefix_append _ _
  cases c with
  | str s => exact hst _ _
  | strNl s => exact List.prefix_append _ _
  | char c => exact hch _ _
  | whitespace => exact hws _
  | delim c b =>
    refine List.IsPrefix.trans ?_ (hws _)
    refine List.IsPrefix.trans ?_ (hch _ _)
    split
    · exact hws _
    · exact List.prefix_refl _
  | newline =>
    simp only [call, newline]; split
    · exact List.prefix_refl _
    · split
      · exact (hch _ _).trans (hst _ _)
      · exact hch _ _
  | indentBy n => exact List.prefix_refl _
  | dedentBy n => exact List.prefix_refl _
  | ident s => exact hst _ _
  | scopedIdent segs => exact hsg _ _ _
  | dashed s => exact (hst _ _).trans (hst _ _)
  | scopedDashed segs => exact (hst _ _).trans (hsg _ _ _)
  | mapping o => exact List.prefix_refl _

theorem calls_out (m : Bool) : ∀ (cs : List Call) (p : Pos), p.out <+: (calls m cs p).out
  | [], _ => List.prefix_refl _
  | c :: cs, p => (call_out m p c).trans (calls_out m cs (call m p c))

/-- **C35** Earlier output is never changed. -/
theorem C35_append_only (minify : Bool) (before after : List Call) :
    (calls minify before {}).out <+: (calls minify (before ++ after) {}).out := by
  rw [calls_append]; exact calls_out _ _ _

/-- Printing `a {⏎  color: red;⏎}` after a licence comment, with mappings. -/
example :
    let cs : List Call := [.strNl cs!"/*! ⊕\nx */\n", .mapping 7, .scopedIdent [cs!"h", cs!"_a"], .whitespace, .char '{', .indentBy 2, .newline,
      .mapping 8, .str cs!"color", .delim ':' false, .str cs!"red", .char ';', .dedentBy 2, .newline, .char '}']
    (∀ c ∈ cs, Fine c) ∧ (calls false cs {}).out = cs!"/*! ⊕\nx */\nh_a {\n  color: red;\n}" ∧
      (calls false cs {}).maps = [((2, 0), 7), ((3, 2), 8)] ∧ (calls false cs {}).line = 4 ∧ (calls false cs {}).col = 1 := by
  refine ⟨?_, by decide +kernel, by decide +kernel, by decide +kernel, by decide +kernel⟩
  intro c hc
  simp only [List.mem_cons, List.not_mem_nil, or_false] at hc
  rcases hc with rfl | rfl | rfl | rfl | rfl | rfl | rfl | rfl | rfl | rfl | rfl | rfl | rfl | rfl | rfl <;>
    simp [Fine, NoNl, Modules.serIdent, Modules.serDigit, Modules.serName, Modules.nameChar] <;> decide

/-! ### Where the property fails -/

/-- A renamed name that needs an escape: the class `a:b` is written `h_a\:b`, one byte longer than counted. -/
theorem C35_escaped_name : (calls true [.scopedIdent [cs!"h", cs!"_a:b"]] {}).col = 5 ∧
    endCol (calls true [.scopedIdent [cs!"h", cs!"_a:b"]] {}).out = 6 := by decide +kernel

/-- A raw slice of the source written with `write_str`, as for the declaration of a `@supports` condition
(src/rules/supports.rs:356-385), contains the line breaks of the source. -/
theorem C35_raw_slice : (calls true [.str cs!"(a:\nb)"] {}).line = 0 ∧ endLine (calls true [.str cs!"(a:\nb)"] {}).out = 1 := by decide +kernel

/-- Characters outside ASCII written one at a time are counted as one byte (no caller in the code does this). -/
theorem C35_wide_char : (calls true [.char 'é'] {}).col = 1 ∧ endCol (calls true [.char 'é'] {}).out = 2 := by decide +kernel

end Verif.Printer
