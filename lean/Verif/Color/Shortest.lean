import Verif.Color.Props
/-!
C42: no hexadecimal notation of a colour is shorter than what is printed.
-/
namespace Verif.Color

theorem hexPad_length {w n : Nat} (h : n < 16 ^ w) (hw : w ≠ 0) : (hexPad w n).length = w := by
  rw [hexPad_eq h hw, List.length_map, fixed_length]

theorem compact_lt (v : Nat) : compactHex v < 16 ^ 4 := by
  rw [compactHex_eq]
  have h1 : v / 2 ^ 20 % 256 < 256 := Nat.mod_lt _ (by decide)
  have h2 : v / 2 ^ 4 % 256 < 256 := Nat.mod_lt _ (by decide)
  generalize v / 2 ^ 20 % 256 = x at *
  generalize v / 2 ^ 4 % 256 = y at *
  omega

theorem compact_lt24 {v : Nat} (h : v < 16 ^ 6) : compactHex v < 16 ^ 3 := by
  rw [compactHex_eq]
  have h0 : v / 2 ^ 20 < 16 := by
    rw [Nat.div_lt_iff_lt_mul (by decide)]; exact Nat.lt_of_lt_of_le h (by decide)
  have h1 : v / 2 ^ 20 % 256 < 16 := Nat.lt_of_le_of_lt (Nat.mod_le _ _) h0
  have h2 : v / 2 ^ 4 % 256 < 256 := Nat.mod_lt _ (by decide)
  generalize v / 2 ^ 20 % 256 = x at *
  generalize v / 2 ^ 4 % 256 = y at *
  omega

theorem name_length (v : Nat) (s : Str) (h : shortColorName v = some s) : s.length ≤ 6 := by
  unfold shortColorName at h
  split at h <;> simp only [Option.some.injEq, reduceCtorEq] at h <;> subst h <;> decide

/-- The only name of a colour with three doubled digits is `red`. -/
theorem name_length_short (v : Nat) (s : Str) (h : shortColorName v = some s) (hv : v = expandHex (compactHex v)) :
    s.length ≤ 4 := by
  unfold shortColorName at h
  split at h <;> simp only [Option.some.injEq, reduceCtorEq] at h <;> subst h <;>
    first | decide | (exfalso; revert hv; decide)

/-- What is printed for an opaque colour 0xRRGGBB. -/
def opaqueText (v : Nat) : Str :=
  match shortColorName v with
  | some name => name
  | none => if v = expandHex (compactHex v) then '#' :: hexPad 3 (compactHex v) else '#' :: hexPad 6 v

/-- What is printed for a colour 0xRRGGBBAA. -/
def alphaText (v : Nat) : Str :=
  if v = expandHex (compactHex v) then '#' :: hexPad 4 (compactHex v) else '#' :: hexPad 8 v

theorem print_eq (minify : Bool) (c : RGBA) : printColor minify true c =
    if c.alpha = 255 then opaqueText ((c.red.1 <<< 16) ||| (c.green.1 <<< 8) ||| c.blue.1)
    else alphaText ((c.red.1 <<< 24) ||| (c.green.1 <<< 16) ||| (c.blue.1 <<< 8) ||| c.alpha.1) := by
  simp only [printColor, Bool.not_true, Bool.false_eq_true, if_false, alphaText]
  congr 1

theorem opaque_length {v : Nat} (h : v < 16 ^ 6) : (opaqueText v).length ≤ 7 := by
  unfold opaqueText
  split
  · rename_i name hname
    exact Nat.le_succ_of_le (name_length _ _ hname)
  · split
    · rw [List.length_cons, hexPad_length (compact_lt24 h) (by decide)]; decide
    · rw [List.length_cons, hexPad_length h (by decide)]; decide

theorem opaque_length_short {v : Nat} (h : v < 16 ^ 6) (hv : v = expandHex (compactHex v)) :
    (opaqueText v).length ≤ 4 := by
  unfold opaqueText
  split
  · rename_i name hname
    exact name_length_short _ _ hname hv
  · rw [if_pos hv, List.length_cons, hexPad_length (compact_lt24 h) (by decide)]; decide

theorem alpha_length {v : Nat} (h : v < 16 ^ 8) : (alphaText v).length ≤ 9 := by
  unfold alphaText
  split
  · rw [List.length_cons, hexPad_length (compact_lt v) (by decide)]; decide
  · rw [List.length_cons, hexPad_length h (by decide)]; decide

theorem alpha_length_short {v : Nat} (hv : v = expandHex (compactHex v)) : (alphaText v).length ≤ 5 := by
  unfold alphaText
  rw [if_pos hv, List.length_cons, hexPad_length (compact_lt v) (by decide)]; decide

theorem double24 (r g b : Fin 16) (v : Nat) (e : v = 0 * 268435456 + 0 * 16777216 +
        r.1 * 1048576 + r.1 * 65536 + g.1 * 4096 + g.1 * 256 + b.1 * 16 + b.1) :
    v = expandHex (compactHex v) := by
  subst e
  rw [compact_nibbles b.2 b.2 g.2 g.2 r.2 r.2 (by decide), expand_nibbles b.2 g.2 r.2 (by decide)]
  omega

theorem double32 (r g b a : Fin 16) (v : Nat) (e : v = r.1 * 268435456 + r.1 * 16777216 +
        g.1 * 1048576 + g.1 * 65536 + b.1 * 4096 + b.1 * 256 + a.1 * 16 + a.1) :
    v = expandHex (compactHex v) := by
  subst e
  rw [compact_nibbles a.2 a.2 b.2 b.2 g.2 g.2 r.2, expand_nibbles a.2 b.2 g.2 r.2]
  omega

theorem byte_val (h l : Fin 16) : (byte h l).1 = 16 * h.1 + l.1 := rfl

theorem lt24 (r g b : Fin 256) : (r.1 <<< 16) ||| (g.1 <<< 8) ||| b.1 < 16 ^ 6 := by
  rw [hex24]
  have := r.2; have := g.2; have := b.2
  generalize r.1 = x at *; generalize g.1 = y at *; generalize b.1 = z at *
  omega

theorem lt32 (r g b a : Fin 256) : (r.1 <<< 24) ||| (g.1 <<< 16) ||| (b.1 <<< 8) ||| a.1 < 16 ^ 8 := by
  rw [hex32]
  have := r.2; have := g.2; have := b.2; have := a.2
  generalize r.1 = x at *; generalize g.1 = y at *; generalize b.1 = z at *; generalize a.1 = w at *
  omega

theorem eq24 (r g b : Fin 16) : ((byte r r).1 <<< 16) ||| ((byte g g).1 <<< 8) ||| (byte b b).1 =
    0 * 268435456 + 0 * 16777216 + r.1 * 1048576 + r.1 * 65536 + g.1 * 4096 + g.1 * 256 + b.1 * 16 + b.1 := by
  rw [hex24]; simp only [byte_val]
  generalize r.1 = x; generalize g.1 = y; generalize b.1 = z
  omega

theorem eq32 (r g b a : Fin 16) :
    ((byte r r).1 <<< 24) ||| ((byte g g).1 <<< 16) ||| ((byte b b).1 <<< 8) ||| (byte a a).1 =
    r.1 * 268435456 + r.1 * 16777216 +
        g.1 * 1048576 + g.1 * 65536 + b.1 * 4096 + b.1 * 256 + a.1 * 16 + a.1 := by
  rw [hex32]; simp only [byte_val]
  generalize r.1 = x; generalize g.1 = y; generalize b.1 = z; generalize a.1 = w
  omega

/-- C42 (shortest): a hexadecimal notation of the colour is never shorter than what is printed, if the
targets allow hexadecimal notation with alpha. -/
theorem color_hex_shortest (minify : Bool) (ds : List (Fin 16)) (c : RGBA) (h : ofDigits ds = some c) :
    (printColor minify true c).length ≤ ds.length + 1 := by
  rw [print_eq]
  unfold ofDigits at h
  split at h
  · rename_i r g b
    simp only [Option.some.injEq] at h
    subst h
    rw [if_pos rfl]
    exact opaque_length_short (lt24 _ _ _) (double24 r g b _ (eq24 r g b))
  · rename_i r g b a
    simp only [Option.some.injEq] at h
    subst h
    split
    · exact Nat.le_trans (opaque_length_short (lt24 _ _ _) (double24 r g b _ (eq24 r g b))) (by simp)
    · exact alpha_length_short (double32 r g b a _ (eq32 r g b a))
  · simp only [Option.some.injEq] at h
    subst h
    rw [if_pos rfl]
    exact opaque_length (lt24 _ _ _)
  · simp only [Option.some.injEq] at h
    subst h
    split
    · exact Nat.le_trans (opaque_length (lt24 _ _ _)) (by simp)
    · exact alpha_length (lt32 _ _ _ _)
  · simp at h

example : ofDigits [15, 15, 15, 15, 0, 0] = some ⟨255, 255, 0, 255⟩ := by decide

end Verif.Color
