import Verif.UniRange.Model
/-!
`<urange>` (CSS Syntax 3, §7.1): the code points a text stands for.
-/
namespace Verif.UniRange.Spec
open Verif.UniRange

/-- The value of a hexadecimal digit. -/
inductive Digit : Char → Nat → Prop
  | dec {c d} : d < 10 → c.toNat = '0'.toNat + d → Digit c d
  | upper {c d} : 10 ≤ d → d < 16 → c.toNat = 'A'.toNat + (d - 10) → Digit c d
  | lower {c d} : 10 ≤ d → d < 16 → c.toNat = 'a'.toNat + (d - 10) → Digit c d

/-- The value of hexadecimal digits (the last one is the lowest). -/
inductive Hex : Str → Nat → Prop
  | nil : Hex [] 0
  | snoc {s v c d} : Hex s v → Digit c d → Hex (s ++ [c]) (v * 16 + d)

/-- `U+` followed by one to six hexadecimal digits, by up to six digits and question marks, or by two groups of digits with a
hyphen; question marks stand for all digits. The end has to be a code point and not less than the start. -/
inductive URangeG : Str → URange → Prop
  | single {u h v} : (u = 'U' ∨ u = 'u') → Hex h v → 1 ≤ h.length → h.length ≤ 6 → v ≤ 0x10FFFF → URangeG (u :: '+' :: h) ⟨v, v⟩
  | wild {u h v q} : (u = 'U' ∨ u = 'u') → Hex h v → 1 ≤ q → h.length + q ≤ 6 → v * 16 ^ q + (16 ^ q - 1) ≤ 0x10FFFF →
      URangeG (u :: '+' :: (h ++ List.replicate q '?')) ⟨v * 16 ^ q, v * 16 ^ q + (16 ^ q - 1)⟩
  | range {u h v h' v'} : (u = 'U' ∨ u = 'u') → Hex h v → 1 ≤ h.length → h.length ≤ 6 → Hex h' v' → 1 ≤ h'.length → h'.length ≤ 6 →
      v ≤ v' → v' ≤ 0x10FFFF → URangeG (u :: '+' :: (h ++ '-' :: h')) ⟨v, v'⟩

end Verif.UniRange.Spec
