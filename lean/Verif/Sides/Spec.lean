import Verif.Sides.Model
/-!
What the four-sided notations mean (CSS Box 4 § 3, CSS Backgrounds 3 § 4.1), stated without the
model's functions: only the types are used.
-/
namespace Verif.Sides

/-- CSS Box 4: "If there is only one component value, it applies to all sides. If there are two values,
the top and bottom are set to the first value and the right and left to the second. If there are three,
the top is set to the first, the left and right to the second, and the bottom to the third. If there are
four, they apply to the top, right, bottom, and left." -/
inductive Means {T : Type} : List T → Rect T → Prop
  | one (a) : Means [a] ⟨a, a, a, a⟩
  | two (a b) : Means [a, b] ⟨a, b, a, b⟩
  | three (a b c) : Means [a, b, c] ⟨a, b, c, b⟩
  | four (a b c d) : Means [a, b, c, d] ⟨a, b, c, d⟩

/-- The same for a value of two components: the second is the first if it is missing. -/
inductive Means2 {T : Type} : List T → Size2D T → Prop
  | one (a) : Means2 [a] ⟨a, a⟩
  | two (a b) : Means2 [a, b] ⟨a, b⟩

/-- `Reads p s vs rest`: the text `s` is the values `vs`, one after the other, then `rest`. -/
inductive Reads {T : Type} (p : Str → Option (T × Str)) : Str → List T → Str → Prop
  | nil (s) : Reads p s [] s
  | cons {s v s' vs rest} : p s = some (v, s') → Reads p s' vs rest → Reads p s (v :: vs) rest

/-- A text that may follow a value without becoming part of it: the end, or a delimiter. -/
def Ends (rest : Str) : Prop := ∀ c ∈ rest.head?, c = ' ' ∨ c = '/' ∨ c = ')' ∨ c = ','

/-- What is assumed of the values: `sem` is what a value means.
* `skip`: white space before a value is skipped;
* `back`: a printed value, followed by something that is not a part of it, reads back as a value that
  means the same;
* `eq_sem`: values that compare equal mean the same;
* `no_slash`, `no_round`: a slash is not a value, and neither is the keyword `round`. -/
structure Law {T V : Type} (c : Codec T) (sem : T → V) : Prop where
  skip : ∀ s, c.parse (' ' :: s) = c.parse s
  back : ∀ t rest, Ends rest → ∃ t', c.parse (c.print t ++ rest) = some (t', rest) ∧ sem t' = sem t
  eq_sem : ∀ a b, c.eq a b = true → sem a = sem b
  no_slash : ∀ s, c.parse ('/' :: s) = none
  no_round : ∀ s, c.parse (cs!"round " ++ s) = none

/-- What `border-image-slice` assumes in addition: `fill` is not a value, and no value begins like it. -/
structure SliceLaw {T V : Type} (c : Codec T) (sem : T → V) : Prop extends Law c sem where
  no_fill : ∀ s, Ends s → c.parse (cs!"fill" ++ s) = none
  first : ∀ t, ∃ ch s, c.print t = ch :: s ∧ ch ≠ 'f' ∧ ch ≠ ' '

/-- The meaning of the four sides. -/
def Rect.sem {T V} (sem : T → V) (r : Rect T) : V × V × V × V :=
  (sem r.top, sem r.right, sem r.bottom, sem r.left)

/-- The meaning of the two components. -/
def Size2D.sem {T V} (sem : T → V) (s : Size2D T) : V × V := (sem s.fst, sem s.snd)

/-- The meaning of the four corners. -/
def BorderRadius.sem {T V} (sem : T → V) (b : BorderRadius T) :
    (V × V) × (V × V) × (V × V) × (V × V) :=
  (b.topLeft.sem sem, b.topRight.sem sem, b.bottomRight.sem sem, b.bottomLeft.sem sem)

end Verif.Sides
