import Verif.Common.Chars
/-! # `aspect-ratio` and `<ratio>` (`/repo/src/properties/size.rs:313-361`, `/repo/src/values/ratio.rs`); numbers are an opaque type `N` with a one. White space is not a token. -/
namespace Verif.Size

/-- A token. -/
inductive ATok (N : Type)
  | ident (s : Str)
  | num (n : N)
  | slash
deriving DecidableEq

/-- `AspectRatio` (src/properties/size.rs:319-324). -/
structure Aspect (N : Type) where
  auto : Bool
  ratio : Option (N × N)
deriving DecidableEq

section
variable {N : Type} [One N]

/-- `Ratio::parse` (src/values/ratio.rs:21-31): the ratio and the rest. After a slash, a number is required. -/
def ratioParse : List (ATok N) → Option ((N × N) × List (ATok N))
  | .num a :: .slash :: .num b :: ts => some ((a, b), ts)
  | .num _ :: .slash :: _ => none
  | .num a :: ts => some ((a, 1), ts)
  | _ => none

/-- `expect_ident_matching("auto")` in `try_parse`. -/
def autoParse : List (ATok N) → Option (List (ATok N))
  | .ident s :: ts => if s.map Char.toLower = cs!"auto" then some ts else none
  | _ => none

/-- `AspectRatio::parse` (src/properties/size.rs:326-343): the value and the rest. -/
def Aspect.parse (ts : List (ATok N)) : Option (Aspect N × List (ATok N)) :=
  let (a1, ts) := match autoParse ts with
    | some r => (true, r)
    | none => (false, ts)
  let (r, ts) := match ratioParse ts with
    | some (r, rest) => (some r, rest)
    | none => (none, ts)
  let (a, ts) := if a1 then (true, ts) else match autoParse ts with
    | some rest => (true, rest)
    | none => (false, ts)
  if a = false ∧ r = none then none else some (⟨a, r⟩, ts)

variable [DecidableEq N]

/-- `Ratio::to_css` (src/values/ratio.rs:44-56). -/
def ratioPrint (r : N × N) : List (ATok N) := .num r.1 :: if r.2 ≠ 1 then [.slash, .num r.2] else []

/-- `AspectRatio::to_css` (src/properties/size.rs:345-361). -/
def Aspect.print (a : Aspect N) : List (ATok N) :=
  (if a.auto then [.ident cs!"auto"] else []) ++ match a.ratio with
    | some r => ratioPrint r
    | none => []

end

namespace Spec
variable {N : Type} [One N]

/-- `<ratio>`: the second number is 1 if it is left out. -/
inductive IsRatio : List (ATok N) → N × N → Prop
  | one (a : N) : IsRatio [.num a] (a, 1)
  | two (a b : N) : IsRatio [.num a, .slash, .num b] (a, b)

/-- The keyword, in any case. -/
def IsAuto (t : ATok N) : Prop := ∃ s, t = .ident s ∧ s.map Char.toLower = cs!"auto"

/-- `auto || <ratio>` (css-sizing-4). -/
inductive IsAspect : List (ATok N) → Bool → Option (N × N) → Prop
  | auto {t : ATok N} : IsAuto t → IsAspect [t] true none
  | ratio {ts : List (ATok N)} {r : N × N} : IsRatio ts r → IsAspect ts false (some r)
  | autoRatio {t : ATok N} {ts : List (ATok N)} {r : N × N} : IsAuto t → IsRatio ts r → IsAspect (t :: ts) true (some r)
  | ratioAuto {t : ATok N} {ts : List (ATok N)} {r : N × N} : IsAuto t → IsRatio ts r → IsAspect (ts ++ [t]) true (some r)
end Spec

open Spec
variable {N : Type} [One N]

theorem ratioParse_spec {ts : List (ATok N)} {r rest} (h : ratioParse ts = some (r, rest)) : ∃ xs, ts = xs ++ rest ∧ IsRatio xs r := by
  unfold ratioParse at h
  split at h
  · cases h; exact ⟨[_, _, _], rfl, .two ..⟩
  · cases h
  · cases h; exact ⟨[_], rfl, .one _⟩
  · cases h

omit [One N] in
theorem autoParse_spec {ts rest : List (ATok N)} (h : autoParse ts = some rest) : ∃ t, ts = t :: rest ∧ IsAuto t := by
  unfold autoParse at h
  split at h
  · split at h
    · rename_i h1; cases h; exact ⟨_, rfl, _, rfl, h1⟩
    · cases h
  · cases h

omit [One N] in
theorem autoParse_auto {t : ATok N} (h : IsAuto t) (ts : List (ATok N)) : autoParse (t :: ts) = some ts := by
  obtain ⟨s, rfl, hs⟩ := h
  simp [autoParse, hs]

theorem ratioParse_ratio {xs : List (ATok N)} {r : N × N} (h : IsRatio xs r) (ts : List (ATok N)) (hts : ts = [] ∨ ∃ s rest, ts = .ident s :: rest) :
    ratioParse (xs ++ ts) = some (r, ts) := by
  cases h with
  | one a => rcases hts with rfl | ⟨s, rest, rfl⟩ <;> rfl
  | two a b => rfl

theorem autoParse_ratio {xs : List (ATok N)} {r : N × N} (h : IsRatio xs r) (ts : List (ATok N)) : autoParse (xs ++ ts) = none := by cases h <;> rfl

/-- C124: `aspect-ratio` accepts exactly the grammar, with the value it means. -/
theorem C124_parse (ts : List (ATok N)) (a : Aspect N) : Aspect.parse ts = some (a, []) ↔ IsAspect ts a.auto a.ratio := by
  obtain ⟨au, ra⟩ := a
  constructor
  · intro h
    unfold Aspect.parse at h
    cases h1 : autoParse ts with
    | some r1 =>
      obtain ⟨t, rfl, ht⟩ := autoParse_spec h1
      rw [h1] at h
      cases h2 : ratioParse r1 with
      | some x =>
        obtain ⟨r, rest⟩ := x
        obtain ⟨xs, rfl, hr⟩ := ratioParse_spec h2
        simp [h2] at h
        obtain ⟨⟨rfl, rfl⟩, rfl⟩ := h
        rw [List.append_nil]
        exact .autoRatio ht hr
      | none =>
        simp [h2] at h
        obtain ⟨⟨rfl, rfl⟩, rfl⟩ := h
        exact .auto ht
    | none =>
      rw [h1] at h
      cases h2 : ratioParse ts with
      | some x =>
        obtain ⟨r, rest⟩ := x
        obtain ⟨xs, rfl, hr⟩ := ratioParse_spec h2
        cases h3 : autoParse rest with
        | some r3 =>
          obtain ⟨t, rfl, ht⟩ := autoParse_spec h3
          simp [h2, h3] at h
          obtain ⟨⟨rfl, rfl⟩, rfl⟩ := h
          exact .ratioAuto ht hr
        | none =>
          simp [h2, h3] at h
          obtain ⟨⟨rfl, rfl⟩, rfl⟩ := h
          rw [List.append_nil]
          exact .ratio hr
      | none => simp [h2, h1] at h
  · intro h
    cases h with
    | auto ht => simp [Aspect.parse, autoParse_auto ht, ratioParse]
    | ratio hr =>
      have h1 := autoParse_ratio hr []
      have h2 := ratioParse_ratio hr [] (.inl rfl)
      rw [List.append_nil] at h1 h2
      have h3 : autoParse ([] : List (ATok N)) = none := rfl
      simp [Aspect.parse, h1, h2, h3]
    | autoRatio ht hr =>
      have h2 := ratioParse_ratio hr [] (.inl rfl)
      rw [List.append_nil] at h2
      simp [Aspect.parse, autoParse_auto ht, h2]
    | @ratioAuto t xs r ht hr =>
      have h1 := autoParse_ratio hr [t]
      have h2 := ratioParse_ratio hr [t] (.inr (by obtain ⟨s, rfl, -⟩ := ht; exact ⟨s, [], rfl⟩))
      have h3 := autoParse_auto ht []
      simp [Aspect.parse, h1, h2, h3]

/-- C124: what is printed for an accepted value is read with the same value by the grammar. -/
theorem C124_print [DecidableEq N] (ts : List (ATok N)) (a : Aspect N) (h : Aspect.parse ts = some (a, [])) : IsAspect a.print a.auto a.ratio := by
  rw [C124_parse] at h
  obtain ⟨au, ra⟩ := a
  have hr : ∀ r : N × N, IsRatio (ratioPrint r) r := by
    intro r
    unfold ratioPrint
    obtain ⟨x, y⟩ := r
    by_cases hy : y = 1
    · subst hy; simp; exact .one _
    · simp [hy]; exact .two ..
  have ha : IsAuto (.ident cs!"auto" : ATok N) := ⟨_, rfl, by decide⟩
  cases h with
  | auto ht => exact .auto ha
  | ratio _ => exact .ratio (hr _)
  | autoRatio _ _ => exact .autoRatio ha (hr _)
  | ratioAuto _ _ => exact .autoRatio ha (hr _)

/-- C124: the grammar is unambiguous. -/
theorem C124_unique (ts : List (ATok N)) (a a' : Bool) (r r' : Option (N × N)) (h : IsAspect ts a r) (h' : IsAspect ts a' r') : a = a' ∧ r = r' := by
  have e := (C124_parse ts ⟨a, r⟩).mpr h
  have e' := (C124_parse ts ⟨a', r'⟩).mpr h'
  rw [e] at e'
  simpa using e'

example : Aspect.parse [.num (16 : Nat), .slash, .num 9, .ident cs!"AUTO"] = some (⟨true, some (16, 9)⟩, []) := by decide
example : (⟨true, some (2, 1)⟩ : Aspect Nat).print = [.ident cs!"auto", .num 2] := by decide

end Verif.Size
