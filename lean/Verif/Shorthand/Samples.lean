import Verif.Shorthand.Lemmas
/-!
Concrete types of lengths, colors and so on, to show that the hypotheses of the theorems can be met.
-/
namespace Verif.Shorthand

/-- A type of values whose text is a single token that begins with the character `k`: a model of
dimensions (one unit), hashes, urls. -/
def sample (k : Char) : Codec Str where
  parse i :=
    match next i with
    | some (.other (c :: s), r) => if c = k then some (s, r) else none
    | _ => none
  print s := [.other (k :: s)]

/-- A type of colors: `currentcolor` and hashes. -/
def sampleColor : Codec (Option Str) where
  parse i :=
    match next i with
    | some (.other (c :: s), r) => if c = '#' then some (some s, r) else none
    | some (.ident s, r) => if lower s = cs!"currentcolor" then some (none, r) else none
    | _ => none
  print
    | some s => [.other ('#' :: s)]
    | none => [.ident cs!"currentcolor"]

/-- A type of `symbols()` functions with one string. -/
def sampleSymbols : Codec Str where
  parse i :=
    match next i with
    | some (.func f, r) =>
      if lower f = cs!"symbols" then
        match next r with
        | some (.str s, r) =>
          match next r with
          | some (.close, r) => some (s, r)
          | _ => none
        | _ => none
      else none
    | _ => none
  print s := [.func cs!"symbols", .str s, .close]

theorem sample_plain (k) : Plain (sample k) id where
  skip _ := rfl
  back a r := ⟨a, by simp [sample, next], rfl⟩
  stop r h := by rcases h with rfl | ⟨l, rfl | rfl⟩ <;> rfl
  sep _ := trivial
  no_ident _ _ := rfl
  no_str _ _ := rfl
  no_func _ _ _ := rfl
  first a := ⟨_, _, rfl, .inl ⟨_, rfl⟩⟩

theorem sampleColor_law : ColorLaw sampleColor id where
  skip _ := rfl
  back a r := by
    cases a with
    | none => exact ⟨none, rfl, rfl⟩
    | some s => exact ⟨some s, rfl, rfl⟩
  stop r h := by rcases h with rfl | ⟨l, rfl | rfl⟩ <;> rfl
  sep a := by cases a <;> trivial
  no_keyword s r h := by
    have : ∀ k ∈ notColors, k ≠ cs!"currentcolor" := by decide
    simp [sampleColor, next_ident, this _ h]
  no_str _ _ := rfl
  first a := by
    cases a with
    | none => exact ⟨_, _, rfl, .inl ⟨_, rfl, by decide⟩⟩
    | some s => exact ⟨_, _, rfl, .inr (.inl ⟨_, rfl⟩)⟩

theorem sampleSymbols_law : SymbolsLaw sampleSymbols id where
  skip _ := rfl
  back a r := ⟨a, rfl, rfl⟩
  stop r h := by rcases h with rfl | ⟨l, rfl | rfl⟩ <;> rfl
  sep a := by simp [sampleSymbols, Separated, Sticks]
  no_ident _ _ := rfl
  first a := ⟨_, rfl⟩

theorem sample_apart (k) (hk : k ≠ '#') : Apart (sample k).parse sampleColor := by
  intro b r
  cases b with
  | none => rfl
  | some s => simp [sample, sampleColor, next, Ne.symm hk]

/-- Numbers, lengths and percentages for `flex`: the length `0` is printed like the number `0`. -/
def sampleFlex : FlexParts Str Str Str Str where
  num := sample 'n'
  zero := cs!"0"
  one := cs!"1"
  basis :=
    { parse := fun i =>
        match next i with
        | some (.ident s, r) => if lower s = cs!"auto" then some (.auto, r) else none
        | some (.other s, r) =>
          match s with
          | 'l' :: s => some (.dim s, r)
          | 'p' :: s => some (.pct s, r)
          | 'k' :: s => some (.math s, r)
          | ['n', '0'] => some (.dim cs!"0", r)
          | _ => none
        | _ => none
      print := fun
        | .auto => [.ident cs!"auto"]
        | .dim s => if s = cs!"0" then [.other cs!"n0"] else [.other ('l' :: s)]
        | .pct s => [.other ('p' :: s)]
        | .math s => [.other ('k' :: s)] }
  lengthZero s := s = cs!"0"
  pctZero s := s = cs!"0"
  pct0 := cs!"0"

theorem sampleFlex_law : FlexLaw sampleFlex id id where
  numbers := sample_plain 'n'
  bases := {
    skip := fun _ => rfl
    back := by
      intro a r
      refine ⟨a, ?_, rfl⟩
      cases a with
      | auto => rfl
      | dim s =>
        by_cases h : s = cs!"0"
        · subst h; rfl
        · simp [sampleFlex, h, next]
      | pct s => rfl
      | math s => rfl
    stop := by intro r h; rcases h with rfl | ⟨l, rfl | rfl⟩ <;> rfl
    sep := by
      intro a
      cases a with
      | dim s => simp only [sampleFlex]; split <;> trivial
      | _ => trivial }
  no_none b r := by
    cases b with
    | dim s =>
      by_cases h : s = cs!"0"
      · subst h; rfl
      · simp [sampleFlex, h, expectIdent, next]
    | _ => rfl
  zero q h := by simp [sampleFlex] at h; subst h; rfl
  apart b r h := by
    cases b with
    | dim s =>
      have : s ≠ cs!"0" := by simpa [sampleFlex] using h s rfl
      simp [sampleFlex, this, sample, next]
    | _ => rfl

/-- Integers, printed in unary: `i`, a sign, strokes. -/
def sampleInt : Codec Int where
  parse i :=
    match next i with
    | some (.other ('i' :: '-' :: s), r) => some (Int.negSucc s.length, r)
    | some (.other ('i' :: s), r) => some (Int.ofNat s.length, r)
    | _ => none
  print
    | .ofNat n => [.other ('i' :: List.replicate n '1')]
    | .negSucc n => [.other ('i' :: '-' :: List.replicate n '1')]

theorem sampleInt_plain : Plain sampleInt id where
  skip _ := rfl
  back a r := by
    refine ⟨a, ?_, rfl⟩
    cases a with
    | ofNat n =>
      cases n with
      | zero => rfl
      | succ n =>
        show some (Int.ofNat (List.replicate n '1').length.succ, r) = _
        rw [List.length_replicate]
    | negSucc n => simp [sampleInt, next]
  stop r h := by rcases h with rfl | ⟨l, rfl | rfl⟩ <;> rfl
  sep a := by cases a <;> trivial
  no_ident _ _ := rfl
  no_str _ _ := rfl
  no_func _ _ _ := rfl
  first a := by cases a <;> exact ⟨_, _, rfl, .inl ⟨_, rfl⟩⟩

/-- Numbers for easing functions; hundredths are written `h` with a character. -/
def sampleEasing : EasingParts Str := ⟨sample 'n', sampleInt, fun n => ['h', Char.ofNat n]⟩

theorem sampleEasing_law : EasingLaw sampleEasing id (fun n => ['h', Char.ofNat n]) where
  numbers := sample_plain _
  ints := sampleInt_plain
  lit _ := rfl

/-- The parts of an animation. -/
def sampleAnim : AnimParts Str Str Str := ⟨sample 't', (· = cs!"0"), cs!"0", sampleEasing, sample 'l'⟩

theorem sampleAnim_law : AnimLaw sampleAnim id id (fun n => ['h', Char.ofNat n]) id where
  times := sample_plain _
  easings := sampleEasing_law
  lengths := sample_plain _
  zero m h := by simpa [sampleAnim] using h
  apart b r := by simp [sampleAnim, sampleEasing, sample, next]

end Verif.Shorthand
