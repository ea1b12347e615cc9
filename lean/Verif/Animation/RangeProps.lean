import Verif.Animation.Range
import Verif.Animation.ValueProps
/-! # C134: ranges -/
namespace Verif.Animation.Rng
open Verif.Transition Verif.Animation.Rng.Spec
open Verif.Transition.Spec (word)
open Verif.Animation (kw_iff)

variable {L : Type}

theorem rname_iff (s : Str) (v : RName) : parseRName s = some v ↔ ∃ k, (k, v) ∈ names ∧ word s k := by
  constructor
  · intro h
    unfold parseRName at h
    split at h
    · rename_i hk; cases h; exact ⟨_, by simp [names], (kw_iff _ _).1 hk⟩
    split at h
    · rename_i hk; cases h; exact ⟨_, by simp [names], (kw_iff _ _).1 hk⟩
    split at h
    · rename_i hk; cases h; exact ⟨_, by simp [names], (kw_iff _ _).1 hk⟩
    split at h
    · rename_i hk; cases h; exact ⟨_, by simp [names], (kw_iff _ _).1 hk⟩
    split at h
    · rename_i hk; cases h; exact ⟨_, by simp [names], (kw_iff _ _).1 hk⟩
    split at h
    · rename_i hk; cases h; exact ⟨_, by simp [names], (kw_iff _ _).1 hk⟩
    · cases h
  · rintro ⟨k, hk, hs⟩
    unfold word at hs
    simp only [names, List.mem_cons, List.mem_nil_iff, or_false, Prod.mk.injEq] at hk
    rcases hk with ⟨rfl, rfl⟩ | ⟨rfl, rfl⟩ | ⟨rfl, rfl⟩ | ⟨rfl, rfl⟩ | ⟨rfl, rfl⟩ | ⟨rfl, rfl⟩ <;> simp [parseRName, kw, hs]

theorem rname_not_normal {s : Str} {n : RName} (h : parseRName s = some n) : kw s cs!"normal" = false := by
  obtain ⟨k, hk, hs⟩ := (rname_iff _ _).1 h
  unfold word at hs
  simp only [names, List.mem_cons, List.mem_nil_iff, or_false, Prod.mk.injEq] at hk
  rcases hk with ⟨rfl, rfl⟩ | ⟨rfl, rfl⟩ | ⟨rfl, rfl⟩ | ⟨rfl, rfl⟩ | ⟨rfl, rfl⟩ | ⟨rfl, rfl⟩ <;> simp [kw, hs]

/-- The parser takes the longest first part. -/
theorem parse_iff (d : L) (l : List (Tok L)) (a : Att L) (r : List (Tok L)) :
    Att.parse d l = some (a, r) ↔ ∃ p, l = p ++ r ∧ One d p a ∧ ¬Follows p r := by
  constructor
  · intro h
    cases l with
    | nil => cases h
    | cons t l => cases t with
      | len x =>
        cases h
        exact ⟨[.len x], rfl, .len x, by rintro ⟨s, k, n, x', r', _, _, h, _⟩; cases h⟩
      | ident s =>
        simp only [Att.parse] at h
        split at h
        · rename_i hk
          cases h
          refine ⟨[.ident s], rfl, .normal ((kw_iff _ _).1 hk), ?_⟩
          rintro ⟨s', k, n, x', r', hn, hw, h, _⟩
          cases h
          rw [rname_not_normal ((rname_iff _ _).2 ⟨k, hn, hw⟩)] at hk
          cases hk
        · split at h
          · rename_i n hn
            obtain ⟨k, hk, hs⟩ := (rname_iff _ _).1 hn
            split at h
            · rename_i x r'
              cases h
              exact ⟨[.ident s, .len x], rfl, .offset x hk hs, by rintro ⟨s, k, n, x', r', _, _, h, _⟩; cases h⟩
            · rename_i hno
              cases h
              exact ⟨[.ident s], rfl, .name hk hs, by rintro ⟨s, k, n, x', r', _, _, _, h⟩; exact hno x' r' h⟩
          · cases h
  · rintro ⟨p, rfl, hp, hf⟩
    cases hp with
    | normal hs => simp [Att.parse, (kw_iff _ _).2 hs]
    | len x => rfl
    | name hk hs =>
      rename_i s k n
      have hn := (rname_iff _ _).2 ⟨_, hk, hs⟩
      simp only [Att.parse, List.cons_append, List.nil_append, rname_not_normal hn, Bool.false_eq_true, if_false, hn]
      cases r with
      | nil => rfl
      | cons t r => cases t with
        | ident _ => rfl
        | len x => exact absurd ⟨_, _, _, x, r, hk, hs, rfl, rfl⟩ hf
    | offset x hk hs =>
      have hn := (rname_iff _ _).2 ⟨_, hk, hs⟩
      simp [Att.parse, rname_not_normal hn, hn]

theorem not_follows_nil (p : List (Tok L)) : ¬Follows p [] := by rintro ⟨s, k, n, x', r', _, _, _, h⟩; cases h

theorem one_ne_nil {d : L} {p : List (Tok L)} {a : Att L} (h : One d p a) : p ≠ [] := by cases h <;> simp

/-- The value of `animation-range-start` or `animation-range-end` alone. -/
theorem parse_one (d : L) (l : List (Tok L)) (a : Att L) : Att.parse d l = some (a, []) ↔ One d l a := by
  rw [parse_iff]
  constructor
  · rintro ⟨p, rfl, h, _⟩; rwa [List.append_nil]
  · intro h; exact ⟨l, by simp, h, not_follows_nil l⟩

theorem one_print [DecidableEq L] (d : L) (a : Att L) : One d (a.print d) a := by
  have hn : ∀ n : RName, ∃ k, (k, n) ∈ names ∧ word n.text k := by
    intro n; rw [← rname_iff]; cases n <;> decide
  cases a with
  | normal => exact .normal rfl
  | len l => exact .len l
  | range n o =>
    obtain ⟨k, hk, hs⟩ := hn n
    simp only [Att.print]
    split
    · exact .offset o hk hs
    · rename_i h
      have : o = d := by simpa using h
      subst this
      exact .name hk hs

variable [Pct L]

/-- C134: `animation-range-start` and `animation-range-end` are read as CSS says, and printed so. -/
theorem C140_longhands [DecidableEq L] (l : List (Tok L)) (a : Att L) :
    (parseStart l = some a ↔ One Pct.zero l a) ∧ (parseEnd l = some a ↔ One Pct.full l a) ∧
    One Pct.zero (a.print (Pct.zero : L)) a ∧ One Pct.full (a.print (Pct.full : L)) a := by
  refine ⟨?_, ?_, one_print _ _, one_print _ _⟩
  · rw [← parse_one]
    unfold parseStart
    cases h : Att.parse (Pct.zero : L) l with
    | none => simp
    | some p => obtain ⟨b, r⟩ := p; cases r <;> simp
  · rw [← parse_one]
    unfold parseEnd
    cases h : Att.parse (Pct.full : L) l with
    | none => simp
    | some p => obtain ⟨b, r⟩ := p; cases r <;> simp

/-- The last component is the name of a range, that is, it has no offset. -/
def BareEnd (l : List (Tok L)) : Prop := ∃ p s n, l = p ++ [.ident s] ∧ p ≠ [] ∧ parseRName s = some n

omit [Pct L] in
theorem one_default (d d' : L) {p : List (Tok L)} {a : Att L} (h : One d p a) (hb : ∀ s n, p = [.ident s] → parseRName s ≠ some n) : One d' p a := by
  cases h with
  | normal h => exact .normal h
  | len x => exact .len x
  | name hk hs => exact absurd ((rname_iff _ _).2 ⟨_, hk, hs⟩) (hb _ _ rfl)
  | offset x hk hs => exact .offset x hk hs

/-- C134 (part): `animation-range` is accepted exactly if the grammar accepts it, and read with the same start and end, unless the end is a name without offset. -/
theorem C134_read_partial (l : List (Tok L)) (s e : Att L) (hb : ¬BareEnd l) : parseRange l = some (s, e) ↔ Range l s e := by
  unfold parseRange
  constructor
  · intro h
    cases h1 : Att.parse Pct.zero l with
    | none => rw [h1] at h; cases h
    | some q =>
      obtain ⟨s', r⟩ := q
      rw [h1] at h
      simp only at h
      obtain ⟨p, rfl, hp, hf⟩ := (parse_iff _ _ _ _).1 h1
      cases h2 : Att.parse (Pct.zero : L) r with
      | none =>
        rw [h2] at h
        cases r with
        | nil =>
          cases h
          rw [List.append_nil]
          cases s with
          | normal => exact .normal hp
          | len x => exact .len hp
          | range n o => exact .named hp
        | cons _ _ => cases h
      | some q =>
        obtain ⟨e', r'⟩ := q
        rw [h2] at h
        cases r' with
        | cons _ _ => cases h
        | nil =>
          cases h
          have he := (parse_one _ _ _).1 h2
          refine .both hp (one_default _ _ he ?_) hf
          rintro t n rfl hn
          exact hb ⟨p, t, n, rfl, one_ne_nil hp, hn⟩
  · intro h
    have one : ∀ {l : List (Tok L)} {a : Att L}, One Pct.zero l a → Att.parse Pct.zero l = some (a, []) := fun h => (parse_one _ _ _).2 h
    have fin : ∀ {l : List (Tok L)} {a : Att L}, One Pct.zero l a → (match Att.parse Pct.zero l with
        | none => none
        | some (s, r) => match Att.parse (Pct.zero : L) r with
          | some (e, []) => some (s, e)
          | some (_, _ :: _) => none
          | none => match r with
            | [] => some (s, defaultEnd s)
            | _ :: _ => none) = some (a, defaultEnd a) := by
      intro l a h
      rw [one h]
      rfl
    cases h with
    | both hs he hf =>
      rename_i l r
      have he' : One (Pct.zero : L) r e := by
        refine one_default _ _ he ?_
        rintro t n rfl hn
        exact hb ⟨l, t, n, rfl, one_ne_nil hs, hn⟩
      rw [(parse_iff _ _ s r).2 ⟨l, rfl, hs, hf⟩]
      simp only [one he']
    | named h => exact fin h
    | normal h => exact fin h
    | len h => exact fin h

/-- Whole percentages, for the examples. -/
instance pctNat : Pct Nat := ⟨0, 100⟩

/-- C134 fails for an end without offset: `entry exit` ends at 100% of the exit, and is read with the end 0%. -/
theorem C134_bare_end_fails : ∃ (l : List (Tok Nat)) (s e : Att Nat), Range l s e ∧ parseRange l ≠ some (s, e) := by
  refine ⟨[.ident cs!"entry", .ident cs!"exit"], .range .entry 0, .range .exit 100, ?_, by decide⟩
  refine Range.both (l := [.ident cs!"entry"]) (r := [.ident cs!"exit"]) (.name (k := cs!"entry") (by decide) rfl) (.name (k := cs!"exit") (by decide) rfl) ?_
  rintro ⟨s, k, n, x', r', _, _, _, h⟩; cases h

/-- C134 (part): a start and an end are printed so that they are read as the same, unless the start has a name and the end is `normal`, or the start is at 0% of a named range and the end is a length. -/
theorem C134_print_partial [DecidableEq L] (s e : Att L) (h1 : ∀ n o, s = .range n o → e ≠ .normal)
    (h2 : ∀ n x, s = .range n Pct.zero → e ≠ .len x) : Range (printRange s e) s e := by
  have hs := one_print (Pct.zero : L) s
  have he := one_print (Pct.full : L) e
  unfold printRange
  by_cases ho : omitEnd s e = true
  · rw [if_pos ho, List.append_nil]
    cases s with
    | normal =>
      have : e = .normal := by cases e <;> first | rfl | (simp [omitEnd] at ho)
      subst this; exact .normal hs
    | len x =>
      have : e = .normal := by cases e <;> first | rfl | (simp [omitEnd] at ho)
      subst this; exact .len hs
    | range n o =>
      cases e with
      | normal => exact absurd rfl (h1 n o rfl)
      | len x => simp [omitEnd] at ho
      | range n' o' =>
        simp only [omitEnd, Bool.and_eq_true, decide_eq_true_eq] at ho
        obtain ⟨rfl, rfl⟩ := ho
        exact .named hs
  · rw [if_neg ho]
    refine .both hs he ?_
    rintro ⟨t, k, n, x, r', hk, hw, hl, hr⟩
    cases s with
    | normal =>
      simp only [Att.print, List.cons.injEq, Tok.ident.injEq, and_true] at hl
      subst hl
      have := rname_not_normal ((rname_iff _ _).2 ⟨k, hk, hw⟩)
      exact absurd this (by decide)
    | len x => cases hl
    | range n o =>
      have hz : o = Pct.zero := by
        by_cases hz : o = Pct.zero
        · exact hz
        · simp [Att.print, hz] at hl
      subst hz
      cases e with
      | normal => cases hr
      | len x => exact h2 n x rfl rfl
      | range _ _ => cases hr

/-- C134 fails for `entry 10% normal`, which is printed as `entry 10%`, and that ends at `entry 100%`. -/
theorem C134_normal_fails : ∃ (s e : Att Nat), ¬Range (printRange s e) s e := by
  refine ⟨.range .entry 10, .normal, ?_⟩
  intro h
  have := (C134_read_partial (L := Nat) _ _ _ (by
    rintro ⟨p, s, n, hl, hp, hn⟩
    have : printRange (L := Nat) (.range .entry 10) .normal = [.ident cs!"entry", .len 10] := by decide
    rw [this] at hl
    have := congrArg List.getLast? hl
    simp at this)).2 h
  exact absurd this (by decide)

/-- C134 fails for `entry 0% 10px`, which is printed as `entry 10px`. -/
theorem C134_offset_fails : ∃ (s e : Att Nat), ¬Range (printRange s e) s e := by
  refine ⟨.range .entry 0, .len 10, ?_⟩
  intro h
  have := (C134_read_partial (L := Nat) _ _ _ (by
    rintro ⟨p, s, n, hl, hp, hn⟩
    have : printRange (L := Nat) (.range .entry 0) (.len 10) = [.ident cs!"entry", .len 10] := by decide
    rw [this] at hl
    have := congrArg List.getLast? hl
    simp at this)).2 h
  exact absurd this (by decide)

example : parseRange ([.ident cs!"entry", .len 10, .ident cs!"exit", .len 50] : List (Tok Nat)) = some (.range .entry 10, .range .exit 50) ∧
    printRange (.range .entry 0) (.range .exit 50 : Att Nat) = [.ident cs!"entry", .ident cs!"exit", .len 50] := ⟨by decide, by decide⟩

end Verif.Animation.Rng
