import Verif.Grid.AreasProps
import Verif.Modules.Model
/-!
C114: grid line and area names with CSS modules (`write_ident`, src/properties/grid.rs:398-421, used for line names,
the cells of `grid-template-areas` and the names in `grid-row-start` and the like).
-/
namespace Verif.Grid
open Verif.Modules Spec

/-- `write_ident` (src/properties/grid.rs:398-421) with `Printer::write_ident` (src/printer.rs:290-322), as the
identifier that is written (without escapes); `scope` is `css_module.config.grid`. `none` is
`InvalidCssModulesPatternInGrid`. -/
def gridName (scope : Bool) (pat : List Seg) (src : Source) (name : Str) : Option Str :=
  if scope then
    match pat.getLast? with
    | some .loc | none => some (writeName pat src name)
    | some _ => none
  else some name

theorem writeName_append (a b : List Seg) (src : Source) (n : Str) : writeName (a ++ b) src n = writeName a src n ++ writeName b src n := by
  simp [writeName]

theorem writeName_const {pat : List Seg} (h : Seg.loc ∉ pat) (src : Source) (n m : Str) : writeName pat src n = writeName pat src m := by
  induction pat with
  | nil => rfl
  | cons s pat ih =>
    simp only [List.mem_cons, not_or] at h
    have hs : segText src n s = segText src m s := by
      cases s
      all_goals first
        | rfl
        | exact absurd rfl h.1
    simp only [writeName, List.flatMap_cons, hs] at ih ⊢
    rw [ih h.2]

theorem last_loc {pat : List Seg} (h : pat.getLast? = some .loc) : ∃ pre, pat = pre ++ [.loc] := by
  refine ⟨pat.dropLast, ?_⟩
  exact (List.dropLast_append_getLast? _ h).symm

theorem gridName_eq {pat : List Seg} {src n x} (h : gridName true pat src n = some x) (hne : pat ≠ []) :
    pat.getLast? = some .loc ∧ x = writeName pat src n := by
  simp only [gridName, if_true] at h
  split at h
  · next e => exact ⟨e, (Option.some.inj h).symm⟩
  · next e => exact absurd (by simpa using e) hne
  · cases h

/-- The lines `x-start` and `x-end` that an area `x` creates implicitly are the lines with the renamed names, when the
pattern has its only `[local]` at the end: renaming a name with a suffix gives the renamed name with that suffix. -/
theorem C114_suffix_partial (scope : Bool) (pat : List Seg) (src : Source) (name suffix : Str) (h : pat.count .loc = 1) :
    gridName scope pat src (name ++ suffix) = (gridName scope pat src name).map (· ++ suffix) := by
  cases scope with
  | false => rfl
  | true =>
    simp only [gridName, if_true]
    split
    · next e =>
      obtain ⟨pre, rfl⟩ := last_loc e
      have hpre : Seg.loc ∉ pre := by
        intro hm
        have := List.count_pos_iff.2 hm
        rw [List.count_append] at h
        simp at h
        omega
      simp only [Option.map_some, Option.some.injEq, writeName_append]
      rw [writeName_const hpre src (name ++ suffix) name]
      simp [writeName, segText]
    · next e =>
      have : pat = [] := by simpa using e
      subst this
      simp at h
    · rfl

theorem writeName_length (pat : List Seg) (src : Source) (n : Str) :
    (writeName pat src n).length = (writeName pat src []).length + pat.count .loc * n.length := by
  induction pat with
  | nil => simp [writeName]
  | cons s pat ih =>
    simp only [writeName, List.flatMap_cons, List.length_append] at ih ⊢
    cases s <;> simp [segText, ih, List.count_cons, Nat.add_mul] <;> omega

/-- Different names stay different, for every pattern that is accepted. -/
theorem C114_injective (scope : Bool) (pat : List Seg) (hne : pat ≠ []) (src : Source) (a b x : Str) (ha : gridName scope pat src a = some x)
    (hb : gridName scope pat src b = some x) : a = b := by
  cases scope with
  | false =>
    simp only [gridName, Bool.false_eq_true, if_false, Option.some.injEq] at ha hb
    exact ha.trans hb.symm
  | true =>
    obtain ⟨hl, ha⟩ := gridName_eq ha hne
    obtain ⟨_, hb⟩ := gridName_eq hb hne
    have he := ha.symm.trans hb
    obtain ⟨pre, rfl⟩ := last_loc hl
    have hlen := congrArg List.length he
    rw [writeName_length, writeName_length (n := b)] at hlen
    have hpos : 0 < (pre ++ [Seg.loc]).count .loc := List.count_pos_iff.2 (by simp)
    have hab : a.length = b.length := Nat.eq_of_mul_eq_mul_left hpos (by omega)
    rw [writeName_append, writeName_append] at he
    have := List.append_inj_right' he (by simp [writeName, segText, hab])
    simpa [writeName, segText] using this

/-- A pattern that does not end with `[local]` is an error, not a wrong name. -/
theorem C114_error (pat : List Seg) (src : Source) (name : Str) (s : Seg) (h : pat.getLast? = some s) (hs : s ≠ .loc) :
    gridName true pat src name = none := by
  simp only [gridName, if_true]
  split
  · next e => rw [h] at e; cases e; exact absurd rfl hs
  · next e => rw [h] at e; cases e
  · rfl

/-- Renamed cells are still cells of `grid-template-areas`, when the other parts of the pattern are made of ident code
points. -/
theorem C114_cells_partial (pat : List Seg) (src : Source) (name x : Str) (hne : pat ≠ []) (h : gridName true pat src name = some x)
    (hname : name ≠ [] ∧ ∀ c ∈ name, NameChar c) (hpat : ∀ c ∈ writeName pat src [], NameChar c) : CellsG x [some x] := by
  obtain ⟨hl, rfl⟩ := gridName_eq h hne
  obtain ⟨pre, rfl⟩ := last_loc hl
  have hall : ∀ pat : List Seg, (∀ c ∈ writeName pat src [], NameChar c) → ∀ c ∈ writeName pat src name, NameChar c := by
    intro pat
    induction pat with
    | nil => intro _ c hc; simp [writeName] at hc
    | cons s pat ih =>
      intro hp c hc
      simp only [writeName, List.flatMap_cons, List.mem_append] at hp hc
      rcases hc with hc | hc
      · cases s with
        | loc => exact hname.2 c hc
        | lit t => exact hp c (.inl hc)
        | name => exact hp c (.inl hc)
        | hash => exact hp c (.inl hc)
        | content => exact hp c (.inl hc)
      · exact ih (fun c hc => hp c (.inr hc)) c hc
  have := CellsG.name (w := writeName (pre ++ [.loc]) src name) (s := []) ?_ (hall _ hpat) (by simp) .nil
  · simpa using this
  · rw [writeName_append]
    simp [writeName, segText, hname.1]

/-- `[local]-[local]` ends with `[local]` and is accepted, but the area `a` becomes `a-a` with the implicit line
`a-a-start`, and the line `a-start` becomes `a-start-a-start`. -/
theorem C114_two_locals (src : Source) :
    gridName true [.loc, .lit cs!"-", .loc] src cs!"a" = some cs!"a-a" ∧
    gridName true [.loc, .lit cs!"-", .loc] src cs!"a-start" = some cs!"a-start-a-start" := ⟨rfl, rfl⟩

/-- `[hash]+[local]` is accepted as well (class names are written with an escape), but a cell with `+` is no cell. -/
theorem C114_plus : let src : Source := ⟨cs!"h", [], []⟩
    gridName true [.hash, .lit cs!"+", .loc] src cs!"a" = some cs!"h+a" ∧ ¬ ∃ cs, CellsG cs!"h+a" cs := by
  refine ⟨rfl, ?_⟩
  rintro ⟨cs, h⟩
  have := (parseString_iff cs!"h+a" cs).2 ⟨h, ?_⟩
  · have hn : parseString cs!"h+a" = none := by decide +kernel
    rw [hn] at this
    cases this
  · rintro rfl
    generalize hs : cs!"h+a" = s at h
    cases h with
    | nil => cases hs
    | white hw => cases hs; revert hw; unfold White; decide

/-- `[hash]_[local]`. -/
example : let src : Source := ⟨cs!"h", [], []⟩
    gridName true [.hash, .lit cs!"_", .loc] src cs!"a" = some cs!"h_a" ∧
    gridName true [.hash, .lit cs!"_", .loc] src (cs!"a" ++ cs!"-start") = some (cs!"h_a" ++ cs!"-start") ∧
    List.count Seg.loc [.hash, .lit cs!"_", .loc] = 1 := ⟨rfl, rfl, rfl⟩

end Verif.Grid
