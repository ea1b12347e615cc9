import Verif.Font.Spec
/-! # Lemmas about fonts -/
namespace Verif.Font
open Verif.Transition (kw)
open Verif.Font.Spec

theorem kw_iff (s lit : Str) : kw s lit = true ↔ word s lit := by simp [kw, word]

theorem kw_self {lit : Str} (h : lit.map Char.toLower = lit) : kw lit lit = true := by simp [kw, h]

theorem word_unique {s a b : Str} (h : word s a) (h' : word s b) : a = b := h.symm.trans h'

/-- Keywords are found. -/
theorem parseKw_iff {K : Type} (all : List K) (text : K → Str) (hinj : ∀ a ∈ all, ∀ b ∈ all, text a = text b → a = b) (hall : ∀ k, k ∈ all) (s : Str) (k : K) :
    parseKw all text s = some k ↔ word s (text k) := by
  unfold parseKw
  constructor
  · intro h; have := List.find?_some h; exact (kw_iff _ _).1 this
  · intro h
    cases hf : all.find? (fun k => kw s (text k)) with
    | none => exact absurd ((kw_iff _ _).2 h) (by simpa using List.find?_eq_none.1 hf k (hall k))
    | some j =>
      have := List.find?_some hf
      have hw := (kw_iff _ _).1 this
      rw [hinj j (hall j) k (hall k) (word_unique hw h)]

theorem parseKw_none {K : Type} (all : List K) (text : K → Str) (s : Str) : parseKw all text s = none ↔ ∀ k ∈ all, ¬word s (text k) := by
  unfold parseKw
  rw [List.find?_eq_none]
  constructor
  · intro h k hk hw; exact h k hk ((kw_iff _ _).2 hw)
  · intro h k hk hw; exact h k hk ((kw_iff _ _).1 hw)

theorem generic_iff (s : Str) (g : Generic) : parseKw Generic.all Generic.text s = some g ↔ word s g.text :=
  parseKw_iff _ _ (by decide +kernel) (by intro k; cases k <;> decide) s g
theorem size_iff (s : Str) (g : AbsSize) : parseKw AbsSize.all AbsSize.text s = some g ↔ word s g.text :=
  parseKw_iff _ _ (by decide +kernel) (by intro k; cases k <;> decide) s g
theorem stretch_iff (s : Str) (g : StretchKw) : parseKw StretchKw.all StretchKw.text s = some g ↔ word s g.text :=
  parseKw_iff _ _ (by decide +kernel) (by intro k; cases k <;> decide) s g
theorem caps_iff (s : Str) (g : Caps) : parseKw Caps.all Caps.text s = some g ↔ word s g.text :=
  parseKw_iff _ _ (by decide +kernel) (by intro k; cases k <;> decide) s g

/-! ### Words -/

theorem joinSp_eq : ∀ ws : List Str, joinSp ws = List.intercalate [' '] ws
  | [] => rfl
  | [s] => by simp [joinSp, List.intercalate]
  | s :: t :: r => by
    rw [joinSp, joinSp_eq (t :: r)]
    simp [List.intercalate, List.intersperse]

theorem splitSp_ne (s : Str) : splitSp s ≠ [] := by
  cases s with
  | nil => simp [splitSp]
  | cons c s => simp only [splitSp]; split <;> (try split) <;> simp

theorem join_split : ∀ s : Str, joinSp (splitSp s) = s
  | [] => rfl
  | c :: s => by
    have ih := join_split s
    simp only [splitSp]
    split
    · rename_i hc
      cases hs : splitSp s with
      | nil => exact absurd hs (splitSp_ne s)
      | cons w ws => rw [hs] at ih; simp [joinSp, ih, hc]
    · cases hs : splitSp s with
      | nil => exact absurd hs (splitSp_ne s)
      | cons w ws =>
        rw [hs] at ih
        cases ws with
        | nil => simp [joinSp] at ih ⊢; exact ih
        | cons v vs => simp [joinSp] at ih ⊢; exact ih

/-- No word is empty, but perhaps the first. -/
theorem words_ne : ∀ s : Str, hasTwoSp s = false → s.getLast? ≠ some ' ' → ∀ w ws, splitSp s = w :: ws → (∀ v ∈ ws, v ≠ []) ∧ (w = [] → s = [] ∨ s.head? = some ' ')
  | [], _, _, w, ws, h => by simp [splitSp] at h; obtain ⟨rfl, rfl⟩ := h; simp
  | [c], _, hl, w, ws, h => by
    have hc : c ≠ ' ' := by intro hc; subst hc; exact hl rfl
    simp [splitSp, hc] at h
    obtain ⟨rfl, rfl⟩ := h
    simp
  | c :: d :: s, h2, hl, w, ws, h => by
    have h2' : hasTwoSp (d :: s) = false := by
      unfold hasTwoSp at h2
      split at h2
      · cases h2
      · rename_i heq; cases heq; exact h2
      · rename_i heq; cases heq
    have hl' : (d :: s).getLast? ≠ some ' ' := by
      rw [List.getLast?_cons_cons] at hl; exact hl
    have ih := words_ne (d :: s) h2' hl'
    simp only [splitSp] at h
    split at h
    · rename_i hc
      cases h
      refine ⟨?_, fun _ => .inr (by simp [hc])⟩
      cases hs : splitSp (d :: s) with
      | nil => exact absurd hs (splitSp_ne _)
      | cons v vs =>
        obtain ⟨i1, i2⟩ := ih v vs hs
        have hd : d ≠ ' ' := by intro hd; rw [hc, hd] at h2; simp [hasTwoSp] at h2
        intro u hu
        have hu' : u ∈ v :: vs := by rw [← hs]; simpa [splitSp] using hu
        rcases List.mem_cons.1 hu' with rfl | hu'
        · intro he
          rcases i2 he with h0 | h0
          · cases h0
          · simp at h0; exact hd h0
        · exact i1 u hu'
    · cases hs : splitSp (d :: s) with
      | nil => exact absurd hs (splitSp_ne _)
      | cons v vs =>
        have hs' := hs
        simp only [splitSp] at hs'
        rw [hs'] at h
        simp only [List.cons.injEq] at h
        rw [← h.1, ← h.2]
        exact ⟨(ih v vs hs).1, by intro h0; cases h0⟩

/-- A word without spaces that was joined is a word. -/
theorem mem_split_join : ∀ (ws : List Str) (w : Str), w ∈ ws → ' ' ∉ w → ws ≠ [] → w ∈ splitSp (joinSp ws) := by
  have hone : ∀ w : Str, ' ' ∉ w → ∀ r, splitSp (w ++ ' ' :: r) = w :: splitSp r := by
    intro w
    induction w with
    | nil => intro _ r; simp [splitSp]
    | cons c w ih =>
      intro h r
      simp only [List.mem_cons, not_or] at h
      rw [List.cons_append, splitSp, if_neg (Ne.symm h.1), ih h.2]
  have hlast : ∀ w : Str, ' ' ∉ w → splitSp w = [w] := by
    intro w
    induction w with
    | nil => intro _; rfl
    | cons c w ih =>
      intro h
      simp only [List.mem_cons, not_or] at h
      rw [splitSp, if_neg (Ne.symm h.1), ih h.2]
  have hany : ∀ (x : Str) (r : Str) (w : Str), w ∈ splitSp r → w ∈ splitSp (x ++ ' ' :: r) := by
    intro x
    induction x with
    | nil => intro r w h; simp [splitSp, h]
    | cons c x ih =>
      intro r w h
      have := ih r w h
      rw [List.cons_append, splitSp]
      split
      · exact List.mem_cons_of_mem _ this
      · cases hx : splitSp (x ++ ' ' :: r) with
        | nil => exact absurd hx (splitSp_ne _)
        | cons v vs =>
          -- `w` is not in the first word only: the first word ends before the space
          have htail : ∀ (x r : Str) v vs, splitSp (x ++ ' ' :: r) = v :: vs → ∀ w ∈ splitSp r, w ∈ vs := by
            intro x
            induction x with
            | nil => intro r v vs h w hw; simp [splitSp] at h; rw [← h.2]; exact hw
            | cons c x ih =>
              intro r v vs h w hw
              rw [List.cons_append, splitSp] at h
              split at h
              · simp only [List.cons.injEq] at h
                rw [← h.2]
                cases hy : splitSp (x ++ ' ' :: r) with
                | nil => exact absurd hy (splitSp_ne _)
                | cons v' vs' => exact List.mem_cons_of_mem _ (ih r v' vs' hy w hw)
              · cases hy : splitSp (x ++ ' ' :: r) with
                | nil => exact absurd hy (splitSp_ne _)
                | cons v' vs' => rw [hy] at h; simp only [List.cons.injEq] at h; rw [← h.2]; exact ih r v' vs' hy w hw
          exact List.mem_cons_of_mem _ (htail x r v vs hx w h)
  intro ws
  induction ws with
  | nil => intro w h; cases h
  | cons v vs ih =>
    intro w hw hs _
    cases vs with
    | nil =>
      simp at hw; subst hw
      rw [joinSp, hlast w hs]; simp
    | cons u us =>
      rw [joinSp]
      rcases List.mem_cons.1 hw with rfl | hw
      · rw [hone w hs]; simp
      · exact hany v _ w (ih w hw hs (by simp))

end Verif.Font
