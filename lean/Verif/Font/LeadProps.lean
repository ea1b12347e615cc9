import Verif.Font.Props
import Mathlib.Data.List.Basic
import Mathlib.Data.List.Nodup
import Mathlib.Data.List.Perm.Subperm
/-! # The parts before the size -/
namespace Verif.Font
open Verif.Transition (kw)
open Verif.Font.Spec

section
variable {L A : Type}

/-- The parts that are read so far. -/
def Slots.part (s : Slots A) : Kind → Option (Part A)
  | .style => s.style.map fun v => .style v.meaning
  | .caps => s.caps.map fun c => .caps (c = .smallCaps)
  | .weight => s.weight.map fun w => .weight w.meaning
  | .width => s.stretch.map fun k => .width k.percent

/-- A number as weight is in range. -/
def InRange (w : Option Weight) : Prop := ∀ q, w = some (.num q) → 1 ≤ q ∧ q ≤ 1000

theorem kw_false {s a b : Str} (h : word s a) (hab : a ≠ b) : kw s b = false := by
  cases hk : kw s b with
  | false => rfl
  | true => exact absurd (word_unique h ((kw_iff _ _).1 hk)) hab

/-! ### Soundness -/

/-- The text of one round: a part, or `normal`. -/
def ItemText [Oblique A] (t : List (Tok L A)) : Option (Part A) → Prop
  | none => ∃ n, t = [.ident n] ∧ word n cs!"normal"
  | some p => PartText t p

/-- The texts of several rounds. -/
inductive ItemsText [Oblique A] : List (Tok L A) → List (Option (Part A)) → Prop
  | nil : ItemsText [] []
  | cons {t ts : List (Tok L A)} {p : Option (Part A)} {ps : List (Option (Part A))} : ItemText t p → ItemsText ts ps → ItemsText (t ++ ts) (p :: ps)

theorem step_sound [Oblique A] (s s' : Slots A) (l r : List (Tok L A)) (h : s.step l = some (s', r)) (hr : InRange s'.weight) :
    ∃ t i, l = t ++ r ∧ ItemText t i ∧ s'.count = s.count + 1 ∧
      (∀ p, i = some p → s.part p.kind = none ∧ s'.part p.kind = some p) ∧
      (∀ k, (∀ p, i = some p → p.kind ≠ k) → s'.part k = s.part k) := by
  unfold Slots.step at h
  split at h
  · rename_i r' hn
    simp only [Option.some.injEq, Prod.mk.injEq] at h
    obtain ⟨rfl, rfl⟩ := h
    split at hn
    · rename_i n r0
      split at hn
      · rename_i hk
        cases hn
        exact ⟨[.ident n], none, rfl, ⟨n, rfl, (kw_iff _ _).1 hk⟩, rfl, (by intro p hp; cases hp), fun k _ => by cases k <;> rfl⟩
      · cases hn
    · cases hn
  rename_i hnorm
  have hnn : ∀ n r0, l = .ident n :: r0 → ¬word n cs!"normal" := by
    intro n r0 hl hw
    rw [hl] at hnorm
    simp only [(kw_iff _ _).2 hw, if_true] at hnorm
    cases hnorm
  split at h
  · rename_i v r' hs
    simp only [Option.some.injEq, Prod.mk.injEq] at h
    obtain ⟨rfl, rfl⟩ := h
    split at hs
    · rename_i hnone
      have hnone : s.style = none := by cases hh : s.style <;> simp_all
      have : ∃ t, l = t ++ r' ∧ PartText t (.style v.meaning) := by
        cases l with
        | nil => cases hs
        | cons a l =>
          cases a with
          | ident n =>
            simp only [parseStyle] at hs
            split at hs
            · rename_i hk; exact absurd ((kw_iff _ _).1 hk) (hnn n l rfl)
            · split at hs
              · rename_i hk
                simp only [Option.some.injEq, Prod.mk.injEq] at hs
                obtain ⟨rfl, rfl⟩ := hs
                exact ⟨[.ident n], rfl, .italic n ((kw_iff _ _).1 hk)⟩
              · split at hs
                · rename_i hk
                  split at hs
                  · rename_i a r''
                    simp only [Option.some.injEq, Prod.mk.injEq] at hs
                    obtain ⟨rfl, rfl⟩ := hs
                    exact ⟨[.ident n, .angle a], rfl, .obliqueAngle n ((kw_iff _ _).1 hk) a⟩
                  · simp only [Option.some.injEq, Prod.mk.injEq] at hs
                    obtain ⟨rfl, rfl⟩ := hs
                    exact ⟨[.ident n], rfl, .oblique n ((kw_iff _ _).1 hk)⟩
                · cases hs
          | _ => cases hs
      obtain ⟨t, rfl, ht⟩ := this
      refine ⟨t, some (.style v.meaning), rfl, ht, rfl, ?_, ?_⟩
      · intro p hp; cases hp; exact ⟨by simp [Slots.part, Part.kind, hnone], rfl⟩
      · intro k hk; have := hk _ rfl; cases k <;> first | rfl | exact absurd rfl this
    · cases hs
  split at h
  · rename_i v r' hs
    simp only [Option.some.injEq, Prod.mk.injEq] at h
    obtain ⟨rfl, rfl⟩ := h
    split at hs
    · rename_i hnone
      have hnone : s.weight = none := by cases hh : s.weight <;> simp_all
      have : ∃ t, l = t ++ r' ∧ PartText t (.weight v.meaning) := by
        cases l with
        | nil => cases hs
        | cons a l =>
          cases a with
          | ident n =>
            simp only [parseWeight] at hs
            split at hs
            · rename_i hk; exact absurd ((kw_iff _ _).1 hk) (hnn n l rfl)
            · split at hs
              · rename_i hk
                simp only [Option.some.injEq, Prod.mk.injEq] at hs
                obtain ⟨rfl, rfl⟩ := hs
                exact ⟨[.ident n], rfl, .bold n ((kw_iff _ _).1 hk)⟩
              · split at hs
                · rename_i hk
                  simp only [Option.some.injEq, Prod.mk.injEq] at hs
                  obtain ⟨rfl, rfl⟩ := hs
                  exact ⟨[.ident n], rfl, .bolder n ((kw_iff _ _).1 hk)⟩
                · split at hs
                  · rename_i hk
                    simp only [Option.some.injEq, Prod.mk.injEq] at hs
                    obtain ⟨rfl, rfl⟩ := hs
                    exact ⟨[.ident n], rfl, .lighter n ((kw_iff _ _).1 hk)⟩
                  · cases hs
          | num q =>
            simp only [parseWeight, Option.some.injEq, Prod.mk.injEq] at hs
            obtain ⟨rfl, rfl⟩ := hs
            exact ⟨[.num q], rfl, .number q (hr q rfl)⟩
          | _ => cases hs
      obtain ⟨t, rfl, ht⟩ := this
      refine ⟨t, some (.weight v.meaning), rfl, ht, rfl, ?_, ?_⟩
      · intro p hp; cases hp; exact ⟨by simp [Slots.part, Part.kind, hnone], rfl⟩
      · intro k hk; have := hk _ rfl; cases k <;> first | rfl | exact absurd rfl this
    · cases hs
  split at h
  · rename_i v r' hs
    simp only [Option.some.injEq, Prod.mk.injEq] at h
    obtain ⟨rfl, rfl⟩ := h
    split at hs
    · rename_i hnone
      have hnone : s.caps = none := by cases hh : s.caps <;> simp_all
      have : ∃ t, l = t ++ r' ∧ PartText t (.caps (v = .smallCaps)) := by
        cases l with
        | nil => cases hs
        | cons a l =>
          cases a with
          | ident n =>
            simp only [parseCaps2] at hs
            split at hs
            · rename_i c hc
              have hw := (caps_iff n c).1 hc
              split at hs
              · simp only [Option.some.injEq, Prod.mk.injEq] at hs
                obtain ⟨rfl, rfl⟩ := hs
                cases c with
                | normal => exact absurd hw (hnn n l rfl)
                | smallCaps => exact ⟨[.ident n], rfl, by simpa using PartText.smallCaps n hw⟩
                | _ => simp_all [Caps.isCss2]
              · cases hs
            · cases hs
          | _ => cases hs
      obtain ⟨t, rfl, ht⟩ := this
      refine ⟨t, some (.caps (v = .smallCaps)), rfl, ht, rfl, ?_, ?_⟩
      · intro p hp; cases hp; exact ⟨by simp [Slots.part, Part.kind, hnone], rfl⟩
      · intro k hk; have := hk _ rfl; cases k <;> first | rfl | exact absurd rfl this
    · cases hs
  split at h
  · rename_i v r' hs
    simp only [Option.some.injEq, Prod.mk.injEq] at h
    obtain ⟨rfl, rfl⟩ := h
    split at hs
    · rename_i hnone
      have hnone : s.stretch = none := by cases hh : s.stretch <;> simp_all
      have : ∃ t, l = t ++ r' ∧ PartText t (.width v.percent) := by
        cases l with
        | nil => cases hs
        | cons a l =>
          cases a with
          | ident n =>
            simp only [parseStretch] at hs
            cases hc : parseKw StretchKw.all StretchKw.text n with
            | none => rw [hc] at hs; cases hs
            | some c =>
              rw [hc] at hs
              simp only [Option.map_some, Option.some.injEq, Prod.mk.injEq] at hs
              obtain ⟨rfl, rfl⟩ := hs
              exact ⟨[.ident n], rfl, .width n _ _ (width_mem c) ((stretch_iff n c).1 hc)⟩
          | _ => cases hs
      obtain ⟨t, rfl, ht⟩ := this
      refine ⟨t, some (.width v.percent), rfl, ht, rfl, ?_, ?_⟩
      · intro p hp; cases hp; exact ⟨by simp [Slots.part, Part.kind, hnone], rfl⟩
      · intro k hk; have := hk _ rfl; cases k <;> first | rfl | exact absurd rfl this
    · cases hs
  · cases h

/-- A weight that is set stays. -/
theorem step_weight [Oblique A] (s s' : Slots A) (l r : List (Tok L A)) (h : s.step l = some (s', r)) (w : Weight) (hw : s.weight = some w) : s'.weight = some w := by
  unfold Slots.step at h
  split at h
  · simp only [Option.some.injEq, Prod.mk.injEq] at h; obtain ⟨rfl, rfl⟩ := h; exact hw
  split at h
  · simp only [Option.some.injEq, Prod.mk.injEq] at h; obtain ⟨rfl, rfl⟩ := h; exact hw
  split at h
  · rename_i hs; rw [hw] at hs; simp at hs
  split at h
  · simp only [Option.some.injEq, Prod.mk.injEq] at h; obtain ⟨rfl, rfl⟩ := h; exact hw
  split at h
  · simp only [Option.some.injEq, Prod.mk.injEq] at h; obtain ⟨rfl, rfl⟩ := h; exact hw
  · cases h

theorem loop_weight [Oblique A] : ∀ (n : Nat) (s : Slots A) (l : List (Tok L A)) (w : Weight), s.weight = some w → (Slots.loop n s l).1.weight = some w
  | 0, _, _, _, hw => hw
  | n + 1, s, l, w, hw => by
    simp only [Slots.loop]
    split
    · rename_i s' r h; exact loop_weight n s' r w (step_weight s s' l r h w hw)
    · exact hw

theorem loop_sound [Oblique A] : ∀ (n : Nat) (s : Slots A) (l : List (Tok L A)), InRange (Slots.loop n s l).1.weight →
    ∃ lead items, l = lead ++ (Slots.loop n s l).2 ∧ ItemsText lead items ∧ (Slots.loop n s l).1.count = s.count + items.length ∧
      ((items.filterMap id).map Part.kind).Nodup ∧
      (∀ p ∈ items.filterMap id, s.part p.kind = none ∧ (Slots.loop n s l).1.part p.kind = some p) ∧
      (∀ k, k ∉ (items.filterMap id).map Part.kind → (Slots.loop n s l).1.part k = s.part k)
  | 0, s, l, _ => ⟨[], [], rfl, .nil, rfl, by simp, by simp, by intro k _; rfl⟩
  | n + 1, s, l, hr => by
    simp only [Slots.loop] at hr ⊢
    split
    · rename_i s' r h
      rw [h] at hr
      simp only at hr
      have hr' : InRange s'.weight := by
        intro q hq; exact hr q (loop_weight n s' r _ hq)
      obtain ⟨t, i, rfl, h1, h2, h3, h4⟩ := step_sound s s' l r h hr'
      obtain ⟨lead, items, i1, i2, i3, i4, i5, i6⟩ := loop_sound n s' r hr
      generalize Slots.loop n s' r = x at *
      refine ⟨t ++ lead, i :: items, by rw [List.append_assoc, ← i1], .cons h1 i2, by simp [i3, h2]; omega, ?_, ?_, ?_⟩
      · cases i with
        | none => simpa using i4
        | some p =>
          simp only [List.filterMap_cons, id, List.map_cons, List.nodup_cons]
          refine ⟨?_, i4⟩
          intro hm
          obtain ⟨p', hp', hk⟩ := List.mem_map.1 hm
          have := (i5 p' hp').1
          rw [hk, (h3 p rfl).2] at this
          cases this
      · intro p hp
        cases i with
        | none =>
          have hp : p ∈ items.filterMap id := by simpa using hp
          refine ⟨?_, (i5 p hp).2⟩
          rw [← h4 p.kind (by intro p' hp'; cases hp')]
          exact (i5 p hp).1
        | some p0 =>
          simp only [List.filterMap_cons, id, List.mem_cons] at hp
          rcases hp with rfl | hp
          · refine ⟨(h3 p rfl).1, ?_⟩
            rw [i6 p.kind, (h3 p rfl).2]
            intro hm
            obtain ⟨p', hp', hk⟩ := List.mem_map.1 hm
            have := (i5 p' hp').1
            rw [hk, (h3 p rfl).2] at this
            cases this
          · refine ⟨?_, (i5 p hp).2⟩
            rw [← h4 p.kind ?_]
            · exact (i5 p hp).1
            · intro p' hp' hk
              cases hp'
              have := (i5 p hp).1
              rw [← hk, (h3 p0 rfl).2] at this
              cases this
      · intro k hk
        cases i with
        | none =>
          have hk : k ∉ (items.filterMap id).map Part.kind := by simpa using hk
          rw [i6 k hk, h4 k (by intro p hp; cases hp)]
        | some p0 =>
          simp only [List.filterMap_cons, id, List.map_cons, List.mem_cons, not_or] at hk
          rw [i6 k hk.2, h4 k (by intro p hp; cases hp; exact fun h => hk.1 h.symm)]
    · exact ⟨[], [], rfl, .nil, rfl, by simp, by simp, by intro k _; rfl⟩

theorem initial_kind (k : Kind) : (initial k : Part A).kind = k := by cases k <;> rfl

theorem initial_text [Oblique A] (k : Kind) (n : Str) (h : word n cs!"normal") : PartText ([.ident n] : List (Tok L A)) (initial k) := by
  cases k with
  | style => exact .normalStyle n h
  | caps => exact .normalCaps n h
  | weight => exact .normalWeight n h
  | width => exact .width n cs!"normal" 100 (by simp [widths]) h

theorem filterMap_none_cons {T : Type} (is : List (Option T)) : (none :: is).filterMap id = is.filterMap id := rfl

theorem filterMap_some_cons {T : Type} (p : T) (is : List (Option T)) : (some p :: is).filterMap id = p :: is.filterMap id := rfl

/-- The words `normal` can be taken as initial values of the parts that are missing. -/
theorem assign [Oblique A] {lead : List (Tok L A)} {items : List (Option (Part A))} (h : ItemsText lead items) : ∀ (F : List Kind), F.Nodup →
    items.length ≤ F.length + (items.filterMap id).length → (∀ k ∈ F, k ∉ (items.filterMap id).map Part.kind) → ((items.filterMap id).map Part.kind).Nodup →
    ∃ qs : List (Part A), PartsText lead qs ∧ (qs.map Part.kind).Nodup ∧ (∀ q ∈ qs, q ∈ items.filterMap id ∨ ∃ k ∈ F, q = initial k) ∧
      ∀ p ∈ items.filterMap id, p ∈ qs := by
  induction h with
  | nil => intro F _ _ _ _; exact ⟨[], .nil, by simp, by simp, by simp⟩
  | @cons t ts i is ht hs ih =>
    intro F hF hlen hdis hnd
    cases i with
    | none =>
      obtain ⟨n, rfl, hn⟩ := ht
      rw [filterMap_none_cons] at hlen hdis hnd ⊢
      simp only [List.length_cons] at hlen
      cases F with
      | nil =>
        have := List.length_filterMap_le (id : Option (Part A) → Option (Part A)) is
        simp only [List.length_nil] at hlen
        omega
      | cons k0 F =>
        rw [List.nodup_cons] at hF
        obtain ⟨qs, q1, q2, q3, q4⟩ := ih F hF.2 (by simp only [List.length_cons] at hlen; omega) (fun k hk => hdis k (by simp [hk])) hnd
        refine ⟨initial k0 :: qs, .cons (initial_text k0 n hn) q1, ?_, ?_, fun p hp => by simp [q4 p hp]⟩
        · rw [List.map_cons, List.nodup_cons]
          refine ⟨?_, q2⟩
          intro hm
          obtain ⟨q, hq, hk⟩ := List.mem_map.1 hm
          rw [initial_kind] at hk
          rcases q3 q hq with hq' | ⟨k, hk', rfl⟩
          · exact hdis k0 (by simp) (List.mem_map.2 ⟨q, hq', hk⟩)
          · rw [initial_kind] at hk; subst hk; exact hF.1 hk'
        · intro q hq
          rcases List.mem_cons.1 hq with rfl | hq
          · exact .inr ⟨k0, by simp, rfl⟩
          · rcases q3 q hq with hq' | ⟨k, hk', rfl⟩
            · exact .inl hq'
            · exact .inr ⟨k, by simp [hk'], rfl⟩
    | some p =>
      rw [filterMap_some_cons] at hlen hdis hnd ⊢
      simp only [List.length_cons, List.map_cons, List.nodup_cons] at hlen hdis hnd
      obtain ⟨qs, q1, q2, q3, q4⟩ := ih F hF (by omega) (fun k hk hm => hdis k hk (List.mem_cons_of_mem _ hm)) hnd.2
      refine ⟨p :: qs, .cons ht q1, ?_, ?_, ?_⟩
      · rw [List.map_cons, List.nodup_cons]
        refine ⟨?_, q2⟩
        intro hm
        obtain ⟨q, hq, hk⟩ := List.mem_map.1 hm
        rcases q3 q hq with hq' | ⟨k, hk', rfl⟩
        · exact hnd.1 (List.mem_map.2 ⟨q, hq', hk⟩)
        · rw [initial_kind] at hk; subst hk; exact hdis _ hk' (by simp)
      · intro q hq
        rcases List.mem_cons.1 hq with rfl | hq
        · exact .inl (by simp)
        · rcases q3 q hq with hq' | h
          · exact .inl (List.mem_cons_of_mem _ hq')
          · exact .inr h
      · intro p' hp'
        rcases List.mem_cons.1 hp' with rfl | hp'
        · simp
        · simp [q4 p' hp']

/-- The four kinds. -/
def kinds : List Kind := [.style, .caps, .weight, .width]

theorem free_length (K : List Kind) (_hK : K.Nodup) : 4 ≤ (kinds.filter (· ∉ K)).length + K.length := by
  have h1 : (kinds.filter (· ∈ K)).length ≤ K.length := by
    have hnd : (kinds.filter (· ∈ K)).Nodup := List.Nodup.filter _ (by decide)
    have hsub : ∀ k ∈ kinds.filter (· ∈ K), k ∈ K := by intro k hk; simpa using (List.mem_filter.1 hk).2
    exact (hnd.subperm hsub).length_le
  have h2 : (kinds.filter (· ∈ K)).length + (kinds.filter (· ∉ K)).length = 4 := by
    have := List.length_eq_length_filter_add (l := kinds) (fun k => decide (k ∈ K))
    have h4 : kinds.length = 4 := rfl
    rw [h4] at this
    have e : (kinds.filter fun k => !decide (k ∈ K)) = kinds.filter (· ∉ K) := by congr 1; funext k; simp
    rw [e] at this
    omega
  omega

end
end Verif.Font
