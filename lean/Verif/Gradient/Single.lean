import Verif.Gradient.WebkitBugs
/-! For targets without `color p q`, no colour is printed with two positions. -/
namespace Verif.Gradient
open Transform (LP)

/-- A segment in which a colour has two or more positions. -/
def Double (s : Seg) : Prop := ∃ c t u r, s = .color c :: t :: u :: r

theorem serialize_single {D : Type} (ops : Ops D) : ∀ (is : List (Item D)) (last : Option (Item D)),
    (serialize ops false last is).1 = [] ∧ ∀ s ∈ (serialize ops false last is).2, ¬ Double s
  | [], _ => ⟨rfl, by simp [serialize]⟩
  | i :: is, last => by
    unfold serialize
    split
    · exact serialize_single ops is last
    · obtain ⟨h1, h2⟩ := serialize_single ops is (some i)
      refine ⟨rfl, fun s hs => ?_⟩
      simp only [Bool.false_eq_true, if_false, List.mem_cons] at hs
      rcases hs with rfl | hs
      · rw [h1, List.append_nil]
        rintro ⟨c, t, u, r, h⟩
        rcases i with ⟨c', _ | d⟩ | d <;> simp [Item.toks, dTok] at h
      · exact h2 s hs

theorem items_single {D : Type} (ops : Ops D) (is : List (Item D)) : ∀ s ∈ printItems ops false is, ¬ Double s := (serialize_single ops is none).2

theorem mem_one {p : Prop} [Decidable p] {s x : Seg} (h : s ∈ (if p then [] else [x])) : s = x := by
  split at h
  · cases h
  · exact List.mem_singleton.1 h

/-- **C88.** When a target lacks support for two positions of one colour stop, no linear, radial or conic gradient is printed with a colour that has two positions. -/
theorem C88_single (m : Bool) : (∀ (g : Linear), ∀ s ∈ g.print m false, ¬ Double s) ∧ (∀ (g : Radial), ∀ s ∈ g.print m false, ¬ Double s) ∧
    ∀ (g : Conic), ∀ s ∈ g.print m false, ¬ Double s := by
  refine ⟨fun g s hs => ?_, fun g s hs => ?_, fun g s hs => ?_⟩
  · unfold Linear.print at hs
    split at hs
    · exact items_single _ _ s hs
    split at hs
    · exact items_single _ _ s hs
    split at hs
    · exact items_single _ _ s hs
    · rcases List.mem_cons.1 hs with rfl | hs
      · rintro ⟨c, t, u, r, h⟩
        rcases hd : g.direction with a | a | a | ⟨a, b⟩ <;> cases hp : g.prefixed <;> cases m <;> simp [hd, hp, Dir.print, hKey, vKey] at h
      · exact items_single _ _ s hs
  · unfold Radial.print at hs
    simp only [List.mem_append] at hs
    rcases hs with hs | hs
    · have hs := mem_one hs
      · subst hs
        rintro ⟨c, t, u, r, h⟩
        rcases hd : g.shape with ⟨a, b⟩ | a | a | a <;> simp only [hd] at h <;> split at h <;> split at h <;> simp [Shape.print, lpKey] at h
        all_goals (split at h <;> simp at h)
    · exact items_single _ _ s hs
  · unfold Conic.print at hs
    simp only [List.mem_append] at hs
    rcases hs with hs | hs
    · have hs := mem_one hs
      · subst hs
        rintro ⟨c, t, u, r, h⟩
        split at h <;> split at h <;> simp at h
    · exact items_single _ _ s hs

/-- Non-vacuity: `linear-gradient(red 0% 50%, blue 100%)` is printed as `linear-gradient(red 0%, red 50%, blue 100%)` for such targets, and as it is for others. -/
example (m : Bool) : ∃ g, parseLinear false [[.color 0, pctTok 0, pctTok (1 / 2)], [.color 1, pctTok 1]] = some g ∧
    g.print m false = [[.color 0, pctTok 0], [.color 0, pctTok (1 / 2)], [.color 1, pctTok 1]] ∧
    g.print m true = [[.color 0, pctTok 0, pctTok (1 / 2)], [.color 1, pctTok 1]] := by
  refine ⟨⟨false, .vertical .bottom, [.stop 0 (some (.pct 0)), .stop 0 (some (.pct (1 / 2))), .stop 1 (some (.pct 1))]⟩, rfl, ?_, ?_⟩ <;>
    (unfold Linear.print; rw [if_pos (by rfl)]; simp [printItems, serialize, useless, merge, Item.toks, dTok, lpOps, LP.print, pctTok])

end Verif.Gradient
