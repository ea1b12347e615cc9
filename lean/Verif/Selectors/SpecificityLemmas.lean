import Verif.Selectors.Spec
/-!
# Selectors: lemmas on specificity packing and building
-/
namespace Verif.Selectors

@[ext] theorem Triple.ext' {a b : Triple} (h1 : a.ids = b.ids) (h2 : a.classes = b.classes)
    (h3 : a.elements = b.elements) : a = b := by
  cases a; cases b; simp_all

@[simp] theorem Triple.add_ids (a b : Triple) : (a + b).ids = a.ids + b.ids := rfl
@[simp] theorem Triple.add_classes (a b : Triple) : (a + b).classes = a.classes + b.classes := rfl
@[simp] theorem Triple.add_elements (a b : Triple) : (a + b).elements = a.elements + b.elements := rfl

theorem max10_eq : max10 = 1023 := by decide

/-- Each component is at most `n`. -/
def Triple.Le (a : Triple) (n : Nat) : Prop := a.ids ≤ n ∧ a.classes ≤ n ∧ a.elements ≤ n

theorem pack_eq (s : Triple) :
    pack s = min s.ids 1023 * 2 ^ 20 + min s.classes 1023 * 2 ^ 10 + min s.elements 1023 := by
  unfold pack
  rw [max10_eq]
  have h1 : min s.elements 1023 < 2 ^ 10 := by omega
  have h2 : min s.classes 1023 <<< 10 ||| min s.elements 1023
      = min s.classes 1023 * 2 ^ 10 + min s.elements 1023 := by
    rw [← Nat.shiftLeft_add_eq_or_of_lt h1, Nat.shiftLeft_eq]
  rw [Nat.or_assoc, h2]
  have h3 : min s.classes 1023 * 2 ^ 10 + min s.elements 1023 < 2 ^ 20 := by
    have : min s.classes 1023 ≤ 1023 := by omega
    omega
  rw [← Nat.shiftLeft_add_eq_or_of_lt h3, Nat.shiftLeft_eq]
  omega

theorem unpack_eq (v : Nat) : unpack v = ⟨v / 2 ^ 20, v / 2 ^ 10 % 2 ^ 10, v % 2 ^ 10⟩ := by
  unfold unpack
  have : max10 = 2 ^ 10 - 1 := by decide
  rw [this, Nat.and_two_pow_sub_one_eq_mod, Nat.and_two_pow_sub_one_eq_mod,
    Nat.shiftRight_eq_div_pow, Nat.shiftRight_eq_div_pow]

/-- The `assert!` of `From<u32>` holds for packed values (selectors/builder.rs:246). -/
theorem unpack_ok (s : Triple) : pack s ≤ (max10 <<< 20 ||| max10 <<< 10 ||| max10) := by
  have : (max10 <<< 20 ||| max10 <<< 10 ||| max10) = 1073741823 := by decide
  rw [this, pack_eq]
  have h1 : min s.ids 1023 ≤ 1023 := by omega
  have h2 : min s.classes 1023 ≤ 1023 := by omega
  have h3 : min s.elements 1023 ≤ 1023 := by omega
  omega

theorem unpack_pack (s : Triple) :
    unpack (pack s) = ⟨min s.ids 1023, min s.classes 1023, min s.elements 1023⟩ := by
  rw [unpack_eq, pack_eq]
  have h1 : min s.ids 1023 ≤ 1023 := by omega
  have h2 : min s.classes 1023 ≤ 1023 := by omega
  have h3 : min s.elements 1023 ≤ 1023 := by omega
  generalize min s.ids 1023 = a at *
  generalize min s.classes 1023 = b at *
  generalize min s.elements 1023 = c at *
  ext <;> simp <;> omega

theorem unpack_pack_of_le {s : Triple} (h : s.Le 1023) : unpack (pack s) = s := by
  rw [unpack_pack]
  obtain ⟨h1, h2, h3⟩ := h
  ext <;> simp <;> omega

theorem pack_le_iff {a b : Triple} (ha : a.Le 1023) (hb : b.Le 1023) :
    pack a ≤ pack b ↔ a.lexLe b := by
  obtain ⟨a1, a2, a3⟩ := ha
  obtain ⟨b1, b2, b3⟩ := hb
  rw [pack_eq, pack_eq, Nat.min_eq_left a1, Nat.min_eq_left a2, Nat.min_eq_left a3,
    Nat.min_eq_left b1, Nat.min_eq_left b2, Nat.min_eq_left b3]
  unfold Triple.lexLe
  omega

theorem pack_zero : pack ⟨0, 0, 0⟩ = 0 := by decide

theorem lexMax_le {a b : Triple} {n : Nat} (ha : a.Le n) (hb : b.Le n) : (a.lexMax b).Le n := by
  unfold Triple.lexMax; split <;> assumption

theorem pack_lexMax {a b : Triple} (ha : a.Le 1023) (hb : b.Le 1023) :
    pack (a.lexMax b) = max (pack a) (pack b) := by
  unfold Triple.lexMax
  split
  · rename_i h
    have := (pack_le_iff ha hb).2 h
    omega
  · rename_i h
    have : ¬ pack a ≤ pack b := fun h' => h ((pack_le_iff ha hb).1 h')
    omega

theorem le_add {a b : Triple} {m n : Nat} (ha : a.Le m) (hb : b.Le n) : (a + b).Le (m + n) := by
  obtain ⟨a1, a2, a3⟩ := ha
  obtain ⟨b1, b2, b3⟩ := hb
  exact ⟨by simp; omega, by simp; omega, by simp; omega⟩

theorem Triple.Le.mono {a : Triple} {m n : Nat} (ha : a.Le m) (h : m ≤ n) : a.Le n := by
  obtain ⟨a1, a2, a3⟩ := ha
  exact ⟨by omega, by omega, by omega⟩

/-! ### A selector's specificity is bounded by its number of simple selectors -/

mutual
theorem Component.weight_le : ∀ c : Component, c.weight.Le c.count
  | .combinator _ | .anyNamespace | .noNamespace | .defaultNamespace _ | .namespace _ _
  | .universal | .viewTransitionAny _ | .nesting | .localName _ _ | .part _
  | .pseudoElement _ | .id _ | .cls _ | .attrExists _ | .attr _ | .attrOther _ | .root | .empty
  | .scope | .nth _ | .pseudoClass _ | .host => by
    simp only [Component.weight, Component.count, Triple.Le]; omega
  | .where l => by
    simp only [Component.weight, Component.count, Triple.Le]; omega
  | .negation l => (maxWeight_le l).mono (by simp only [Component.count]; omega)
  | .is l => (maxWeight_le l).mono (by simp only [Component.count]; omega)
  | .any l => (maxWeight_le l).mono (by simp only [Component.count]; omega)
  | .has l => (maxWeight_le l).mono (by simp only [Component.count]; omega)
  | .nthOf _ l => by
    simp only [Component.weight, Component.count]
    exact le_add ⟨by simp, by simp, by simp⟩ (maxWeight_le l)
  | .local s => (Selector.weight_le s).mono (by simp only [Component.count]; omega)
  | .global s => (Selector.weight_le s).mono (by simp only [Component.count]; omega)
  | .slotted s => by
    simp only [Component.weight, Component.count]
    exact le_add ⟨by simp, by simp, by simp⟩ (Selector.weight_le s)
  | .hostFn s => by
    simp only [Component.weight, Component.count]
    exact le_add ⟨by simp, by simp, by simp⟩ (Selector.weight_le s)
theorem Selector.weight_le : ∀ s : Selector, s.weight.Le s.count
  | .mk _ cs => by
    simp only [Selector.weight, Selector.count]
    exact sumWeight_le cs
theorem sumWeight_le : ∀ cs : List Component, (sumWeight cs).Le (countComps cs)
  | [] => by simp [sumWeight, countComps, Triple.Le]
  | c :: cs => by
    simp only [sumWeight, countComps]
    exact le_add (Component.weight_le c) (sumWeight_le cs)
theorem maxWeight_le : ∀ l : List Selector, (maxWeight l).Le (countList l)
  | [] => by simp [maxWeight, countList, Triple.Le]
  | s :: ss => by
    simp only [maxWeight, countList]
    exact lexMax_le ((Selector.weight_le s).mono (by omega)) ((maxWeight_le ss).mono (by omega))
end

/-! ### The computed specificity -/

theorem foldl_max_acc (l : List Selector) (m : Nat) :
    l.foldl (fun m s => max s.specificity m) m = max m (maxSpecificity l) := by
  unfold maxSpecificity
  induction l generalizing m with
  | nil => simp
  | cons s ss ih =>
    simp only [List.foldl_cons]
    rw [ih (max s.specificity m), ih (max s.specificity 0)]
    omega

theorem maxSpecificity_cons (s : Selector) (ss : List Selector) :
    maxSpecificity (s :: ss) = max s.specificity (maxSpecificity ss) := by
  have := foldl_max_acc ss (max s.specificity 0)
  simp only [maxSpecificity, List.foldl_cons] at *
  rw [this]
  omega

theorem add_assoc' (a b c : Triple) : a + b + c = a + (b + c) := by
  ext <;> simp <;> omega

theorem inc_classes (acc : Triple) (t : Triple) :
    ({ acc with classes := acc.classes + 1 } + t : Triple) = acc + (⟨0, 1, 0⟩ + t) := by
  ext <;> simp <;> omega

theorem inc_elements (acc : Triple) (t : Triple) :
    ({ acc with elements := acc.elements + 1 } + t : Triple) = acc + (⟨0, 0, 1⟩ + t) := by
  ext <;> simp <;> omega

mutual
theorem addSimple_eq : ∀ (c : Component) (acc : Triple), c.Built → c.Plain → c.count ≤ 1023 →
    addSimple acc c = acc + c.weight
  | .combinator _, acc, _, _, _ | .anyNamespace, acc, _, _, _ | .noNamespace, acc, _, _, _
  | .defaultNamespace _, acc, _, _, _ | .namespace _ _, acc, _, _, _ | .universal, acc, _, _, _
  | .nesting, acc, _, _, _ | .localName _ _, acc, _, _, _ | .part _, acc, _, _, _
  | .pseudoElement _, acc, _, _, _ | .id _, acc, _, _, _ | .cls _, acc, _, _, _
  | .attrExists _, acc, _, _, _ | .attr _, acc, _, _, _ | .attrOther _, acc, _, _, _
  | .root, acc, _, _, _ | .empty, acc, _, _, _ | .scope, acc, _, _, _ | .nth _, acc, _, _, _
  | .pseudoClass _, acc, _, _, _ | .host, acc, _, _, _ | .where _, acc, _, _, _ => by
    simp only [addSimple, Component.weight]; ext <;> simp
  | .viewTransitionAny _, _, _, hp, _ => by simp only [Component.Plain] at hp
  | .has _, _, _, hp, _ => by simp only [Component.Plain] at hp
  | .local _, _, _, hp, _ => by simp only [Component.Plain] at hp
  | .global _, _, _, hp, _ => by simp only [Component.Plain] at hp
  | .negation l, acc, hb, hp, hc => by
    simp only [Component.Built] at hb; simp only [Component.Plain] at hp
    simp only [Component.count] at hc
    simp only [addSimple, Component.weight]
    rw [maxSpecificity_eq l hb hp (by omega),
      unpack_pack_of_le ((maxWeight_le l).mono (by omega))]
  | .is l, acc, hb, hp, hc => by
    simp only [Component.Built] at hb; simp only [Component.Plain] at hp
    simp only [Component.count] at hc
    simp only [addSimple, Component.weight]
    rw [maxSpecificity_eq l hb hp (by omega),
      unpack_pack_of_le ((maxWeight_le l).mono (by omega))]
  | .any l, acc, hb, hp, hc => by
    simp only [Component.Built] at hb; simp only [Component.Plain] at hp
    simp only [Component.count] at hc
    simp only [addSimple, Component.weight]
    rw [maxSpecificity_eq l hb hp (by omega),
      unpack_pack_of_le ((maxWeight_le l).mono (by omega))]
  | .nthOf _ l, acc, hb, hp, hc => by
    simp only [Component.Built] at hb; simp only [Component.Plain] at hp
    simp only [Component.count] at hc
    simp only [addSimple, Component.weight]
    rw [maxSpecificity_eq l hb hp (by omega),
      unpack_pack_of_le ((maxWeight_le l).mono (by omega)), inc_classes]
  | .slotted s, acc, hb, hp, hc => by
    simp only [Component.Built] at hb; simp only [Component.Plain] at hp
    simp only [Component.count] at hc
    simp only [addSimple, Component.weight]
    rw [Selector.specificity_eq s hb hp (by omega),
      unpack_pack_of_le ((Selector.weight_le s).mono (by omega)), inc_elements]
  | .hostFn s, acc, hb, hp, hc => by
    simp only [Component.Built] at hb; simp only [Component.Plain] at hp
    simp only [Component.count] at hc
    simp only [addSimple, Component.weight]
    rw [Selector.specificity_eq s hb hp (by omega),
      unpack_pack_of_le ((Selector.weight_le s).mono (by omega)), inc_classes]
theorem Selector.specificity_eq : ∀ (s : Selector), s.Built → s.Plain → s.count ≤ 1023 →
    s.specificity = pack s.weight
  | .mk n cs, hb, hp, hc => by
    simp only [Selector.Built] at hb; simp only [Selector.Plain] at hp
    simp only [Selector.count] at hc
    simp only [Selector.specificity, Selector.weight]
    rw [hb.1, specificityOf, foldl_addSimple cs ⟨0, 0, 0⟩ hb.2 hp hc]
    congr 1
    ext <;> simp
theorem foldl_addSimple : ∀ (cs : List Component) (acc : Triple), BuiltComps cs → PlainComps cs →
    countComps cs ≤ 1023 → cs.foldl addSimple acc = acc + sumWeight cs
  | [], acc, _, _, _ => by simp only [List.foldl_nil, sumWeight]; ext <;> simp
  | c :: cs, acc, hb, hp, hc => by
    simp only [BuiltComps] at hb; simp only [PlainComps] at hp; simp only [countComps] at hc
    simp only [List.foldl_cons, sumWeight]
    rw [addSimple_eq c acc hb.1 hp.1 (by omega), foldl_addSimple cs _ hb.2 hp.2 (by omega),
      add_assoc']
theorem maxSpecificity_eq : ∀ (l : List Selector), BuiltList l → PlainList l →
    countList l ≤ 1023 → maxSpecificity l = pack (maxWeight l)
  | [], _, _, _ => by simp [maxSpecificity, maxWeight, pack_zero]
  | s :: ss, hb, hp, hc => by
    simp only [BuiltList] at hb; simp only [PlainList] at hp; simp only [countList] at hc
    rw [maxSpecificity_cons, Selector.specificity_eq s hb.1 hp.1 (by omega),
      maxSpecificity_eq ss hb.2 hp.2 (by omega)]
    simp only [maxWeight]
    rw [pack_lexMax ((Selector.weight_le s).mono (by omega)) ((maxWeight_le ss).mono (by omega))]
end

end Verif.Selectors
