import Verif.Downlevel.Spec
namespace Verif.Downlevel
open Verif.Targets Spec

variable {E : Type}

theorem isComb_iff (c : Comp) : isComb c = true ↔ ∃ b k, c = .comb b k := by
  cases c <;> simp [isComb]

theorem matches_cons (d : Doc E) (a : E) (c : Comp) (s : Sel) (e : E) (h : isComb c = false) :
    Matches d a (c :: s) e ↔ Holds d a c e ∧ Matches d a s e := by
  cases c <;> simp_all [Matches, isComb]

theorem matches_append (d : Doc E) (a : E) (s s' : Sel) (e : E) (h : s.any isComb = false) :
    Matches d a (s ++ s') e ↔ Matches d a s e ∧ Matches d a s' e := by
  induction s with
  | nil => simp [Matches]
  | cons c cs ih =>
    simp only [List.any_cons, Bool.or_eq_false_iff] at h
    rw [List.cons_append, matches_cons _ _ _ _ _ h.1, matches_cons _ _ _ _ _ h.1, ih h.2, and_assoc]

theorem one (d : Doc E) (a : E) (c : Comp) (h : isComb c = false) (e : E) :
    Matches d a [c] e ↔ Holds d a c e := by
  rw [matches_cons _ _ _ _ _ h]; simp [Matches]

theorem unwrap_iff (l : List Sel) (h : shouldUnwrap l = true) : ∃ s, l = [s] ∧ isSimple s = true := by
  match l, h with
  | [s], h => simp [shouldUnwrap] at h; exact ⟨s, rfl, h.2⟩

theorem any_append (s s' : Sel) : (s ++ s').any isComb = (s.any isComb || s'.any isComb) := by simp

mutual
theorem print_noComb (vp : PrefixSet) : ∀ c : Comp, isComb c = false → (printComp vp c).any isComb = false
  | .comb _ _, h => by simp [isComb] at h
  | .is l, _ => by
    by_cases h : shouldUnwrap l = true
    · simp only [printComp, if_pos h]
      obtain ⟨s, rfl, hs⟩ := unwrap_iff l h
      exact printFirst_noComb vp _ (by simpa [isSimple] using hs)
    · simp only [printComp, if_neg h]
      split <;> simp [isComb]
  | .any p l, _ => by simp only [printComp]; split <;> simp [isComb]
  | .pre _ _, _ | .neg _, _ | .wher _, _ | .has _, _ | .fn _ _, _ | .lang _, _ | .dir _, _ | .ns _, _ | .typ _, _
  | .other _, _ => by simp [printComp, isComb]
theorem printSel_noComb (vp : PrefixSet) : ∀ s : Sel, s.any isComb = false → (printSel vp s).any isComb = false
  | [], _ => by simp [printSel]
  | c :: cs, h => by
    simp only [List.any_cons, Bool.or_eq_false_iff] at h
    rw [printSel, any_append, print_noComb vp c h.1, printSel_noComb vp cs h.2]; rfl
theorem printFirst_noComb (vp : PrefixSet) : ∀ l : List Sel, (l.headD []).any isComb = false →
    (printFirst vp l).any isComb = false
  | [], _ => by simp [printFirst]
  | s :: _, h => by rw [printFirst]; exact printSel_noComb vp s h
end

mutual
theorem print_holds (vp : PrefixSet) (d : Doc E) : ∀ (c : Comp), isComb c = false → ∀ (a e : E),
    (Matches d a (printComp vp c) e ↔ Holds d a c e)
  | .comb _ _, h, _, _ => by simp [isComb] at h
  | .is l, _, a, e => by
    by_cases h : shouldUnwrap l = true
    · simp only [printComp, if_pos h, Holds]
      obtain ⟨s, rfl, hs⟩ := unwrap_iff l h
      exact printFirst_any vp d _ rfl a e
    · simp only [printComp, if_neg h]
      split <;> (rw [one _ _ _ (by rfl)]; simp only [Holds]; exact printList_any vp d l a e)
  | .any p l, _, a, e => by
    simp only [printComp]
    split <;> (rw [one _ _ _ (by rfl)]; simp only [Holds]; exact printList_any vp d l a e)
  | .neg l, _, a, e => by
    simp only [printComp]; rw [one _ _ _ (by rfl)]; simp only [Holds]; rw [printList_any vp d l a e]
  | .wher l, _, a, e => by
    simp only [printComp]; rw [one _ _ _ (by rfl)]; simp only [Holds]; rw [printList_any vp d l a e]
  | .has l, _, a, e => by
    simp only [printComp]; rw [one _ _ _ (by rfl)]; simp only [Holds]
    have : (fun a x => AnyOf d a (printList vp l) x) = fun a x => AnyOf d a l x := by
      funext a x; exact propext (printList_any vp d l a x)
    rw [this]
  | .fn s l, _, a, e => by
    simp only [printComp]; rw [one _ _ _ (by rfl)]; simp only [Holds]
    have : (fun a x => AnyOf d a (printList vp l) x) = fun a x => AnyOf d a l x := by
      funext a x; exact propext (printList_any vp d l a x)
    rw [this]
  | .pre _ _, _, _, _ => by simp only [printComp]; rw [one _ _ _ (by rfl)]; simp only [Holds]
  | .lang _, _, _, _ | .dir _, _, _, _ | .ns _, _, _, _ | .typ _, _, _, _ | .other _, _, _, _ => by
    simp only [printComp]; rw [one _ _ _ (by rfl)]
theorem printSel_matches (vp : PrefixSet) (d : Doc E) : ∀ (s : Sel) (a e : E),
    (Matches d a (printSel vp s) e ↔ Matches d a s e)
  | [], _, _ => by simp [printSel, Matches]
  | c :: cs, a, e => by
    by_cases hc : isComb c = true
    · obtain ⟨b, k, rfl⟩ := (isComb_iff c).1 hc
      simp only [printSel, printComp, List.singleton_append, Matches]
      constructor
      · rintro ⟨x, h1, h2⟩; exact ⟨x, h1, (printSel_matches vp d cs a x).1 h2⟩
      · rintro ⟨x, h1, h2⟩; exact ⟨x, h1, (printSel_matches vp d cs a x).2 h2⟩
    · have hc' : isComb c = false := by simpa using hc
      rw [printSel, matches_append _ _ _ _ _ (print_noComb vp c hc'), print_holds vp d c hc' a e,
        printSel_matches vp d cs a e, matches_cons _ _ _ _ _ hc']
theorem printFirst_any (vp : PrefixSet) (d : Doc E) : ∀ (l : List Sel), l.length = 1 → ∀ (a e : E),
    (Matches d a (printFirst vp l) e ↔ AnyOf d a l e)
  | [s], _, a, e => by simp only [printFirst, AnyOf, or_false]; exact printSel_matches vp d s a e
theorem printList_any (vp : PrefixSet) (d : Doc E) : ∀ (l : List Sel) (a e : E),
    (AnyOf d a (printList vp l) e ↔ AnyOf d a l e)
  | [], _, _ => by simp [printList, AnyOf]
  | s :: ss, a, e => by
    rw [printList, AnyOf, AnyOf, printSel_matches vp d s a e, printList_any vp d ss a e]
end

/-! ### Weights -/

theorem max_zero (x : Weight) : x.max (0, 0, 0) = x := by
  unfold Weight.max
  split
  · rename_i h
    obtain ⟨a, b, c⟩ := x
    simp [Weight.le] at h
    obtain ⟨h1, h2, h3⟩ := h
    simp [h1, h2, h3]
  · rfl

theorem add_zero' (x : Weight) : x.add (0, 0, 0) = x := rfl
theorem zero_add' (x : Weight) : Weight.add (0, 0, 0) x = x := by simp [Weight.add]
theorem add_assoc' (x y z : Weight) : (x.add y).add z = x.add (y.add z) := by
  simp [Weight.add, Nat.add_assoc]

theorem weightSel_append (w : Weights) (s s' : Sel) :
    weightSel w (s ++ s') = (weightSel w s).add (weightSel w s') := by
  induction s with
  | nil => simp [weightSel, zero_add']
  | cons c cs ih => rw [List.cons_append, weightSel, weightSel, ih, add_assoc']

theorem weightSel_one (w : Weights) (c : Comp) : weightSel w [c] = weight w c := by
  simp [weightSel, add_zero']

mutual
theorem print_weight (vp : PrefixSet) (w : Weights) : ∀ c : Comp, weightSel w (printComp vp c) = weight w c
  | .is l => by
    by_cases h : shouldUnwrap l = true
    · simp only [printComp, if_pos h, weight]
      obtain ⟨s, rfl, hs⟩ := unwrap_iff l h
      exact printFirst_weight vp w _ rfl
    · simp only [printComp, if_neg h]
      split <;> (rw [weightSel_one]; simp only [weight]; exact printList_weight vp w l)
  | .any p l => by
    simp only [printComp]
    split <;> (rw [weightSel_one]; simp only [weight]; exact printList_weight vp w l)
  | .neg l => by simp only [printComp, weightSel_one, weight]; exact printList_weight vp w l
  | .wher l => by simp only [printComp, weightSel_one, weight]
  | .has l => by simp only [printComp, weightSel_one, weight]; exact printList_weight vp w l
  | .fn s l => by simp only [printComp, weightSel_one, weight]; rw [printList_weight vp w l]
  | .pre _ _ | .lang _ | .dir _ | .ns _ | .typ _ | .other _ | .comb _ _ => by
    simp only [printComp, weightSel_one, weight]
theorem printSel_weight (vp : PrefixSet) (w : Weights) : ∀ s : Sel, weightSel w (printSel vp s) = weightSel w s
  | [] => by simp [printSel]
  | c :: cs => by rw [printSel, weightSel_append, print_weight vp w c, printSel_weight vp w cs, weightSel]
theorem printFirst_weight (vp : PrefixSet) (w : Weights) : ∀ l : List Sel, l.length = 1 →
    weightSel w (printFirst vp l) = weightMax w l
  | [s], _ => by rw [printFirst, weightMax, weightMax, max_zero, printSel_weight vp w s]
theorem printList_weight (vp : PrefixSet) (w : Weights) : ∀ l : List Sel,
    weightMax w (printList vp l) = weightMax w l
  | [] => by simp [printList]
  | s :: ss => by rw [printList, weightMax, weightMax, printSel_weight vp w s, printList_weight vp w ss]
end

theorem printList_map (vp : PrefixSet) (w : Weights) (l : List Sel) :
    (printList vp l).map (weightSel w) = l.map (weightSel w) := by
  induction l with
  | nil => simp [printList]
  | cons s ss ih => simp [printList, printSel_weight, ih]

/-! ### Downlevelling -/

theorem anyOf_langs (d : Doc E) (a e : E) (ls : List Str) :
    AnyOf d a (langSels ls) e ↔ ∃ l ∈ ls, d.lang l e := by
  induction ls with
  | nil => simp [langSels, AnyOf]
  | cons l ls ih =>
    rw [show langSels (l :: ls) = [Comp.lang [l]] :: langSels ls from rfl, AnyOf, ih, one _ _ _ (by rfl)]
    simp [Holds]

theorem max_same (x : Weight) : x.max x = x := by unfold Weight.max; split <;> rfl

theorem weight_langs (w : Weights) : ∀ (ls : List Str), ls ≠ [] → weightMax w (langSels ls) = (0, 1, 0)
  | [l], _ => by simp [langSels, weightMax, weightSel, weight, max_zero, add_zero']
  | l :: l' :: ls, _ => by
    rw [show langSels (l :: l' :: ls) = [Comp.lang [l]] :: langSels (l' :: ls) from rfl, weightMax,
      weight_langs w (l' :: ls) (by simp)]
    simp [weightSel, weight, add_zero', max_same]

theorem down_isComb (t : Targets) (c : Comp) : isComb (downComp t c).1 = isComb c := by
  have hn : ∀ l p, isComb (downNeg t l p).1 = false := by
    intro l p; unfold downNeg; split <;> rfl
  cases c with
  | dir rtl =>
    rw [downComp]
    by_cases h : compDir t = true <;> by_cases h' : compLang t = true <;> cases rtl <;> simp [h, h', hn] <;> rfl
  | lang ls =>
    rw [downComp]
    by_cases h : (1 < ls.length && compLang t) = true
    · rw [if_pos h]; rfl
    · rw [if_neg h]
  | neg l => rw [downComp, hn]; rfl
  | _ => simp [downComp, isComb]

theorem neg_holds (t : Targets) (d : Doc E) (l : List Sel) (p : PrefixSet) (a e : E) :
    Holds d a (downNeg t l p).1 e ↔ ¬ AnyOf d a l e := by
  unfold downNeg
  split
  · simp only [Holds, AnyOf, or_false]
    rw [one _ _ _ (by rfl)]; simp only [Holds]
  · simp only [Holds]

theorem neg_weight (t : Targets) (w : Weights) (l : List Sel) (p : PrefixSet) :
    weight w (downNeg t l p).1 = weightMax w l := by
  unfold downNeg
  split
  · simp only [weight, weightMax, max_zero, weightSel_one]
  · simp only [weight]

theorem rtl_ne : rtlLangs ≠ [] := by simp [rtlLangs]

mutual
theorem down_holds (t : Targets) (d : Doc E) : ∀ (c : Comp), (compDir t = true → UsesDir c → DirByLang d) →
    ∀ (a e : E), (Holds d a (downComp t c).1 e ↔ Holds d a c e)
  | .dir rtl, hd, a, e => by
    by_cases h : compDir t = true
    · have hd' := hd h (by simp [UsesDir]) e
      have h1 := one d a (.lang rtlLangs) rfl e
      by_cases hl : compLang t = true <;> cases rtl <;>
        simp [downComp, h, hl, neg_holds, Holds, anyOf_langs, hd', AnyOf, h1]
    · simp [downComp, h, Holds]
  | .lang ls, _, a, e => by
    by_cases h : (1 < ls.length && compLang t) = true
    · simp only [downComp, if_pos h, Holds, anyOf_langs]
    · simp only [downComp, if_neg h]
  | .pre _ _, _, _, _ => by simp only [downComp, Holds]
  | .is l, hd, a, e => by
    simp only [downComp, Holds]; exact downList_any t d l hd a e
  | .neg l, hd, a, e => by
    simp only [downComp, neg_holds, Holds]; rw [downList_any t d l hd a e]
  | .wher l, hd, a, e => by
    simp only [downComp, Holds]; exact downList_any t d l hd a e
  | .any _ l, hd, a, e => by
    simp only [downComp, Holds]; exact downList_any t d l hd a e
  | .has l, hd, a, e => by
    simp only [downComp, Holds]
    have : (fun a x => AnyOf d a (downList t l).1 x) = fun a x => AnyOf d a l x := by
      funext a x; exact propext (downList_any t d l hd a x)
    rw [this]
  | .comb _ _, _, _, _ | .ns _, _, _, _ | .typ _, _, _, _ | .other _, _, _, _ | .fn _ _, _, _, _ => by
    simp only [downComp]
theorem downSel_matches (t : Targets) (d : Doc E) : ∀ (s : Sel), (compDir t = true → UsesDirSel s → DirByLang d) →
    ∀ (a e : E), (Matches d a (downSel t s).1 e ↔ Matches d a s e)
  | [], _, _, _ => by simp [downSel]
  | c :: cs, hd, a, e => by
    have h1 := down_holds t d c (fun h h' => hd h (Or.inl h'))
    have h2 := downSel_matches t d cs (fun h h' => hd h (Or.inr h'))
    by_cases hc : isComb c = true
    · obtain ⟨b, k, rfl⟩ := (isComb_iff c).1 hc
      simp only [downSel, downComp, Matches]
      constructor
      · rintro ⟨x, hx, hy⟩; exact ⟨x, hx, (h2 a x).1 hy⟩
      · rintro ⟨x, hx, hy⟩; exact ⟨x, hx, (h2 a x).2 hy⟩
    · have hc' : isComb c = false := by simpa using hc
      rw [downSel, matches_cons _ _ _ _ _ (by rw [down_isComb]; exact hc'), matches_cons _ _ _ _ _ hc', h1, h2]
theorem downList_any (t : Targets) (d : Doc E) : ∀ (l : List Sel), (compDir t = true → UsesDirList l → DirByLang d) →
    ∀ (a e : E), (AnyOf d a (downList t l).1 e ↔ AnyOf d a l e)
  | [], _, _, _ => by simp [downList]
  | s :: ss, hd, a, e => by
    rw [downList, AnyOf, AnyOf, downSel_matches t d s (fun h h' => hd h (Or.inl h')),
      downList_any t d ss (fun h h' => hd h (Or.inr h'))]
end

mutual
theorem down_weight (t : Targets) (w : Weights) : ∀ (c : Comp), weight w (downComp t c).1 = weight w c
  | .dir rtl => by
    by_cases h : compDir t = true
    · by_cases hl : compLang t = true <;> cases rtl <;>
        simp [downComp, h, hl, neg_weight, weight, weight_langs w _ rtl_ne, weightMax, weightSel_one, max_zero]
    · simp [downComp, h]
  | .lang ls => by
    by_cases h : (1 < ls.length && compLang t) = true
    · simp only [downComp, if_pos h, weight]
      exact weight_langs w ls (by rintro rfl; simp at h)
    · simp only [downComp, if_neg h]
  | .pre _ _ => by simp only [downComp, weight]
  | .is l => by simp only [downComp, weight]; exact downList_weight t w l
  | .neg l => by simp only [downComp, neg_weight, weight]; exact downList_weight t w l
  | .wher l => by simp only [downComp, weight]
  | .any _ l => by simp only [downComp, weight]; exact downList_weight t w l
  | .has l => by simp only [downComp, weight]; exact downList_weight t w l
  | .comb _ _ | .ns _ | .typ _ | .other _ | .fn _ _ => by simp only [downComp]
theorem downSel_weight (t : Targets) (w : Weights) : ∀ (s : Sel), weightSel w (downSel t s).1 = weightSel w s
  | [] => by simp [downSel]
  | c :: cs => by rw [downSel, weightSel, weightSel, down_weight t w c, downSel_weight t w cs]
theorem downList_weight (t : Targets) (w : Weights) : ∀ (l : List Sel), weightMax w (downList t l).1 = weightMax w l
  | [] => by simp [downList]
  | s :: ss => by rw [downList, weightMax, weightMax, downSel_weight t w s, downList_weight t w ss]
end

theorem downList_map (t : Targets) (w : Weights) (l : List Sel) :
    (downList t l).1.map (weightSel w) = l.map (weightSel w) := by
  induction l with
  | nil => simp [downList]
  | cons s ss ih => simp [downList, downSel_weight, ih]

end Verif.Downlevel
