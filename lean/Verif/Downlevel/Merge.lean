import Verif.Downlevel.Cover
namespace Verif.Downlevel
open Verif.Targets Spec

variable {E : Type}

/-! ### Equality and equivalence -/

mutual
theorem beq_eq : ∀ c c' : Comp, beqComp c c' = true → c = c' := by
  intro c c' h
  match c, c' with
  | .comb b k, .comb b' k' => simp [beqComp] at h; simp [h]
  | .ns s, .ns s' => simp [beqComp] at h; simp [h]
  | .typ s, .typ s' => simp [beqComp] at h; simp [h]
  | .other s, .other s' => simp [beqComp] at h; simp [h]
  | .pre k p, .pre k' p' => simp [beqComp] at h; simp [h]
  | .lang ls, .lang ls' => simp [beqComp] at h; simp [h]
  | .dir r, .dir r' => simp [beqComp] at h; simp [h]
  | .is l, .is l' => simp only [beqComp] at h; rw [beqList_eq l l' h]
  | .neg l, .neg l' => simp only [beqComp] at h; rw [beqList_eq l l' h]
  | .wher l, .wher l' => simp only [beqComp] at h; rw [beqList_eq l l' h]
  | .any p l, .any p' l' =>
    simp only [beqComp, Bool.and_eq_true, beq_iff_eq] at h; rw [h.1, beqList_eq l l' h.2]
  | .has l, .has l' => simp only [beqComp] at h; rw [beqList_eq l l' h]
  | .fn s l, .fn s' l' =>
    simp only [beqComp, Bool.and_eq_true, beq_iff_eq] at h; rw [h.1, beqList_eq l l' h.2]
theorem beqSel_eq : ∀ s s' : Sel, beqSel s s' = true → s = s'
  | [], [], _ => rfl
  | c :: cs, c' :: cs', h => by
    simp only [beqSel, Bool.and_eq_true] at h; rw [beq_eq c c' h.1, beqSel_eq cs cs' h.2]
theorem beqList_eq : ∀ l l' : List Sel, beqList l l' = true → l = l'
  | [], [], _ => rfl
  | s :: ss, s' :: ss', h => by
    simp only [beqList, Bool.and_eq_true] at h; rw [beqSel_eq s s' h.1, beqList_eq ss ss' h.2]
end

theorem eqv_cases (c c' : Comp) (h : eqvComp c c' = true) :
    (∃ k p p', c = .pre k p ∧ c' = .pre k p') ∨
    (∃ l l', ((c = .is l ∨ ∃ p, c = .any p l) ∧ (c' = .is l' ∨ ∃ p, c' = .any p l')) ∧ eqvList l l' = true) ∨
    c = c' := by
  match c, c' with
  | .pre k p, .pre k' p' => simp [eqvComp] at h; subst h; exact Or.inl ⟨k, p, p', rfl, rfl⟩
  | .any p l, .is l' => exact Or.inr (Or.inl ⟨l, l', ⟨Or.inr ⟨p, rfl⟩, Or.inl rfl⟩, by simpa [eqvComp] using h⟩)
  | .is l, .any p l' => exact Or.inr (Or.inl ⟨l, l', ⟨Or.inl rfl, Or.inr ⟨p, rfl⟩⟩, by simpa [eqvComp] using h⟩)
  | .any p l, .any p' l' =>
    exact Or.inr (Or.inl ⟨l, l', ⟨Or.inr ⟨p, rfl⟩, Or.inr ⟨p', rfl⟩⟩, by simpa [eqvComp] using h⟩)
  | .is l, .is l' => exact Or.inr (Or.inl ⟨l, l', ⟨Or.inl rfl, Or.inl rfl⟩, by simpa [eqvComp] using h⟩)
  | .comb _ _, c' | .ns _, c' | .typ _, c' | .other _, c' | .lang _, c' | .dir _, c' | .neg _, c' | .wher _, c'
  | .has _, c' | .fn _ _, c' => exact Or.inr (Or.inr (beq_eq _ _ (by simpa [eqvComp] using h)))
  | .pre k p, .comb _ _ | .pre k p, .ns _ | .pre k p, .typ _ | .pre k p, .other _ | .pre k p, .lang _ | .pre k p, .dir _
  | .pre k p, .neg _ | .pre k p, .wher _ | .pre k p, .has _ | .pre k p, .fn _ _ | .pre k p, .is _ | .pre k p, .any _ _ =>
    exact Or.inr (Or.inr (beq_eq _ _ (by simpa [eqvComp] using h)))
  | .is k, .comb _ _ | .is k, .ns _ | .is k, .typ _ | .is k, .other _ | .is k, .lang _ | .is k, .dir _
  | .is k, .neg _ | .is k, .wher _ | .is k, .has _ | .is k, .fn _ _ | .is k, .pre _ _ =>
    exact Or.inr (Or.inr (beq_eq _ _ (by simpa [eqvComp] using h)))
  | .any p k, .comb _ _ | .any p k, .ns _ | .any p k, .typ _ | .any p k, .other _ | .any p k, .lang _ | .any p k, .dir _
  | .any p k, .neg _ | .any p k, .wher _ | .any p k, .has _ | .any p k, .fn _ _ | .any p k, .pre _ _ =>
    exact Or.inr (Or.inr (beq_eq _ _ (by simpa [eqvComp] using h)))

theorem eqv_isComb (c c' : Comp) (h : eqvComp c c' = true) : isComb c = isComb c' := by
  rcases eqv_cases c c' h with ⟨k, p, p', rfl, rfl⟩ | ⟨l, l', ⟨h1, h2⟩, _⟩ | rfl
  · rfl
  · rcases h1 with rfl | ⟨_, rfl⟩ <;> rcases h2 with rfl | ⟨_, rfl⟩ <;> rfl
  · rfl

mutual
theorem eqv_sem (d : Doc E) (w : Weights) : ∀ c c' : Comp, eqvComp c c' = true →
    (∀ a e, Holds d a c e ↔ Holds d a c' e) ∧ weight w c = weight w c'
  | .is l, c', h => by
    rcases eqv_cases _ c' h with ⟨k, p, p', h1, _⟩ | ⟨l1, l', ⟨h1, h2⟩, h3⟩ | rfl
    · cases h1
    · have : l = l1 := by rcases h1 with h1 | ⟨_, h1⟩ <;> cases h1; rfl
      subst this
      have ih := eqvList_sem d w l l' h3
      rcases h2 with rfl | ⟨_, rfl⟩ <;> simp only [Holds, weight] <;> exact ⟨ih.1, ih.2.1⟩
    · exact ⟨fun _ _ => Iff.rfl, rfl⟩
  | .any p l, c', h => by
    rcases eqv_cases _ c' h with ⟨k, p, p', h1, _⟩ | ⟨l1, l', ⟨h1, h2⟩, h3⟩ | rfl
    · cases h1
    · have : l = l1 := by rcases h1 with h1 | ⟨_, h1⟩ <;> cases h1; rfl
      subst this
      have ih := eqvList_sem d w l l' h3
      rcases h2 with rfl | ⟨_, rfl⟩ <;> simp only [Holds, weight] <;> exact ⟨ih.1, ih.2.1⟩
    · exact ⟨fun _ _ => Iff.rfl, rfl⟩
  | .pre k p, c', h => by
    rcases eqv_cases _ c' h with ⟨k, p, p', h1, rfl⟩ | ⟨l1, l', ⟨h1, h2⟩, h3⟩ | rfl
    · cases h1; simp only [Holds, weight]; exact ⟨fun _ _ => trivial, trivial⟩
    · rcases h1 with h1 | ⟨_, h1⟩ <;> cases h1
    · exact ⟨fun _ _ => Iff.rfl, rfl⟩
  | .comb _ _, c', h | .ns _, c', h | .typ _, c', h | .other _, c', h | .lang _, c', h | .dir _, c', h | .neg _, c', h
  | .wher _, c', h | .has _, c', h | .fn _ _, c', h => by
    rcases eqv_cases _ c' h with ⟨k, p, p', h1, _⟩ | ⟨l1, l', ⟨h1, h2⟩, h3⟩ | rfl
    · cases h1
    · rcases h1 with h1 | ⟨_, h1⟩ <;> cases h1
    · exact ⟨fun _ _ => Iff.rfl, rfl⟩
theorem eqvSel_sem (d : Doc E) (w : Weights) : ∀ s s' : Sel, eqvSel s s' = true →
    (∀ a e, Matches d a s e ↔ Matches d a s' e) ∧ weightSel w s = weightSel w s'
  | [], [], _ => ⟨fun _ _ => Iff.rfl, rfl⟩
  | c :: cs, c' :: cs', h => by
    simp only [eqvSel, Bool.and_eq_true] at h
    have h1 := eqv_sem d w c c' h.1
    have h2 := eqvSel_sem d w cs cs' h.2
    have hk := eqv_isComb c c' h.1
    refine ⟨fun a e => ?_, by rw [weightSel, weightSel, h1.2, h2.2]⟩
    by_cases hc : isComb c = true
    · obtain ⟨b, k, rfl⟩ := (isComb_iff c).1 hc
      have : c' = .comb b k := (beq_eq _ _ (by simpa [eqvComp] using h.1)).symm
      subst this
      simp only [Matches]
      constructor
      · rintro ⟨x, hx, hy⟩; exact ⟨x, hx, (h2.1 a x).1 hy⟩
      · rintro ⟨x, hx, hy⟩; exact ⟨x, hx, (h2.1 a x).2 hy⟩
    · have hc' : isComb c = false := by simpa using hc
      rw [matches_cons _ _ _ _ _ hc', matches_cons _ _ _ _ _ (by rw [← hk]; exact hc'), h1.1, h2.1]
theorem eqvList_sem (d : Doc E) (w : Weights) : ∀ l l' : List Sel, eqvList l l' = true →
    (∀ a e, AnyOf d a l e ↔ AnyOf d a l' e) ∧ weightMax w l = weightMax w l' ∧
      l.map (weightSel w) = l'.map (weightSel w)
  | [], [], _ => ⟨fun _ _ => Iff.rfl, rfl, rfl⟩
  | s :: ss, s' :: ss', h => by
    simp only [eqvList, Bool.and_eq_true] at h
    have h1 := eqvSel_sem d w s s' h.1
    have h2 := eqvList_sem d w ss ss' h.2
    refine ⟨fun a e => ?_, by rw [weightMax, weightMax, h1.2, h2.2.1], by simp [h1.2, h2.2.2]⟩
    rw [AnyOf, AnyOf, h1.1, h2.1]
end

/-! ### Plain selectors -/

theorem plain_prefix {P : Prefix → Prop} {c : Comp} (h : Plain P c) :
    compPrefix c = .empty ∨ ∃ p, P p ∧ compPrefix c = p.set := by
  cases c <;> simp_all [Plain, compPrefix]

theorem set_ne_empty (p : Prefix) : isEmpty p.set = false := by cases p <;> rfl

theorem dropNone_set {p : Prefix} (h : p ≠ .none) : dropNone p.set = p.set := by cases p <;> simp_all [dropNone, Prefix.set]

theorem union_self (a : PrefixSet) : a.union a = a := by
  obtain ⟨a, b, c, d, e⟩ := a; simp [PrefixSet.union]

theorem empty_union (a : PrefixSet) : PrefixSet.empty.union a = a := by
  obtain ⟨a, b, c, d, e⟩ := a; simp [PrefixSet.union, PrefixSet.empty]

theorem set_inj {p q : Prefix} (h : p.set = q.set) : p = q := by cases p <;> cases q <;> simp_all [Prefix.set]

theorem loop_prefixed : ∀ (cs : List Comp) (acc : PrefixSet), (∀ c ∈ cs, Plain (· ≠ .none) c) →
    (acc = .empty ∨ ∃ p, p ≠ Prefix.none ∧ acc = p.set) → ∀ q, prefixLoop acc cs = some q →
    (q = .empty ∨ ∃ p, p ≠ Prefix.none ∧ q = p.set) ∧ (acc = .empty ∨ q = acc) ∧
    ∀ c ∈ cs, compPrefix c = .empty ∨ compPrefix c = q
  | [], acc, _, ha, q, hq => by
    rw [prefixLoop] at hq; cases hq; exact ⟨ha, Or.inr rfl, by simp⟩
  | c :: cs, acc, h, ha, q, hq => by
    have hcs : ∀ c' ∈ cs, Plain (· ≠ .none) c' := fun c' h' => h c' (by simp [h'])
    rw [prefixLoop] at hq
    rcases plain_prefix (h c (by simp)) with hc | ⟨p, hp, hc⟩
    · rw [if_pos (by rw [hc]; rfl)] at hq
      obtain ⟨h1, h2, h3⟩ := loop_prefixed cs acc hcs ha q hq
      refine ⟨h1, h2, fun c' hc' => ?_⟩
      simp only [List.mem_cons] at hc'
      rcases hc' with rfl | hc'
      · exact Or.inl hc
      · exact h3 c' hc'
    · rw [if_neg (by rw [hc, set_ne_empty]; decide)] at hq
      rw [hc] at hq
      have key : (acc = .empty ∨ acc = p.set) ∧ prefixLoop p.set cs = some q := by
        rcases ha with rfl | ⟨p', hp', rfl⟩
        · rw [if_pos (by rfl), empty_union] at hq
          exact ⟨Or.inl rfl, hq⟩
        · rw [dropNone_set hp', set_ne_empty] at hq
          by_cases he : p'.set = p.set
          · rw [if_pos (by simp [he]), he, union_self] at hq
            exact ⟨Or.inr he, hq⟩
          · rw [if_neg (by simp [he])] at hq; cases hq
      obtain ⟨h1, h2, h3⟩ := loop_prefixed cs p.set hcs (Or.inr ⟨p, hp, rfl⟩) q key.2
      have hq' : q = p.set := by
        rcases h2 with h2 | h2
        · exact absurd h2 (by cases p <;> simp [Prefix.set, PrefixSet.empty])
        · exact h2
      refine ⟨h1, by rw [hq']; exact key.1.imp id Eq.symm, fun c' hc' => ?_⟩
      simp only [List.mem_cons] at hc'
      rcases hc' with rfl | hc'
      · exact Or.inr (by rw [hc, hq'])
      · exact h3 c' hc'

theorem print_plain (vp : PrefixSet) (P : Prefix → Prop) (c : Comp) (h : Plain P c)
    (hs : ∀ k q, c = .pre k q → shown vp q = q) : printComp vp c = [c] := by
  cases c <;> simp_all [Plain, printComp]

theorem printSel_plain (vp : PrefixSet) (P : Prefix → Prop) (s : Sel) (h : ∀ c ∈ s, Plain P c)
    (hs : ∀ k q, Comp.pre k q ∈ s → shown vp q = q) : printSel vp s = s := by
  induction s with
  | nil => rw [printSel]
  | cons c cs ih =>
    rw [printSel, print_plain vp P c (h c (by simp)) (fun k q he => hs k q (by simp [he])),
      ih (fun c' h' => h c' (by simp [h'])) (fun k q he => hs k q (by simp [he]))]
    rfl

theorem printList_plain (vp : PrefixSet) (P : Prefix → Prop) (l : List Sel) (h : ∀ s ∈ l, ∀ c ∈ s, Plain P c)
    (hs : ∀ s ∈ l, ∀ k q, Comp.pre k q ∈ s → shown vp q = q) : printList vp l = l := by
  induction l with
  | nil => rw [printList]
  | cons s ss ih =>
    rw [printList, printSel_plain vp P s (h s (by simp)) (hs s (by simp)),
      ih (fun s' h' => h s' (by simp [h'])) (fun s' h' => hs s' (by simp [h']))]

theorem flags_set (p : Prefix) : flags p.set = [p] := by cases p <;> decide

/-- A rule in which every prefixable pseudo has a prefix is printed once, unchanged. -/
theorem output_prefixed (t : Targets) (l : List Sel) (h : ∀ s ∈ l, ∀ c ∈ s, Plain (· ≠ .none) c) :
    output t l = [l] := by
  have hf : ∀ c ∈ l.flatten, Plain (· ≠ .none) c := by
    intro c hc; rw [List.mem_flatten] at hc; obtain ⟨s, hs, hc⟩ := hc; exact h s hs c hc
  have main : ∀ q, getPrefix l = q → (q = .empty ∨ ∃ p, p ≠ Prefix.none ∧ q = p.set ∧
      ∀ c ∈ l.flatten, compPrefix c = .empty ∨ compPrefix c = q) → output t l = [l] := by
    intro q hg hq
    have hnone : (getPrefix l).has .none = false := by
      rw [hg]
      rcases hq with rfl | ⟨p, hp, rfl, _⟩
      · rfl
      · cases p <;> simp_all [Prefix.set, PrefixSet.has]
    have hu : updatePrefix t l = ⟨l, q⟩ := by
      rw [updatePrefix, if_neg (by rw [hnone]; simp), hg]
    rw [output, hu, copies]
    rcases hq with rfl | ⟨p, hp, rfl, hall⟩
    · rw [if_pos (by rfl), printList_plain .empty _ l h (fun _ _ _ q _ => shown_empty q)]
    · rw [if_neg (by simp [set_ne_empty])]
      show (flags p.set).map _ = _
      rw [flags_set, List.map_singleton, printList_plain p.set _ l h]
      intro s hs k q hk
      have hm : Comp.pre k q ∈ l.flatten := by rw [List.mem_flatten]; exact ⟨s, hs, hk⟩
      obtain ⟨p', hp', hq'⟩ := h s hs _ hk
      have : q = p.set := by
        rcases hall _ hm with h1 | h1
        · simp only [compPrefix] at h1; rw [hq'] at h1
          exact absurd h1 (by cases p' <;> simp [Prefix.set, PrefixSet.empty])
        · simpa only [compPrefix] using h1
      rw [this]; exact shown_has p p.set ((set_has p p).2 rfl)
  cases hl : prefixLoop .empty l.flatten with
  | none => exact main .empty (by rw [getPrefix, hl]; rfl) (Or.inl rfl)
  | some q =>
    obtain ⟨h1, h2, h3⟩ := loop_prefixed l.flatten .empty hf (Or.inl rfl) q hl
    refine main q (by rw [getPrefix, hl]; rfl) ?_
    rcases h1 with h1 | ⟨p, hp, hq⟩
    · exact Or.inl h1
    · exact Or.inr ⟨p, hp, hq, h3⟩

/-! ### A prefixed rule followed by the standard one -/

theorem named_plain (p : Prefix) (c : Comp) (h : Plain (· = .none) c) (q : Prefix) (hq : q = p) :
    Plain (· = q) (named p c) := by
  subst hq
  cases c <;> simp_all [Plain, named]

theorem eqv_named (p : Prefix) (c : Comp) (h : Plain (· = .none) c) : eqvComp c (named p c) = true := by
  cases c <;> simp_all [Plain, named, eqvComp, beqComp]

theorem eqvSel_named (p : Prefix) (s : Sel) (h : ∀ c ∈ s, Plain (· = .none) c) :
    eqvSel s (s.map (named p)) = true := by
  induction s with
  | nil => rfl
  | cons c cs ih =>
    rw [List.map_cons, eqvSel, eqv_named p c (h c (by simp)), ih (fun c' h' => h c' (by simp [h']))]; rfl

theorem eqvList_named (p : Prefix) (l : List Sel) (h : ∀ s ∈ l, ∀ c ∈ s, Plain (· = .none) c) :
    eqvList l (l.map (·.map (named p))) = true := by
  induction l with
  | nil => rfl
  | cons s ss ih =>
    rw [List.map_cons, eqvList, eqvSel_named p s (h s (by simp)), ih (fun s' h' => h s' (by simp [h']))]; rfl

theorem print_named (p : Prefix) (c : Comp) (h : Plain (· = .none) c) :
    printComp p.set (named p c) = [named p c] ∧ printComp Prefix.none.set (named p c) = [c] := by
  cases c <;> simp_all [Plain, named, printComp, shown_none, shown_has p p.set ((set_has p p).2 rfl)]

theorem printSel_named (p : Prefix) (s : Sel) (h : ∀ c ∈ s, Plain (· = .none) c) :
    printSel p.set (s.map (named p)) = s.map (named p) ∧ printSel Prefix.none.set (s.map (named p)) = s := by
  induction s with
  | nil => simp [printSel]
  | cons c cs ih =>
    have h1 := print_named p c (h c (by simp))
    have h2 := ih (fun c' h' => h c' (by simp [h']))
    simp [printSel, h1, h2]

theorem printList_named (p : Prefix) (l : List Sel) (h : ∀ s ∈ l, ∀ c ∈ s, Plain (· = .none) c) :
    printList p.set (l.map (·.map (named p))) = l.map (·.map (named p)) ∧
    printList Prefix.none.set (l.map (·.map (named p))) = l := by
  induction l with
  | nil => simp [printList]
  | cons s ss ih =>
    have h1 := printSel_named p s (h s (by simp))
    have h2 := ih (fun s' h' => h s' (by simp [h']))
    simp [printList, h1, h2]

theorem loop_const (p : Prefix) : ∀ (cs : List Comp) (acc : PrefixSet),
    (∀ c ∈ cs, compPrefix c = .empty ∨ compPrefix c = p.set) → (acc = .empty ∨ acc = p.set) →
    (acc = p.set ∨ ∃ c ∈ cs, compPrefix c = p.set) → prefixLoop acc cs = some p.set
  | [], acc, _, _, hx => by
    rcases hx with rfl | ⟨c, hc, _⟩
    · rfl
    · cases hc
  | c :: cs, acc, h, ha, hx => by
    have hcs : ∀ c ∈ cs, compPrefix c = .empty ∨ compPrefix c = p.set := fun c' h' => h c' (by simp [h'])
    have hne : p.set ≠ .empty := by cases p <;> simp [Prefix.set, PrefixSet.empty]
    rcases h c (by simp) with hc | hc
    · rw [prefixLoop, hc, if_pos (by rfl)]
      refine loop_const p cs acc hcs ha ?_
      rcases hx with hx | ⟨c', h1, h2⟩
      · exact Or.inl hx
      · simp only [List.mem_cons] at h1
        rcases h1 with rfl | h1
        · rw [hc] at h2; exact absurd h2.symm hne
        · exact Or.inr ⟨c', h1, h2⟩
    · have hu : acc.union p.set = p.set := by
        rcases ha with rfl | rfl
        · exact empty_union _
        · exact union_self _
      rw [prefixLoop, hc, if_neg (by rw [set_ne_empty]; decide), if_pos, hu]
      · exact loop_const p cs p.set hcs (Or.inr rfl) (Or.inl rfl)
      · rcases ha with rfl | rfl
        · rfl
        · cases p <;> rfl

theorem getPrefix_const (p : Prefix) (l : List Sel) (h : ∀ s ∈ l, ∀ c ∈ s, Plain (· = p) c)
    (k : Pseudo) (hk : ∃ s ∈ l, Comp.pre k p.set ∈ s) : getPrefix l = p.set := by
  have : prefixLoop .empty l.flatten = some p.set := by
    refine loop_const p _ _ ?_ (Or.inl rfl) (Or.inr ?_)
    · intro c hc
      rw [List.mem_flatten] at hc
      obtain ⟨s, hs, hc⟩ := hc
      rcases plain_prefix (h s hs c hc) with h1 | ⟨p', h1, h2⟩
      · exact Or.inl h1
      · subst h1; exact Or.inr h2
    · obtain ⟨s, hs, hm⟩ := hk
      exact ⟨.pre k p.set, by rw [List.mem_flatten]; exact ⟨s, hs, hm⟩, rfl⟩
  rw [getPrefix, this]; rfl

theorem flags_two (q : Prefix) (hq : q ≠ .none) : flags (q.set.union Prefix.none.set) = [q, .none] := by
  cases q <;> simp_all <;> decide

/-- Without compilation, a prefixed rule and the standard rule after it merge into a rule printed as both. -/
theorem merge_prefixed (t : Targets) (ht : t.shouldCompileSelectors = false) (q : Prefix) (hq : q ≠ .none)
    (l : List Sel) (h : ∀ s ∈ l, ∀ c ∈ s, Plain (· = .none) c) (k : Pseudo)
    (hk : ∃ s ∈ l, Comp.pre k Prefix.none.set ∈ s) :
    ∃ r, mergeEqv t (updatePrefix t l) (updatePrefix t (l.map (·.map (named q)))) = some r ∧
      copies r = [l.map (·.map (named q)), l] := by
  have g1 : getPrefix l = Prefix.none.set := getPrefix_const .none l h k hk
  have g2 : getPrefix (l.map (·.map (named q))) = q.set := by
    refine getPrefix_const q _ ?_ k ?_
    · intro s hs c hc
      rw [List.mem_map] at hs
      obtain ⟨s', hs', rfl⟩ := hs
      rw [List.mem_map] at hc
      obtain ⟨c', hc', rfl⟩ := hc
      exact named_plain q c' (h s' hs' c' hc') q rfl
    · obtain ⟨s, hs, hm⟩ := hk
      exact ⟨s.map (named q), List.mem_map.2 ⟨s, hs, rfl⟩, List.mem_map.2 ⟨_, hm, rfl⟩⟩
  have u1 : updatePrefix t l = ⟨l, Prefix.none.set⟩ := by rw [updatePrefix, ht, if_neg (by simp), g1]
  have u2 : updatePrefix t (l.map (·.map (named q))) = ⟨l.map (·.map (named q)), q.set⟩ := by
    rw [updatePrefix, ht, if_neg (by simp), g2]
  refine ⟨⟨l.map (·.map (named q)), q.set.union Prefix.none.set⟩, ?_, ?_⟩
  · rw [u1, u2, mergeEqv, if_pos, ht, if_neg (by simp)]
    simp [set_ne_empty, eqvList_named q l h]
  · have he : isEmpty (q.set.union Prefix.none.set) = false := by cases q <;> rfl
    have hp := printList_named q l h
    rw [copies, if_neg (by show ¬ isEmpty (q.set.union Prefix.none.set) = true; rw [he]; decide)]
    show (flags (q.set.union Prefix.none.set)).map _ = _
    rw [flags_two q hq]
    show [printList q.set _, printList Prefix.none.set _] = _
    rw [hp.1, hp.2]

/-! ### Arguments of `:any()` -/

theorem compound_print (vp : PrefixSet) (s : Sel) (h : Compound s) : Compound (printSel vp s) := by
  induction s with
  | nil => rw [printSel]; exact h
  | cons c cs ih =>
    have hcs : Compound cs := fun k hk => h k (by simp [hk])
    have h2 := ih hcs
    intro k hk
    rw [printSel, List.mem_append] at hk
    rcases hk with hk | hk
    · cases hc : isComb c with
      | true =>
        obtain ⟨b, k', rfl⟩ := (isComb_iff c).1 hc
        simp only [printComp, List.mem_singleton] at hk
        exact h k (by rw [hk]; simp)
      | false =>
        have := print_noComb vp c hc
        rw [List.any_eq_false] at this
        exact absurd rfl (this _ hk)
    · exact h2 k hk

theorem compound_printList (vp : PrefixSet) (l : List Sel) (h : ∀ s ∈ l, Compound s) :
    ∀ s ∈ printList vp l, Compound s := by
  induction l with
  | nil => simp [printList]
  | cons s ss ih =>
    intro s' hs'
    simp only [printList, List.mem_cons] at hs'
    rcases hs' with rfl | hs'
    · exact compound_print vp s (h s (by simp))
    · exact ih (fun x hx => h x (by simp [hx])) s' hs'

theorem compound_downSel (t : Targets) (s : Sel) (h : Compound s) : Compound (downSel t s).1 := by
  induction s with
  | nil => rw [downSel]; exact h
  | cons c cs ih =>
    have hcs : Compound cs := fun k hk => h k (by simp [hk])
    intro k hk
    simp only [downSel, List.mem_cons] at hk
    rcases hk with hk | hk
    · have hc : isComb c = true := by rw [← down_isComb t c, ← hk]; rfl
      obtain ⟨b, k', rfl⟩ := (isComb_iff c).1 hc
      simp only [downComp] at hk
      exact h k (by rw [hk]; simp)
    · exact ih hcs k hk

theorem compound_downList (t : Targets) (l : List Sel) (h : ∀ s ∈ l, Compound s) :
    ∀ s ∈ (downList t l).1, Compound s := by
  induction l with
  | nil => simp [downList]
  | cons s ss ih =>
    intro s' hs'
    simp only [downList, List.mem_cons] at hs'
    rcases hs' with rfl | hs'
    · exact compound_downSel t s (h s (by simp))
    · exact ih (fun x hx => h x (by simp [hx])) s' hs'

theorem compound_langs (ls : List Str) : (∀ s ∈ langSels ls, Compound s) ∧ ArgsCompoundList (langSels ls) := by
  induction ls with
  | nil => simp [langSels, ArgsCompoundList]
  | cons l ls ih =>
    rw [show langSels (l :: ls) = [Comp.lang [l]] :: langSels ls from rfl]
    simp only [ArgsCompoundList, ArgsCompoundSel, ArgsCompound]
    refine ⟨?_, ⟨trivial, trivial⟩, ih.2⟩
    intro s hs
    simp only [List.mem_cons] at hs
    rcases hs with rfl | hs
    · intro k hk; simp at hk
    · exact ih.1 s hs

theorem args_neg (t : Targets) (l : List Sel) (q : PrefixSet) (h : (∀ s ∈ l, Compound s) ∧ ArgsCompoundList l) :
    ArgsCompound (downNeg t l q).1 := by
  unfold downNeg
  split
  · simp only [ArgsCompound, ArgsCompoundList, ArgsCompoundSel]
    refine ⟨?_, ⟨h, trivial⟩, trivial⟩
    intro s hs
    simp only [List.mem_singleton] at hs
    subst hs
    intro k hk; simp at hk
  · simp only [ArgsCompound]; exact h

mutual
theorem args_down (t : Targets) : ∀ c : Comp, ArgsCompound c → ArgsCompound (downComp t c).1
  | .dir rtl, _ => by
    have hl := compound_langs rtlLangs
    by_cases h : compDir t = true
    · by_cases h' : compLang t = true
      · cases rtl
        · simp only [downComp, h, h', Bool.not_true, Bool.not_false, if_true]
          exact args_neg t _ _ hl
        · simp [downComp, h, h', ArgsCompound]; exact hl
      · cases rtl
        · simp [downComp, h, h', ArgsCompound, ArgsCompoundList, ArgsCompoundSel]
          intro k hk; simp at hk
        · simp [downComp, h, h', ArgsCompound]
    · simp [downComp, h, ArgsCompound]
  | .lang ls, _ => by
    by_cases h : (1 < ls.length && compLang t) = true
    · simp only [downComp, if_pos h, ArgsCompound]; exact compound_langs ls
    · simp only [downComp, if_neg h, ArgsCompound]
  | .is l, h => by
    simp only [ArgsCompound] at h
    simp only [downComp, ArgsCompound]
    exact ⟨compound_downList t l h.1, args_downList t l h.2⟩
  | .any p l, h => by
    simp only [ArgsCompound] at h
    simp only [downComp, ArgsCompound]
    exact ⟨compound_downList t l h.1, args_downList t l h.2⟩
  | .neg l, h => by
    simp only [ArgsCompound] at h
    simp only [downComp]
    exact args_neg t _ _ ⟨compound_downList t l h.1, args_downList t l h.2⟩
  | .wher l, h => by simp only [ArgsCompound] at h; simp only [downComp, ArgsCompound]; exact args_downList t l h
  | .has l, h => by simp only [ArgsCompound] at h; simp only [downComp, ArgsCompound]; exact args_downList t l h
  | .pre _ _, _ => by simp only [downComp, ArgsCompound]
  | .comb _ _, h | .ns _, h | .typ _, h | .other _, h | .fn _ _, h => by simp only [downComp]; exact h
theorem args_downSel (t : Targets) : ∀ s : Sel, ArgsCompoundSel s → ArgsCompoundSel (downSel t s).1
  | [], _ => by simp [downSel, ArgsCompoundSel]
  | c :: cs, h => by
    simp only [ArgsCompoundSel] at h
    simp only [downSel, ArgsCompoundSel]; exact ⟨args_down t c h.1, args_downSel t cs h.2⟩
theorem args_downList (t : Targets) : ∀ l : List Sel, ArgsCompoundList l → ArgsCompoundList (downList t l).1
  | [], _ => by simp [downList, ArgsCompoundList]
  | s :: ss, h => by
    simp only [ArgsCompoundList] at h
    simp only [downList, ArgsCompoundList]; exact ⟨args_downSel t s h.1, args_downList t ss h.2⟩
end

theorem anyValidSel_append (s s' : Sel) : AnyValidSel (s ++ s') ↔ AnyValidSel s ∧ AnyValidSel s' := by
  induction s with
  | nil => simp [AnyValidSel]
  | cons c cs ih => simp only [List.cons_append, AnyValidSel, ih, and_assoc]

mutual
theorem any_print (vp : PrefixSet) : ∀ c : Comp, ArgsCompound c → AnyValidSel (printComp vp c)
  | .is l, h => by
    simp only [ArgsCompound] at h
    by_cases hu : shouldUnwrap l = true
    · simp only [printComp, if_pos hu]; exact any_printFirst vp l h.2
    · simp only [printComp, if_neg hu]
      split
      · simp only [AnyValidSel, AnyValid]; exact ⟨⟨compound_printList vp l h.1, any_printList vp l h.2⟩, trivial⟩
      · simp only [AnyValidSel, AnyValid]; exact ⟨any_printList vp l h.2, trivial⟩
  | .any p l, h => by
    simp only [ArgsCompound] at h
    simp only [printComp]
    split
    · simp only [AnyValidSel, AnyValid]; exact ⟨⟨compound_printList vp l h.1, any_printList vp l h.2⟩, trivial⟩
    · simp only [AnyValidSel, AnyValid]; exact ⟨any_printList vp l h.2, trivial⟩
  | .neg l, h => by
    simp only [ArgsCompound] at h
    simp only [printComp, AnyValidSel, AnyValid]; exact ⟨any_printList vp l h.2, trivial⟩
  | .wher l, h => by
    simp only [ArgsCompound] at h
    simp only [printComp, AnyValidSel, AnyValid]; exact ⟨any_printList vp l h, trivial⟩
  | .has l, h => by
    simp only [ArgsCompound] at h
    simp only [printComp, AnyValidSel, AnyValid]; exact ⟨any_printList vp l h, trivial⟩
  | .fn _ l, h => by
    simp only [ArgsCompound] at h
    simp only [printComp, AnyValidSel, AnyValid]; exact ⟨any_printList vp l h, trivial⟩
  | .pre _ _, _ | .comb _ _, _ | .ns _, _ | .typ _, _ | .other _, _ | .lang _, _ | .dir _, _ => by
    simp only [printComp, AnyValidSel, AnyValid, and_self]
theorem any_printSel (vp : PrefixSet) : ∀ s : Sel, ArgsCompoundSel s → AnyValidSel (printSel vp s)
  | [], _ => by simp [printSel, AnyValidSel]
  | c :: cs, h => by
    simp only [ArgsCompoundSel] at h
    rw [printSel, anyValidSel_append]; exact ⟨any_print vp c h.1, any_printSel vp cs h.2⟩
theorem any_printFirst (vp : PrefixSet) : ∀ l : List Sel, ArgsCompoundList l → AnyValidSel (printFirst vp l)
  | [], _ => by simp [printFirst, AnyValidSel]
  | s :: _, h => by simp only [ArgsCompoundList] at h; rw [printFirst]; exact any_printSel vp s h.1
theorem any_printList (vp : PrefixSet) : ∀ l : List Sel, ArgsCompoundList l → AnyValidList (printList vp l)
  | [], _ => by simp [printList, AnyValidList]
  | s :: ss, h => by
    simp only [ArgsCompoundList] at h
    simp only [printList, AnyValidList]; exact ⟨any_printSel vp s h.1, any_printList vp ss h.2⟩
end

end Verif.Downlevel
