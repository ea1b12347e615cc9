import Verif.Downlevel.Lemmas
import Verif.Targets.Lemmas
namespace Verif.Downlevel
open Verif.Targets Spec

theorem union_has (a b : PrefixSet) (p : Prefix) : (a.union b).has p = (a.has p || b.has p) := by
  cases p <;> rfl

theorem empty_has (p : Prefix) : PrefixSet.empty.has p = false := by cases p <;> rfl

theorem set_has (p q : Prefix) : p.set.has q = true ↔ p = q := by cases p <;> cases q <;> decide

theorem isEmpty_iff (a : PrefixSet) : isEmpty a = true ↔ a = .empty := by simp [isEmpty]

theorem has_not_empty {a : PrefixSet} {p : Prefix} (h : a.has p = true) : isEmpty a = false := by
  cases he : isEmpty a with
  | false => rfl
  | true => rw [isEmpty_iff] at he; rw [he, empty_has] at h; cases h

theorem shown_has (p : Prefix) (q : PrefixSet) (h : q.has p = true) : shown p.set q = p.set := by
  obtain ⟨a, b, c, d, e⟩ := q
  cases p <;> simp only [PrefixSet.has] at h <;> subst h <;> simp [shown, isEmpty, or, inter, Prefix.set, PrefixSet.empty]

theorem shown_none (q : PrefixSet) : shown Prefix.none.set q = Prefix.none.set := by
  obtain ⟨a, b, c, d, e⟩ := q
  cases a <;> simp [shown, isEmpty, or, inter, Prefix.set, PrefixSet.empty]

theorem shown_empty (q : PrefixSet) : shown .empty q = q := by
  rw [shown, if_pos (by decide)]

theorem prefixes_none (t : Targets) (f : PrefixFeature) : (t.prefixes Prefix.none.set f).has .none = true := by
  unfold Targets.prefixes
  split
  · split
    · rfl
    · cases t.browsers with
      | none => rfl
      | some br => rw [prefixesFor_has]; simp
  · rfl

mutual
/-- The component carries `pre k q` with `p` in `q`, outside of `fn`. -/
def Carries (k : Pseudo) (p : Prefix) : Comp → Prop
  | .pre k' q => k' = k ∧ q.has p = true
  | .is l | .neg l | .wher l | .any _ l | .has l => CarriesList k p l
  | _ => False
def CarriesSel (k : Pseudo) (p : Prefix) : List Comp → Prop
  | [] => False
  | c :: cs => Carries k p c ∨ CarriesSel k p cs
def CarriesList (k : Pseudo) (p : Prefix) : List (List Comp) → Prop
  | [] => False
  | s :: ss => CarriesSel k p s ∨ CarriesList k p ss
end

theorem isPrefixes_has (t : Targets) (l : List Sel) (q : PrefixSet) (p : Prefix) (h : q.has p = true) :
    (isPrefixes t l q).has p = true := by
  unfold isPrefixes; split <;> simp [union_has, h]

theorem isPrefixes_none (t : Targets) (l : List Sel) (q : PrefixSet) : (isPrefixes t l q).has .none = true := by
  unfold isPrefixes; split <;> rw [union_has]
  · rw [prefixes_none]; simp
  · simp [Prefix.set, PrefixSet.has]

theorem downNeg_has (t : Targets) (l : List Sel) (q : PrefixSet) (p : Prefix) (h : q.has p = true) :
    (downNeg t l q).2.has p = true := by
  unfold downNeg; split
  · show PrefixSet.has (if _ then _ else _) p = true
    split <;> simp [union_has, h]
  · exact h

theorem downNeg_carries (t : Targets) (l : List Sel) (q : PrefixSet) (k : Pseudo) (p : Prefix)
    (h : CarriesList k p l) : Carries k p (downNeg t l q).1 := by
  unfold downNeg; split
  · simp only [Carries, CarriesList, CarriesSel]; exact Or.inl (Or.inl h)
  · simp only [Carries]; exact h

mutual
theorem down_need (t : Targets) (k : Pseudo) (p : Prefix) (hp : (t.prefixes Prefix.none.set k.feature).has p = true) :
    ∀ c : Comp, AllPre Std c → Occurs k c → (downComp t c).2.has p = true ∧ Carries k p (downComp t c).1
  | .pre k' q, ha, ho => by
    simp only [AllPre, Std] at ha
    simp only [Occurs] at ho
    subst ha; subst ho
    simp only [downComp, Carries]
    exact ⟨hp, trivial, hp⟩
  | .is l, ha, ho => by
    simp only [AllPre, Occurs] at ha ho
    have := downList_need t k p hp l ha ho
    simp only [downComp, Carries]
    exact ⟨isPrefixes_has _ _ _ _ this.1, this.2⟩
  | .neg l, ha, ho => by
    simp only [AllPre, Occurs] at ha ho
    have := downList_need t k p hp l ha ho
    simp only [downComp]
    exact ⟨downNeg_has _ _ _ _ this.1, downNeg_carries _ _ _ _ _ this.2⟩
  | .wher l, ha, ho => by
    simp only [AllPre, Occurs] at ha ho
    simp only [downComp, Carries]; exact downList_need t k p hp l ha ho
  | .any q l, ha, ho => by
    simp only [AllPre, Occurs] at ha ho
    simp only [downComp, Carries]; exact downList_need t k p hp l ha.2 ho
  | .has l, ha, ho => by
    simp only [AllPre, Occurs] at ha ho
    simp only [downComp, Carries]; exact downList_need t k p hp l ha ho
  | .comb _ _, _, ho | .ns _, _, ho | .typ _, _, ho | .other _, _, ho | .lang _, _, ho | .dir _, _, ho
  | .fn _ _, _, ho => by simp [Occurs] at ho
theorem downSel_need (t : Targets) (k : Pseudo) (p : Prefix) (hp : (t.prefixes Prefix.none.set k.feature).has p = true) :
    ∀ s : Sel, AllPreSel Std s → OccursSel k s → (downSel t s).2.has p = true ∧ CarriesSel k p (downSel t s).1
  | [], _, ho => by simp [OccursSel] at ho
  | c :: cs, ha, ho => by
    simp only [AllPreSel, OccursSel] at ha ho
    simp only [downSel, CarriesSel, union_has]
    rcases ho with ho | ho
    · have := down_need t k p hp c ha.1 ho
      exact ⟨by simp [this.1], Or.inl this.2⟩
    · have := downSel_need t k p hp cs ha.2 ho
      exact ⟨by simp [this.1], Or.inr this.2⟩
theorem downList_need (t : Targets) (k : Pseudo) (p : Prefix) (hp : (t.prefixes Prefix.none.set k.feature).has p = true) :
    ∀ l : List Sel, AllPreList Std l → OccursList k l → (downList t l).2.has p = true ∧ CarriesList k p (downList t l).1
  | [], _, ho => by simp [OccursList] at ho
  | s :: ss, ha, ho => by
    simp only [AllPreList, OccursList] at ha ho
    simp only [downList, CarriesList, union_has]
    rcases ho with ho | ho
    · have := downSel_need t k p hp s ha.1 ho
      exact ⟨by simp [this.1], Or.inl this.2⟩
    · have := downList_need t k p hp ss ha.2 ho
      exact ⟨by simp [this.1], Or.inr this.2⟩
end

theorem writesSel_append (k : Pseudo) (p : Prefix) (s s' : Sel) :
    WritesSel k p (s ++ s') ↔ WritesSel k p s ∨ WritesSel k p s' := by
  induction s with
  | nil => simp [WritesSel]
  | cons c cs ih => simp only [List.cons_append, WritesSel, ih, or_assoc]

mutual
theorem print_writes (k : Pseudo) (p : Prefix) : ∀ c : Comp, Carries k p c → WritesSel k p (printComp p.set c)
  | .pre k' q, h => by
    simp only [Carries] at h
    simp only [printComp, WritesSel, Writes]; exact Or.inl ⟨h.1, shown_has p q h.2⟩
  | .is l, h => by
    simp only [Carries] at h
    by_cases hu : shouldUnwrap l = true
    · simp only [printComp, if_pos hu]
      obtain ⟨s, rfl, _⟩ := unwrap_iff l hu
      exact printFirst_writes k p _ rfl h
    · simp only [printComp, if_neg hu]
      split <;> (simp only [WritesSel, Writes]; exact Or.inl (printList_writes k p l h))
  | .any q l, h => by
    simp only [Carries] at h
    simp only [printComp]
    split <;> (simp only [WritesSel, Writes]; exact Or.inl (printList_writes k p l h))
  | .neg l, h => by
    simp only [Carries] at h
    simp only [printComp, WritesSel, Writes]; exact Or.inl (printList_writes k p l h)
  | .wher l, h => by
    simp only [Carries] at h
    simp only [printComp, WritesSel, Writes]; exact Or.inl (printList_writes k p l h)
  | .has l, h => by
    simp only [Carries] at h
    simp only [printComp, WritesSel, Writes]; exact Or.inl (printList_writes k p l h)
  | .comb _ _, h | .ns _, h | .typ _, h | .other _, h | .lang _, h | .dir _, h | .fn _ _, h => by simp [Carries] at h
theorem printSel_writes (k : Pseudo) (p : Prefix) : ∀ s : Sel, CarriesSel k p s → WritesSel k p (printSel p.set s)
  | [], h => by simp [CarriesSel] at h
  | c :: cs, h => by
    simp only [CarriesSel] at h
    rw [printSel, writesSel_append]
    rcases h with h | h
    · exact Or.inl (print_writes k p c h)
    · exact Or.inr (printSel_writes k p cs h)
theorem printFirst_writes (k : Pseudo) (p : Prefix) : ∀ l : List Sel, l.length = 1 → CarriesList k p l →
    WritesSel k p (printFirst p.set l)
  | [s], _, h => by
    simp only [CarriesList, or_false] at h
    rw [printFirst]; exact printSel_writes k p s h
theorem printList_writes (k : Pseudo) (p : Prefix) : ∀ l : List Sel, CarriesList k p l → WritesList k p (printList p.set l)
  | [], h => by simp [CarriesList] at h
  | s :: ss, h => by
    simp only [CarriesList] at h
    simp only [printList, WritesList]
    rcases h with h | h
    · exact Or.inl (printSel_writes k p s h)
    · exact Or.inr (printList_writes k p ss h)
end

/-! ### The unprefixed copy -/

theorem allPreSel_append (P : PrefixSet → Prop) (s s' : Sel) :
    AllPreSel P (s ++ s') ↔ AllPreSel P s ∧ AllPreSel P s' := by
  induction s with
  | nil => simp [AllPreSel]
  | cons c cs ih => simp only [List.cons_append, AllPreSel, ih, and_assoc]

theorem or_none (p : PrefixSet) : or Prefix.none.set p = Prefix.none.set := rfl

mutual
theorem print_std : ∀ c : Comp, AllPreSel Std (printComp Prefix.none.set c)
  | .pre k q => by simp only [printComp, AllPreSel, AllPre, shown_none]; exact ⟨rfl, trivial⟩
  | .is l => by
    by_cases hu : shouldUnwrap l = true
    · simp only [printComp, if_pos hu]; exact printFirst_std l
    · simp only [printComp, if_neg hu]
      rw [if_neg (by decide)]
      simp only [AllPreSel, AllPre]; exact ⟨printList_std l, trivial⟩
  | .any q l => by
    have ho : anyLike (or Prefix.none.set q) = false := rfl
    simp only [printComp]
    rw [if_neg (by rw [ho]; decide)]
    simp only [AllPreSel, AllPre]; exact ⟨printList_std l, trivial⟩
  | .neg l => by simp only [printComp, AllPreSel, AllPre]; exact ⟨printList_std l, trivial⟩
  | .wher l => by simp only [printComp, AllPreSel, AllPre]; exact ⟨printList_std l, trivial⟩
  | .has l => by simp only [printComp, AllPreSel, AllPre]; exact ⟨printList_std l, trivial⟩
  | .fn _ l => by simp only [printComp, AllPreSel, AllPre]; exact ⟨printList_std l, trivial⟩
  | .comb _ _ | .ns _ | .typ _ | .other _ | .lang _ | .dir _ => by simp only [printComp, AllPreSel, AllPre, and_self]
theorem printSel_std : ∀ s : Sel, AllPreSel Std (printSel Prefix.none.set s)
  | [] => by simp [printSel, AllPreSel]
  | c :: cs => by rw [printSel, allPreSel_append]; exact ⟨print_std c, printSel_std cs⟩
theorem printFirst_std : ∀ l : List Sel, AllPreSel Std (printFirst Prefix.none.set l)
  | [] => by simp [printFirst, AllPreSel]
  | s :: _ => by rw [printFirst]; exact printSel_std s
theorem printList_std : ∀ l : List Sel, AllPreList Std (printList Prefix.none.set l)
  | [] => by simp [printList, AllPreList]
  | s :: ss => by rw [printList]; simp only [AllPreList]; exact ⟨printSel_std s, printList_std ss⟩
end

mutual
theorem print_keep : ∀ c : Comp, AllPre Std c → AllPreSel Std (printComp .empty c)
  | .pre k q, h => by
    simp only [AllPre] at h
    simp only [printComp, AllPreSel, AllPre, shown_empty]; exact ⟨h, trivial⟩
  | .is l, h => by
    simp only [AllPre] at h
    by_cases hu : shouldUnwrap l = true
    · simp only [printComp, if_pos hu]; exact printFirst_keep l h
    · simp only [printComp, if_neg hu]
      rw [if_neg (by decide)]
      simp only [AllPreSel, AllPre]; exact ⟨printList_keep l h, trivial⟩
  | .any q l, h => by
    simp only [AllPre, Std] at h
    obtain ⟨rfl, h⟩ := h
    simp only [printComp]
    rw [if_neg (by decide)]
    simp only [AllPreSel, AllPre]; exact ⟨printList_keep l h, trivial⟩
  | .neg l, h => by simp only [AllPre] at h; simp only [printComp, AllPreSel, AllPre]; exact ⟨printList_keep l h, trivial⟩
  | .wher l, h => by simp only [AllPre] at h; simp only [printComp, AllPreSel, AllPre]; exact ⟨printList_keep l h, trivial⟩
  | .has l, h => by simp only [AllPre] at h; simp only [printComp, AllPreSel, AllPre]; exact ⟨printList_keep l h, trivial⟩
  | .fn _ l, h => by simp only [AllPre] at h; simp only [printComp, AllPreSel, AllPre]; exact ⟨printList_keep l h, trivial⟩
  | .comb _ _, _ | .ns _, _ | .typ _, _ | .other _, _ | .lang _, _ | .dir _, _ => by
    simp only [printComp, AllPreSel, AllPre, and_self]
theorem printSel_keep : ∀ s : Sel, AllPreSel Std s → AllPreSel Std (printSel .empty s)
  | [], _ => by simp [printSel, AllPreSel]
  | c :: cs, h => by
    simp only [AllPreSel] at h
    rw [printSel, allPreSel_append]; exact ⟨print_keep c h.1, printSel_keep cs h.2⟩
theorem printFirst_keep : ∀ l : List Sel, AllPreList Std l → AllPreSel Std (printFirst .empty l)
  | [], _ => by simp [printFirst, AllPreSel]
  | s :: _, h => by simp only [AllPreList] at h; rw [printFirst]; exact printSel_keep s h.1
theorem printList_keep : ∀ l : List Sel, AllPreList Std l → AllPreList Std (printList .empty l)
  | [], _ => by simp [printList, AllPreList]
  | s :: ss, h => by
    simp only [AllPreList] at h
    rw [printList]; simp only [AllPreList]; exact ⟨printSel_keep s h.1, printList_keep ss h.2⟩
end

theorem union_empty {a b : PrefixSet} (h : a.union b = .empty) : a = .empty ∧ b = .empty := by
  obtain ⟨a1, a2, a3, a4, a5⟩ := a
  obtain ⟨b1, b2, b3, b4, b5⟩ := b
  simp [PrefixSet.union, PrefixSet.empty] at h ⊢
  simp [h]

theorem ne_empty_of_none {a : PrefixSet} (h : a.has .none = true) : a ≠ .empty := by
  rintro rfl; simp [PrefixSet.has, PrefixSet.empty] at h

theorem downNeg_empty (t : Targets) (l : List Sel) (q : PrefixSet) (h : (downNeg t l q).2 = .empty) :
    downNeg t l q = (.neg l, q) := by
  unfold downNeg at h ⊢
  split
  · rename_i hc
    rw [if_pos hc] at h
    exfalso
    revert h
    show (if _ then _ else _) = PrefixSet.empty → False
    split
    · exact ne_empty_of_none (by rw [union_has, prefixes_none]; simp)
    · exact ne_empty_of_none (by rw [union_has]; simp [Prefix.set, PrefixSet.has])
  · rfl

/-- The set is empty or has the flag of the unprefixed form. -/
def EmptyOrNone (a : PrefixSet) : Prop := a = .empty ∨ a.has .none = true

theorem EmptyOrNone.union {a b : PrefixSet} (ha : EmptyOrNone a) (hb : EmptyOrNone b) : EmptyOrNone (a.union b) := by
  rcases ha with rfl | ha
  · rcases hb with rfl | hb
    · exact Or.inl rfl
    · exact Or.inr (by rw [union_has, hb]; simp)
  · exact Or.inr (by rw [union_has, ha]; simp)

theorem downNeg_eon (t : Targets) (l : List Sel) (q : PrefixSet) (h : EmptyOrNone q) :
    EmptyOrNone (downNeg t l q).2 := by
  unfold downNeg
  split
  · right
    show PrefixSet.has (if _ then _ else _) _ = true
    split
    · rw [union_has, prefixes_none]; simp
    · rw [union_has]; simp [Prefix.set, PrefixSet.has]
  · exact h

mutual
theorem down_eon (t : Targets) : ∀ c : Comp, AllPre Std c → EmptyOrNone (downComp t c).2 ∧
    ((downComp t c).2 = .empty → AllPre Std (downComp t c).1)
  | .pre k q, h => by
    simp only [AllPre, Std] at h
    subst h
    simp only [downComp]
    exact ⟨Or.inr (prefixes_none t _), fun he => absurd he (ne_empty_of_none (prefixes_none t _))⟩
  | .is l, _ => by
    simp only [downComp]
    exact ⟨Or.inr (isPrefixes_none _ _ _), fun he => absurd he (ne_empty_of_none (isPrefixes_none _ _ _))⟩
  | .neg l, h => by
    simp only [AllPre] at h
    have := downList_eon t l h
    simp only [downComp]
    refine ⟨downNeg_eon _ _ _ this.1, fun he => ?_⟩
    have h2 := downNeg_empty _ _ _ he
    rw [h2] at he ⊢
    simp only [AllPre]; exact this.2 he
  | .wher l, h => by
    simp only [AllPre] at h
    simp only [downComp, AllPre]; exact downList_eon t l h
  | .any q l, h => by
    simp only [AllPre] at h
    have := downList_eon t l h.2
    simp only [downComp, AllPre]; exact ⟨this.1, fun he => ⟨h.1, this.2 he⟩⟩
  | .has l, h => by
    simp only [AllPre] at h
    simp only [downComp, AllPre]; exact downList_eon t l h
  | .lang ls, _ => by
    by_cases hc : (1 < ls.length && compLang t) = true
    · simp only [downComp, if_pos hc]
      exact ⟨Or.inr (isPrefixes_none _ _ _), fun he => absurd he (ne_empty_of_none (isPrefixes_none _ _ _))⟩
    · simp only [downComp, if_neg hc, AllPre]; exact ⟨Or.inl rfl, fun _ => trivial⟩
  | .dir rtl, _ => by
    have hn := downNeg_eon t (langSels rtlLangs) .empty (Or.inl rfl)
    by_cases h : compDir t = true <;> by_cases hl : compLang t = true <;> cases rtl
    · simp only [downComp, h, hl, Bool.not_true, Bool.not_false, if_true]
      refine ⟨hn, fun he => ?_⟩
      have h2 := downNeg_empty _ _ _ he
      rw [show (if false = true then _ else _ : Comp × PrefixSet) = _ from rfl] at *
      rw [h2]
      simp [AllPre, AllPreList, AllPreSel, langSels, rtlLangs]
    · simp [downComp, h, hl]
      exact ⟨Or.inr (isPrefixes_none _ _ _), fun he => absurd he (ne_empty_of_none (isPrefixes_none _ _ _))⟩
    · simp [downComp, h, hl, AllPre, AllPreList, AllPreSel, EmptyOrNone]
    · simp [downComp, h, hl, AllPre, EmptyOrNone]
    · simp [downComp, h, AllPre, EmptyOrNone]
    · simp [downComp, h, AllPre, EmptyOrNone]
    · simp [downComp, h, AllPre, EmptyOrNone]
    · simp [downComp, h, AllPre, EmptyOrNone]
  | .fn s l, h => by simp only [downComp]; exact ⟨Or.inl rfl, fun _ => h⟩
  | .comb _ _, h | .ns _, h | .typ _, h | .other _, h => by simp only [downComp]; exact ⟨Or.inl rfl, fun _ => h⟩
theorem downSel_eon (t : Targets) : ∀ s : Sel, AllPreSel Std s → EmptyOrNone (downSel t s).2 ∧
    ((downSel t s).2 = .empty → AllPreSel Std (downSel t s).1)
  | [], _ => by simp [downSel, EmptyOrNone, AllPreSel]
  | c :: cs, h => by
    simp only [AllPreSel] at h
    have h1 := down_eon t c h.1
    have h2 := downSel_eon t cs h.2
    simp only [downSel, AllPreSel]
    exact ⟨h1.1.union h2.1, fun he => ⟨h1.2 (union_empty he).1, h2.2 (union_empty he).2⟩⟩
theorem downList_eon (t : Targets) : ∀ l : List Sel, AllPreList Std l → EmptyOrNone (downList t l).2 ∧
    ((downList t l).2 = .empty → AllPreList Std (downList t l).1)
  | [], _ => by simp [downList, EmptyOrNone, AllPreList]
  | s :: ss, h => by
    simp only [AllPreList] at h
    have h1 := downSel_eon t s h.1
    have h2 := downList_eon t ss h.2
    simp only [downList, AllPreList]
    exact ⟨h1.1.union h2.1, fun he => ⟨h1.2 (union_empty he).1, h2.2 (union_empty he).2⟩⟩
end

/-! ### The prefix of the rule -/

theorem compPrefix_std (c : Comp) (h : AllPre Std c) : compPrefix c = .empty ∨ compPrefix c = Prefix.none.set := by
  cases c <;> simp_all [AllPre, compPrefix, Std]

theorem prefixLoop_std : ∀ (cs : List Comp) (acc : PrefixSet), (∀ c ∈ cs, AllPre Std c) →
    (acc = .empty ∨ acc = Prefix.none.set) →
    ∃ q, prefixLoop acc cs = some q ∧ (q = .empty ∨ q = Prefix.none.set) ∧
      ((acc = Prefix.none.set ∨ ∃ c ∈ cs, compPrefix c = Prefix.none.set) → q = Prefix.none.set)
  | [], acc, _, ha => ⟨acc, rfl, ha, by simp⟩
  | c :: cs, acc, h, ha => by
    have hc := compPrefix_std c (h c (by simp))
    have hcs : ∀ c' ∈ cs, AllPre Std c' := fun c' h' => h c' (by simp [h'])
    rcases hc with hc | hc
    · obtain ⟨q, h1, h2, h3⟩ := prefixLoop_std cs acc hcs ha
      refine ⟨q, by rw [prefixLoop, hc, if_pos (by decide), h1], h2, ?_⟩
      rintro (h4 | ⟨c', h4, h5⟩)
      · exact h3 (Or.inl h4)
      · simp only [List.mem_cons] at h4
        rcases h4 with rfl | h4
        · rw [hc] at h5; exact absurd h5 (by decide)
        · exact h3 (Or.inr ⟨c', h4, h5⟩)
    · have hu : acc.union Prefix.none.set = Prefix.none.set := by rcases ha with rfl | rfl <;> rfl
      obtain ⟨q, h1, h2, h3⟩ := prefixLoop_std cs (acc.union Prefix.none.set) hcs (Or.inr hu)
      refine ⟨q, ?_, h2, fun _ => h3 (Or.inl hu)⟩
      rw [prefixLoop, hc, if_neg (by decide), if_pos (by rcases ha with rfl | rfl <;> rfl), h1]

theorem allPre_mem (P : PrefixSet → Prop) : ∀ (s : Sel), AllPreSel P s → ∀ c ∈ s, AllPre P c
  | c :: cs, h, c', hc => by
    simp only [AllPreSel] at h
    simp only [List.mem_cons] at hc
    rcases hc with rfl | hc
    · exact h.1
    · exact allPre_mem P cs h.2 c' hc

theorem allPre_flatten (P : PrefixSet → Prop) : ∀ (l : List Sel), AllPreList P l → ∀ c ∈ l.flatten, AllPre P c
  | s :: ss, h, c, hc => by
    simp only [AllPreList] at h
    simp only [List.flatten_cons, List.mem_append] at hc
    rcases hc with hc | hc
    · exact allPre_mem P s h.1 c hc
    · exact allPre_flatten P ss h.2 c hc

theorem occurs_flatten (k : Pseudo) : ∀ (l : List Sel), OccursList k l → ∃ c ∈ l.flatten, Occurs k c
  | s :: ss, h => by
    simp only [OccursList] at h
    rcases h with h | h
    · have : ∀ (s : Sel), OccursSel k s → ∃ c ∈ s, Occurs k c := by
        intro s
        induction s with
        | nil => simp [OccursSel]
        | cons c cs ih =>
          simp only [OccursSel]
          rintro (h | h)
          · exact ⟨c, by simp, h⟩
          · obtain ⟨c', h1, h2⟩ := ih h; exact ⟨c', by simp [h1], h2⟩
      obtain ⟨c, h1, h2⟩ := this s h
      exact ⟨c, by simp [h1], h2⟩
    · obtain ⟨c, h1, h2⟩ := occurs_flatten k ss h
      refine ⟨c, ?_, h2⟩
      rw [List.flatten_cons, List.mem_append]; exact Or.inr h1

theorem occurs_prefix (k : Pseudo) (c : Comp) (ha : AllPre Std c) (h : Occurs k c) :
    compPrefix c = Prefix.none.set := by
  cases c <;> simp_all [Occurs, compPrefix, AllPre, Std]

theorem getPrefix_std (l : List Sel) (h : AllPreList Std l) :
    (getPrefix l = .empty ∨ getPrefix l = Prefix.none.set) ∧
    (∀ k, OccursList k l → getPrefix l = Prefix.none.set) := by
  obtain ⟨q, h1, h2, h3⟩ := prefixLoop_std l.flatten .empty (allPre_flatten Std l h) (Or.inl rfl)
  have hg : getPrefix l = q := by rw [getPrefix, h1]; rfl
  rw [hg]
  refine ⟨h2, fun k ho => ?_⟩
  obtain ⟨c, hc, ho⟩ := occurs_flatten k l ho
  exact h3 (Or.inr ⟨c, hc, occurs_prefix k c (allPre_flatten Std l h c hc) ho⟩)

end Verif.Downlevel
