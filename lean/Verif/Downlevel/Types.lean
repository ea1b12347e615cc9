import Verif.Downlevel.Props
namespace Verif.Downlevel
open Verif.Targets Spec

/-- Neither a combinator, nor a type, nor a namespace. -/
def isInner : Comp → Bool
  | .comb _ _ | .typ _ | .ns _ => false
  | _ => true

theorem typeFirst_inner (b : Bool) (c : Comp) (s : Sel) (h : isInner c = true) :
    TypeFirst b (c :: s) ↔ TypeFirst false s := by
  cases c <;> simp_all [TypeFirst, isInner]

theorem typeFirst_mono (b : Bool) (s : Sel) (h : TypeFirst false s) : TypeFirst b s := by
  induction s with
  | nil => simp [TypeFirst]
  | cons c cs ih =>
    cases c <;> simp_all [TypeFirst]

theorem typeFirst_append (s s' : Sel) (hs : TypeFirst false s) (hs' : TypeFirst false s') (hc : s.any isComb = false) :
    TypeFirst false (s ++ s') := by
  induction s with
  | nil => exact hs'
  | cons c cs ih =>
    simp only [List.any_cons, Bool.or_eq_false_iff] at hc
    cases c <;> simp_all [TypeFirst, isComb]

theorem typeFirst_simple (s : Sel) (h : TypeFirst true s) (ht : hasType s = false) (hs : s.any isComb = false)
    (hn : ∀ a b r, s ≠ .ns a :: .ns b :: r) : TypeFirst false s := by
  match s with
  | [] => simp [TypeFirst]
  | .ns _ :: [] => simp [TypeFirst]
  | .ns a :: .ns b :: r => exact absurd rfl (hn a b r)
  | .ns _ :: .typ _ :: r => simp [hasType, isType] at ht
  | .ns _ :: .comb _ _ :: r => simp [isComb] at hs
  | .ns _ :: .other _ :: r | .ns _ :: .pre _ _ :: r | .ns _ :: .lang _ :: r | .ns _ :: .dir _ :: r | .ns _ :: .is _ :: r
  | .ns _ :: .neg _ :: r | .ns _ :: .wher _ :: r | .ns _ :: .any _ _ :: r | .ns _ :: .has _ :: r
  | .ns _ :: .fn _ _ :: r => simpa [TypeFirst] using h
  | .typ _ :: r => simp [hasType, isType] at ht
  | .comb _ _ :: r => simp [isComb] at hs
  | .other _ :: r | .pre _ _ :: r | .lang _ :: r | .dir _ :: r | .is _ :: r | .neg _ :: r | .wher _ :: r | .any _ _ :: r
  | .has _ :: r | .fn _ _ :: r => simpa [TypeFirst] using h

theorem argsAppend (s s' : Sel) : TypesFirstArgs (s ++ s') ↔ TypesFirstArgs s ∧ TypesFirstArgs s' := by
  induction s with
  | nil => simp [TypesFirstArgs]
  | cons c cs ih => simp only [List.cons_append, TypesFirstArgs, ih, and_assoc]

mutual
theorem types_print (vp : PrefixSet) : ∀ c : Comp, isInner c = true → TypesFirst c → OneNs c →
    TypeFirst false (printComp vp c) ∧ TypesFirstArgs (printComp vp c)
  | .is l, _, h, ho => by
    simp only [TypesFirst, OneNs] at h ho
    by_cases hu : shouldUnwrap l = true
    · simp only [printComp, if_pos hu]
      match l, hu, h, ho with
      | [s], hu, h, ho =>
        simp only [TypesFirstList, OneNsList, and_true] at h ho
        have hu : hasType s = false ∧ s.any isComb = false := by simpa [shouldUnwrap, isSimple] using hu
        simp only [printFirst]
        have := types_printSel vp s false (typeFirst_simple s h.1 hu.1 hu.2 ho.1) h.2 ho.2
        exact this
    · simp only [printComp, if_neg hu]
      split <;> (simp only [TypeFirst, TypesFirstArgs, TypesFirst]; exact ⟨trivial, types_printList vp l h ho, trivial⟩)
  | .any p l, _, h, ho => by
    simp only [TypesFirst, OneNs] at h ho
    simp only [printComp]
    split <;> (simp only [TypeFirst, TypesFirstArgs, TypesFirst]; exact ⟨trivial, types_printList vp l h ho, trivial⟩)
  | .neg l, _, h, ho => by
    simp only [TypesFirst, OneNs] at h ho
    simp only [printComp, TypeFirst, TypesFirstArgs, TypesFirst]; exact ⟨trivial, types_printList vp l h ho, trivial⟩
  | .wher l, _, h, ho => by
    simp only [TypesFirst, OneNs] at h ho
    simp only [printComp, TypeFirst, TypesFirstArgs, TypesFirst]; exact ⟨trivial, types_printList vp l h ho, trivial⟩
  | .has l, _, h, ho => by
    simp only [TypesFirst, OneNs] at h ho
    simp only [printComp, TypeFirst, TypesFirstArgs, TypesFirst]; exact ⟨trivial, types_printList vp l h ho, trivial⟩
  | .fn _ l, _, h, ho => by
    simp only [TypesFirst, OneNs] at h ho
    simp only [printComp, TypeFirst, TypesFirstArgs, TypesFirst]; exact ⟨trivial, types_printList vp l h ho, trivial⟩
  | .pre _ _, _, _, _ | .other _, _, _, _ | .lang _, _, _, _ | .dir _, _, _, _ => by
    simp only [printComp, TypeFirst, TypesFirstArgs, TypesFirst, and_self]
  | .comb _ _, h, _, _ | .ns _, h, _, _ | .typ _, h, _, _ => by simp [isInner] at h
theorem types_printSel (vp : PrefixSet) : ∀ (s : Sel) (b : Bool), TypeFirst b s → TypesFirstArgs s → OneNsSel s →
    TypeFirst b (printSel vp s) ∧ TypesFirstArgs (printSel vp s)
  | [], _, _, _, _ => by simp [printSel, TypeFirst, TypesFirstArgs]
  | c :: cs, b, hb, ha, ho => by
    simp only [TypesFirstArgs, OneNsSel] at ha ho
    by_cases hi : isInner c = true
    · have h1 := types_print vp c hi ha.1 ho.1
      have h2 := types_printSel vp cs false ((typeFirst_inner b c cs hi).1 hb) ha.2 ho.2
      rw [printSel, argsAppend]
      refine ⟨typeFirst_mono b _ (typeFirst_append _ _ h1.1 h2.1 (print_noComb vp c ?_)), h1.2, h2.2⟩
      cases c <;> simp_all [isInner, isComb]
    · match c, hi, hb with
      | .comb _ _, _, hb =>
        simp only [TypeFirst] at hb
        have h2 := types_printSel vp cs true hb ha.2 ho.2
        simp only [printSel, printComp, List.singleton_append, TypeFirst, TypesFirstArgs, TypesFirst]
        exact ⟨h2.1, trivial, h2.2⟩
      | .typ _, _, hb =>
        simp only [TypeFirst] at hb
        have h2 := types_printSel vp cs false hb.2 ha.2 ho.2
        simp only [printSel, printComp, List.singleton_append, TypeFirst, TypesFirstArgs, TypesFirst]
        exact ⟨⟨hb.1, h2.1⟩, trivial, h2.2⟩
      | .ns _, _, hb =>
        simp only [TypeFirst] at hb
        have h2 := types_printSel vp cs b hb ha.2 ho.2
        simp only [printSel, printComp, List.singleton_append, TypeFirst, TypesFirstArgs, TypesFirst]
        exact ⟨h2.1, trivial, h2.2⟩
theorem types_printList (vp : PrefixSet) : ∀ l : List Sel, TypesFirstList l → OneNsList l →
    TypesFirstList (printList vp l)
  | [], _, _ => by simp [printList, TypesFirstList]
  | s :: ss, h, ho => by
    simp only [TypesFirstList, OneNsList] at h ho
    simp only [printList, TypesFirstList]
    exact ⟨types_printSel vp s true h.1.1 h.1.2 ho.1.2, types_printList vp ss h.2 ho.2⟩
end

theorem types_langs (ls : List Str) : TypesFirstList (langSels ls) ∧ OneNsList (langSels ls) := by
  induction ls with
  | nil => simp [langSels, TypesFirstList, OneNsList]
  | cons l ls ih =>
    rw [show langSels (l :: ls) = [Comp.lang [l]] :: langSels ls from rfl]
    simp [TypesFirstList, OneNsList, TypeFirst, TypesFirstArgs, TypesFirst, OneNsSel, OneNs, ih]

theorem types_neg (t : Targets) (l : List Sel) (q : PrefixSet) (h : TypesFirstList l) (ho : OneNsList l) :
    TypesFirst (downNeg t l q).1 ∧ OneNs (downNeg t l q).1 := by
  unfold downNeg
  split
  · simp [TypesFirst, OneNs, TypesFirstList, OneNsList, TypeFirst, TypesFirstArgs, OneNsSel, h, ho]
  · simp only [TypesFirst, OneNs]; exact ⟨h, ho⟩

/-- What the downlevelled component is, for the order of a compound. -/
theorem down_shape (t : Targets) (c : Comp) : isInner (downComp t c).1 = isInner c ∧
    (isInner c = false → (downComp t c).1 = c) := by
  have hn : ∀ l p, isInner (downNeg t l p).1 = true := by intro l p; unfold downNeg; split <;> rfl
  cases c with
  | dir rtl =>
    rw [downComp]
    by_cases h : compDir t = true <;> by_cases h' : compLang t = true <;> cases rtl <;> simp [h, h', isInner]
    all_goals first | exact hn _ _ | skip
  | lang ls =>
    rw [downComp]
    by_cases h : (1 < ls.length && compLang t) = true
    · rw [if_pos h]; simp [isInner]
    · rw [if_neg h]; simp [isInner]
  | neg l => rw [downComp, hn]; simp [isInner]
  | _ => simp [downComp, isInner]

theorem typeFirst_down (t : Targets) (b : Bool) (s : Sel) (h : TypeFirst b s) : TypeFirst b (downSel t s).1 := by
  induction s generalizing b with
  | nil => simpa [downSel] using h
  | cons c cs ih =>
    have hs := down_shape t c
    simp only [downSel]
    cases hi : isInner c with
    | true =>
      rw [typeFirst_inner _ _ _ (by rw [hs.1]; exact hi)]
      exact ih false ((typeFirst_inner b c cs hi).1 h)
    | false =>
      rw [hs.2 hi]
      match c, hi, h with
      | .comb _ _, _, h => simp only [TypeFirst] at h ⊢; exact ih true h
      | .typ _, _, h => simp only [TypeFirst] at h ⊢; exact ⟨h.1, ih false h.2⟩
      | .ns _, _, h => simp only [TypeFirst] at h ⊢; exact ih b h

theorem oneNs_down (t : Targets) (s : Sel) (h : ∀ a b r, s ≠ .ns a :: .ns b :: r) :
    ∀ a b r, (downSel t s).1 ≠ .ns a :: .ns b :: r := by
  intro a b r he
  match s with
  | [] => simp [downSel] at he
  | [c] => simp [downSel] at he
  | c :: c' :: cs =>
    simp only [downSel, List.cons.injEq] at he
    have f : ∀ c x, (downComp t c).1 = .ns x → c = .ns x := by
      intro c x hx
      have := down_shape t c
      cases hi : isInner c with
      | true => rw [hi, hx] at this; simp [isInner] at this
      | false => rw [← hx, this.2 hi]
    rw [f c a he.1, f c' b he.2.1] at h
    exact h a b cs rfl

mutual
theorem types_down (t : Targets) : ∀ c : Comp, TypesFirst c → OneNs c →
    TypesFirst (downComp t c).1 ∧ OneNs (downComp t c).1
  | .dir rtl, _, _ => by
    have hl := types_langs rtlLangs
    have hn := types_neg t (langSels rtlLangs) .empty hl.1 hl.2
    by_cases h : compDir t = true
    · by_cases h' : compLang t = true
      · cases rtl
        · simp only [downComp, h, h', Bool.not_true, Bool.not_false, if_true]; exact hn
        · simp [downComp, h, h', TypesFirst, OneNs]; exact hl
      · cases rtl <;> simp [downComp, h, h', TypesFirst, OneNs, TypesFirstList, OneNsList, TypeFirst, TypesFirstArgs, OneNsSel]
    · simp [downComp, h, TypesFirst, OneNs]
  | .lang ls, _, _ => by
    by_cases h : (1 < ls.length && compLang t) = true
    · simp only [downComp, if_pos h, TypesFirst, OneNs]; exact types_langs ls
    · simp only [downComp, if_neg h, TypesFirst, OneNs, and_self]
  | .is l, h, ho => by
    simp only [TypesFirst, OneNs] at h ho
    simp only [downComp, TypesFirst, OneNs]; exact types_downList t l h ho
  | .any _ l, h, ho => by
    simp only [TypesFirst, OneNs] at h ho
    simp only [downComp, TypesFirst, OneNs]; exact types_downList t l h ho
  | .neg l, h, ho => by
    simp only [TypesFirst, OneNs] at h ho
    have := types_downList t l h ho
    simp only [downComp]; exact types_neg t _ _ this.1 this.2
  | .wher l, h, ho => by
    simp only [TypesFirst, OneNs] at h ho
    simp only [downComp, TypesFirst, OneNs]; exact types_downList t l h ho
  | .has l, h, ho => by
    simp only [TypesFirst, OneNs] at h ho
    simp only [downComp, TypesFirst, OneNs]; exact types_downList t l h ho
  | .pre _ _, _, _ => by simp only [downComp, TypesFirst, OneNs, and_self]
  | .comb _ _, h, ho | .ns _, h, ho | .typ _, h, ho | .other _, h, ho | .fn _ _, h, ho => by
    simp only [downComp]; exact ⟨h, ho⟩
theorem types_downArgs (t : Targets) : ∀ s : Sel, TypesFirstArgs s → OneNsSel s →
    TypesFirstArgs (downSel t s).1 ∧ OneNsSel (downSel t s).1
  | [], _, _ => by simp [downSel, TypesFirstArgs, OneNsSel]
  | c :: cs, h, ho => by
    simp only [TypesFirstArgs, OneNsSel] at h ho
    have h1 := types_down t c h.1 ho.1
    have h2 := types_downArgs t cs h.2 ho.2
    simp only [downSel, TypesFirstArgs, OneNsSel]
    exact ⟨⟨h1.1, h2.1⟩, h1.2, h2.2⟩
theorem types_downList (t : Targets) : ∀ l : List Sel, TypesFirstList l → OneNsList l →
    TypesFirstList (downList t l).1 ∧ OneNsList (downList t l).1
  | [], _, _ => by simp [downList, TypesFirstList, OneNsList]
  | s :: ss, h, ho => by
    simp only [TypesFirstList, OneNsList] at h ho
    have h1 := types_downArgs t s h.1.2 ho.1.2
    have h2 := types_downList t ss h.2 ho.2
    simp only [downList, TypesFirstList, OneNsList]
    exact ⟨⟨⟨typeFirst_down t true s h.1.1, h1.1⟩, h2.1⟩, ⟨oneNs_down t s ho.1.1, h1.2⟩, h2.2⟩
end

/-- C177: unwrapping `:is()` and compiling selectors never moves a type selector away from the start of its compound
selector: if in a rule every type selector comes first in its compound, so it does in every printed copy. -/
theorem C177_types_first (t : Targets) (l c : List Sel) (h : c ∈ output t l) (hl : TypesFirstList l) (ho : OneNsList l) :
    TypesFirstList c := by
  obtain ⟨vp, rfl | rfl⟩ := mem_output t l c h
  · exact types_printList vp l hl ho
  · have := types_downList t l hl ho
    exact types_printList vp _ this.1 this.2

/-- `.a:is(div):is(.b) > svg|p` meets the hypotheses; `:is(.b)` is unwrapped and `:is(div)` is not. -/
example : (TypesFirstList [[.ns cs!"svg", .typ cs!"p", .comb true cs!">", .other cs!".a", .is [[.typ cs!"div"]], .is [[.other cs!".b"]]]] ∧
    OneNsList [[.ns cs!"svg", .typ cs!"p", .comb true cs!">", .other cs!".a", .is [[.typ cs!"div"]], .is [[.other cs!".b"]]]]) ∧
    output noTargets [[.ns cs!"svg", .typ cs!"p", .comb true cs!">", .other cs!".a", .is [[.typ cs!"div"]], .is [[.other cs!".b"]]]] =
    [[[.ns cs!"svg", .typ cs!"p", .comb true cs!">", .other cs!".a", .is [[.typ cs!"div"]], .other cs!".b"]]] := by
  refine ⟨?_, rfl⟩
  simp [TypesFirstList, OneNsList, TypeFirst, TypesFirstArgs, TypesFirst, OneNsSel, OneNs]

end Verif.Downlevel
