import Verif.SelPrint.Model
import Verif.SelPrint.Spec
import Verif.SelParse.Lists
/-!
# Selectors that the parser can return
-/
namespace Verif.SelPrint
open Verif.SelParse

/-- Which kinds of pseudo-elements are before. -/
structure Sig where
  elem : Bool
  part : Bool
  slotted : Bool
  scrollbar : Bool
  view : Bool
deriving DecidableEq

/-- The kinds among components. -/
def sig (l : List Comp) : Sig :=
  ⟨l.any Comp.isElem, l.any Comp.isPart, l.any Comp.isSlotted, l.any Comp.isScrollbar, l.any Comp.isViewTransition⟩

/-- Both. -/
def Sig.or (a b : Sig) : Sig := ⟨a.elem || b.elem, a.part || b.part, a.slotted || b.slotted, a.scrollbar || b.scrollbar, a.view || b.view⟩

theorem sig_append (a b : List Comp) : sig (a ++ b) = (sig a).or (sig b) := by simp [sig, Sig.or]
theorem sig_cons (c : Comp) (b : List Comp) : sig (c :: b) = (sig [c]).or (sig b) := by simp [sig, Sig.or]
theorem sig_reverse (a : List Comp) : sig a.reverse = sig a := by simp [sig]
theorem or_assoc' (a b c : Sig) : (a.or b).or c = a.or (b.or c) := by simp [Sig.or, Bool.or_assoc]
theorem or_none (a : Sig) : (sig []).or a = a := by simp [Sig.or, sig]

/-- No pseudo-element of these kinds. -/
def Sig.plain (g : Sig) : Prop := g.elem = false ∧ g.slotted = false ∧ g.part = false

/-- `ClassPlace` by kinds. -/
def classOK (g : Sig) (n : Str) : Prop :=
  g.slotted = false ∧ (g.view = true ∧ n = cs!"only-child" ∨ g.scrollbar = true ∧ n ∈ afterScrollbar ∨
    g.scrollbar = false ∧ g.elem = true ∧ n ∈ userAction ∨ g.scrollbar = false ∧ g.elem = false ∧ n ∉ scrollbarClasses)

/-- `Allowed` for the dialect of the code, without the place in the compound selector. -/
def AllowG (cx : Cx) (g : Sig) : Comp → Prop
  | .comb _ => cx.combs = true ∧ g.plain
  | .nesting | .logical _ _ | .has _ => True
  | .type _ _ | .id _ | .cls _ | .attr _ | .pclassFn _ _ | .nth _ _ _ | .nthOf _ _ _ _ | .hostFn _ => g.plain
  | .pclass n => classOK g n
  | .pelem n => cx.elems = true ∧ g.elem = false ∧ (n ∈ treeAbiding ∨ g.slotted = false)
  | .pelemFn _ _ | .cue _ _ => cx.elems = true ∧ g.elem = false ∧ g.slotted = false
  | .part _ | .slotted _ => cx.elems = true ∧ g.plain

/-- The place in the compound selector. -/
def placeOK (ph : Ph) : Comp → Prop
  | .comb _ => ph ≠ .start
  | .type _ _ => ph ≠ .mid
  | _ => True

theorem plain_iff (l : List Comp) : NoPseudo l ↔ (sig l).plain := by
  simp [NoPseudo, NoElem, NoSlotted, Sig.plain, sig]

theorem classPlace_iff (l : List Comp) (n : Str) : ClassPlace l n ↔ classOK (sig l) n := by
  simp [ClassPlace, classOK, sig, NoSlotted, NoElem]

theorem allowed_iff (cx : Cx) (before pre : List Comp) (c : Comp) : Allowed code cx before pre c ↔ AllowG cx (sig before) c ∧ placeOK (phase pre) c := by
  cases c <;> simp [Allowed, AllowG, placeOK, code, plain_iff, classPlace_iff, typePlace_iff]
  case comb k =>
    have := noncomb_iff pre
    simp only [exists_and_right] at this
    rw [and_assoc, this]
  all_goals simp [sig, NoElem, NoSlotted]

/-- The place after a component. -/
def next (ph : Ph) : Comp → Ph
  | .comb _ => .start
  | .nesting => if ph = .start then .nest else .mid
  | _ => .mid

theorem phase_next (c : Comp) (pre : List Comp) : phase (c :: pre) = next (phase pre) c := by
  cases c <;> try rfl
  cases pre with
  | nil => rfl
  | cons c p =>
    cases c <;> try rfl
    cases p with
    | nil => rfl
    | cons c p => cases c <;> rfl

mutual
/-- A component that the parser can return: its arguments are selectors that are allowed. -/
def WFC (v : Opts) (cx : Cx) (g : Sig) : Comp → Prop
  | .pclass n => lower n = n ∧ ¬ Css2 n
  | .pclassFn n args => lower n = n ∧ ¬ Css2 n ∧ n ∉ classFnNames ∧ v.classArgs n args = true
  | .logical f l => (f = .not → l ≠ []) ∧ WFL v (cx.inner code) g l
  | .has l => WFH v (cx.has code) g l
  | .nthOf t _ _ l => (t = .child ∨ t = .lastChild) ∧ WFL v (cx.inner code) g l
  | .hostFn s => WFS v cx.host g .start s
  | .pelem n => lower n = n ∧ n ≠ cs!"-ms-input-placeholder"
  | .pelemFn n args => lower n = n ∧ n ∉ elemFnNames ∧ v.elemArgs n args = true
  | .cue _ s => WFS v .top (sig []) .start s
  | .part l => l ≠ []
  | .slotted s => WFS v cx.host g .start s
  | _ => True
termination_by structural c => c
/-- The rest of a selector. -/
def WFS (v : Opts) (cx : Cx) (g : Sig) (ph : Ph) : List Comp → Prop
  | [] => ph ≠ .start
  | c :: s => AllowG cx g c ∧ placeOK ph c ∧ WFC v cx g c ∧ WFS v cx ((sig [c]).or g) (next ph c) s
termination_by structural s => s
/-- Selectors. -/
def WFL (v : Opts) (cx : Cx) (g : Sig) : List (List Comp) → Prop
  | [] => True
  | s :: l => WFS v cx g .start s ∧ WFL v cx g l
termination_by structural l => l
/-- Relative selectors. -/
def WFH (v : Opts) (cx : Cx) (g : Sig) : List (List Comp) → Prop
  | [] => True
  | s :: l => (WFS v cx g .start s ∨ ∃ k s', s = .pclass cs!"scope" :: .comb k :: s' ∧ k ≠ .descendant ∧ WFT v cx g s) ∧ WFH v cx g l
termination_by structural l => l
/-- A selector after its first two components. -/
def WFT (v : Opts) (cx : Cx) (g : Sig) : List Comp → Prop
  | [] => False
  | _ :: s => WFT1 v cx g s
termination_by structural s => s
/-- A selector after its first component. -/
def WFT1 (v : Opts) (cx : Cx) (g : Sig) : List Comp → Prop
  | [] => False
  | _ :: s => WFS v cx g .start s
termination_by structural s => s
end

theorem char_lower_idem (c : Char) : c.toLower.toLower = c.toLower := by
  unfold Char.toLower
  split
  · rename_i h
    split
    · rename_i h'
      exfalso
      revert h'
      obtain ⟨v, hv⟩ := c
      simp only [ge_iff_le] at h ⊢
      have : (v + 32).toNat = v.toNat + 32 := by
        have h2 : v.toNat ≤ 90 := h.2
        rw [UInt32.toNat_add]
        exact Nat.mod_eq_of_lt (by simp; omega)
      intro h'
      have h1 : 65 ≤ v.toNat := h.1
      have h3 : (v + 32).toNat ≤ 90 := h'.2
      omega
    · rfl
  · rename_i h
    rfl

theorem lower_idem (s : Str) : lower (lower s) = lower s := by
  simp only [lower, List.map_map]
  refine List.map_congr_left fun c _ => ?_
  simp only [Function.comp]
  exact char_lower_idem c

variable {v : Opts} {D : Drop}

mutual
theorem wfC_of : ∀ (c : Comp) (cx : Cx) (before : List Comp) (ts : List Tok), ReadsC code D v cx before c ts → WFC v cx (sig before) c
  | .pclass n, cx, before, ts, h => by
    simp only [ReadsC, WFC] at h ⊢
    obtain ⟨w, _, rfl, h2⟩ := h
    exact ⟨lower_idem w, by rwa [Css2, lower_idem]⟩
  | .pclassFn n args, cx, before, ts, h => by
    simp only [ReadsC, WFC] at h ⊢
    obtain ⟨w, _, rfl, h2, h3, h4⟩ := h
    exact ⟨lower_idem w, by rwa [Css2, lower_idem], h3, h4⟩
  | .logical f l, cx, before, ts, h => by
    have hl := wfL_of l
    simp only [ReadsC, WFC] at h ⊢
    obtain ⟨w, args, ps, _, _, h3, h4⟩ := h
    refine ⟨?_, hl _ _ _ _ h4⟩
    rintro rfl rfl
    simp only [ReadsP] at h4
    obtain ⟨hne, _⟩ := h3
    cases ps with
    | nil => exact hne rfl
    | cons p ps => have := (h4 p (by simp)).1; simp at this
  | .has l, cx, before, ts, h => by
    have hl := wfH_of l
    simp only [ReadsC, WFC] at h ⊢
    obtain ⟨w, args, ps, _, _, h3, h4⟩ := h
    exact hl _ _ _ _ h4
  | .nthOf t a b l, cx, before, ts, h => by
    have hl := wfL_of l
    simp only [ReadsC, WFC] at h ⊢
    obtain ⟨w, w1, w2, f, args, ps, _, _, h3, _, _, _, _, h4⟩ := h
    exact ⟨h3, hl _ _ _ _ h4⟩
  | .hostFn s, cx, before, ts, h => by
    have hs := wfS_of s
    simp only [ReadsC, WFC] at h ⊢
    obtain ⟨w, a, r, _, _, _, h4⟩ := h
    exact hs _ _ [] _ h4
  | .cue r s, cx, before, ts, h => by
    have hs := wfS_of s
    simp only [ReadsC, WFC] at h ⊢
    obtain ⟨w, a, r, _, _, _, h4⟩ := h
    exact hs _ [] [] _ h4
  | .slotted s, cx, before, ts, h => by
    have hs := wfS_of s
    simp only [ReadsC, WFC] at h ⊢
    obtain ⟨w, a, r, _, _, _, h4⟩ := h
    exact hs _ _ [] _ h4
  | .pelem n, cx, before, ts, h => by
    simp only [ReadsC, WFC] at h ⊢
    obtain ⟨w, c, _, _, rfl⟩ := h
    simp only [code, and_true]
    by_cases hw : lower w = cs!"-ms-input-placeholder"
    · rw [if_pos hw]; exact ⟨by decide, by decide⟩
    · rw [if_neg hw]; exact ⟨lower_idem w, hw⟩
  | .pelemFn n args, cx, before, ts, h => by
    simp only [ReadsC, WFC] at h ⊢
    obtain ⟨w, c, _, _, rfl, h2, h3⟩ := h
    exact ⟨lower_idem w, h2, h3⟩
  | .part l, cx, before, ts, h => by
    simp only [ReadsC, WFC] at h ⊢
    obtain ⟨w, args, _, _, h2, _⟩ := h
    exact h2
  | .comb _, _, _, _, _ | .nesting, _, _, _, _ | .type _ _, _, _, _, _ | .id _, _, _, _, _ | .cls _, _, _, _, _ | .attr _, _, _, _, _
  | .nth _ _ _, _, _, _, _ => by simp only [WFC]
theorem wfS_of : ∀ (s : List Comp) (cx : Cx) (inh pre : List Comp) (ts : List Tok), ReadsS code D v cx inh .no pre s ts →
    WFS v cx (sig (pre ++ inh)) (phase pre) s
  | [], cx, inh, pre, ts, h => by
    rw [readsS_nil, noncomb_iff, loneNesting_iff] at h
    simp only [WFS]
    rcases h with ⟨_, h⟩ | ⟨_, h, _⟩
    · exact h
    · rw [h]; simp
  | c :: s, cx, inh, pre, ts, h => by
    have hc := wfC_of c
    have hs := wfS_of s
    rw [readsS_cons] at h
    obtain ⟨a, b, _, h1, h2, h3⟩ := h
    rw [allowed_iff] at h1
    simp only [WFS]
    refine ⟨h1.1, h1.2, hc _ _ _ h2, ?_⟩
    have := hs _ _ _ _ h3
    rwa [phase_next, List.cons_append, sig_cons] at this
theorem wfL_of : ∀ (l : List (List Comp)) (cx : Cx) (inh : List Comp) (f : Bool) (ps : List (List Tok)), ReadsP code D v cx inh f none l ps →
    WFL v cx (sig inh) l
  | [], _, _, _, _, _ => by simp only [WFL]
  | s :: l, cx, inh, f, ps, h => by
    have hs := wfS_of s
    have hl := wfL_of l
    simp only [ReadsP] at h
    obtain ⟨e, w, r, q, _, _, _, h1, h2⟩ := h
    simp only [WFL]
    refine ⟨?_, hl _ _ _ _ h2⟩
    rcases h1 with h1 | ⟨c, hc, _⟩
    · exact hs _ _ [] _ h1
    · simp at hc
theorem wfH_of : ∀ (l : List (List Comp)) (cx : Cx) (inh : List Comp) (f : Bool) (ps : List (List Tok)),
    ReadsP code D v cx inh f (some (.pclass cs!"scope")) l ps → WFH v cx (sig inh) l
  | [], _, _, _, _, _ => by simp only [WFH]
  | s :: l, cx, inh, f, ps, h => by
    have hs := wfS_of s
    have ht := wfT_of s
    have hl := wfH_of l
    simp only [ReadsP] at h
    obtain ⟨e, w, r, q, _, _, _, h1, h2⟩ := h
    simp only [WFH]
    refine ⟨?_, hl _ _ _ _ h2⟩
    rcases h1 with h1 | ⟨c, hc, h1⟩
    · exact .inl (hs _ _ [] _ h1)
    · simp only [Option.some.injEq] at hc
      subst hc
      right
      have h3 := h1
      rw [readsS_scope] at h3
      obtain ⟨k, ch, w', r', s', e1, e2, _⟩ := h3
      refine ⟨k, s', e1, ?_, ht _ _ _ _ h1⟩
      rintro rfl
      simp [Comb.char] at e2
theorem wfT_of : ∀ (s : List Comp) (cx : Cx) (inh : List Comp) (c : Comp) (ts : List Tok), ReadsS code D v cx inh (.scope c) [] s ts → WFT v cx (sig inh) s
  | [], _, _, _, _, h => by simp [ReadsS] at h
  | _ :: s, cx, inh, c, ts, h => by
    have := wfT1_of s
    simp only [ReadsS] at h
    simp only [WFT]
    exact this _ _ _ h.2
theorem wfT1_of : ∀ (s : List Comp) (cx : Cx) (inh : List Comp) (ts : List Tok), ReadsS code D v cx inh .comb [] s ts → WFT1 v cx (sig inh) s
  | [], _, _, _, h => by simp [ReadsS] at h
  | _ :: s, cx, inh, ts, h => by
    have := wfS_of s
    simp only [ReadsS] at h
    obtain ⟨k, x, w, r, _, _, _, _, h⟩ := h
    simp only [WFT1]
    exact this _ _ [] _ h
end

theorem wfL_mem {cx : Cx} {g : Sig} {l : List (List Comp)} (h : WFL v cx g l) {s : Sel} (hs : s ∈ l) : WFS v cx g .start s := by
  induction l with
  | nil => simp at hs
  | cons x l ih =>
    simp only [WFL] at h
    simp at hs
    rcases hs with rfl | hs
    · exact h.1
    · exact ih h.2 hs

theorem wfH_mem {cx : Cx} {g : Sig} {l : List (List Comp)} (h : WFH v cx g l) {s : Sel} (hs : s ∈ l) :
    WFS v cx g .start s ∨ ∃ k s', s = .pclass cs!"scope" :: .comb k :: s' ∧ k ≠ .descendant ∧ WFS v cx g .start s' := by
  induction l with
  | nil => simp at hs
  | cons x l ih =>
    simp only [WFH] at h
    simp at hs
    rcases hs with rfl | hs
    · rcases h.1 with h | ⟨k, s', rfl, hk, h⟩
      · exact .inl h
      · simp only [WFT, WFT1] at h
        exact .inr ⟨k, s', rfl, hk, h⟩
    · exact ih h.2 hs

end Verif.SelPrint
