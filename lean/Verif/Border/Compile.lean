import Verif.Border.HandlerLemmas
/-! # Lemmas about borders without support for logical properties -/
namespace Verif.Border
open Spec (SameProperty Mode Value Longhand parts Agent Computed apply computed)

section
variable {V : Type}

/-- The declarations that go to the rules for a direction. -/
def inl : Decl V → Bool
  | .long (.log .is) _ _ => true
  | .long (.log .ie) _ _ => true
  | .side (.log .is) _ => true
  | .side (.log .ie) _ => true
  | _ => false

/-- The declarations that name a logical axis, and unparsed ones. -/
def axial : Decl V → Bool
  | .axisKey .. => true
  | .axis .. => true
  | .raw .. => true
  | _ => false

/-- The sides of the block axis. -/
def Pos.block : Pos → Bool
  | .bs => true
  | .be => true
  | _ => false

/-- First the declarations of the rule, then those of the rules for a direction. -/
def Split (l : List (Decl V)) : Prop := ∃ A B, l = A ++ B ∧ (∀ d ∈ A, inl d = false) ∧ (∀ d ∈ B, inl d = true)

variable [DecidableEq V]

theorem sideDiff_shape (log : Bool) (b : Pos → Key → V) (base other : Pos) : ∀ d ∈ sideDiff log b base other, inl d = (log && !other.block) ∧ axial d = false := by
  intro d hd
  simp only [sideDiff] at hd
  have : (∃ k v, d = .long (slotOf log other) k v) ∨ (∃ v, d = .side (slotOf log other) v) := by
    split at hd
    · simp at hd; exact .inl ⟨_, _, hd⟩
    · split at hd
      · simp at hd; exact .inl ⟨_, _, hd⟩
      · split at hd
        · simp at hd; exact .inl ⟨_, _, hd⟩
        · simp at hd; exact .inr ⟨_, hd⟩
  rcases this with ⟨k, v, rfl⟩ | ⟨v, rfl⟩ <;> cases log <;> cases other <;> exact ⟨rfl, rfl⟩

omit [DecidableEq V] in
theorem longOf_shape (log : Bool) (g : Held V) (p : Pos) (k : Key) : ∀ d ∈ longOf log g p k, inl d = (log && !p.block) ∧ axial d = false := by
  intro d hd
  simp only [longOf] at hd
  split at hd
  · simp at hd; subst hd; cases log <;> cases p <;> exact ⟨rfl, rfl⟩
  · cases hd

omit [DecidableEq V] in
theorem sideOut_shape (log : Bool) (g : Held V) (p : Pos) : ∀ d ∈ sideOut log g p, inl d = (log && !p.block) ∧ axial d = false := by
  intro d hd
  simp only [sideOut] at hd
  split at hd
  · simp at hd; subst hd; cases log <;> cases p <;> exact ⟨rfl, rfl⟩
  · simp only [List.mem_append] at hd
    rcases hd with (hd | hd) | hd <;> exact longOf_shape log g p _ d hd

omit [DecidableEq V] in
theorem split_of (A B : List (Decl V)) (hA : ∀ d ∈ A, inl d = false) (hB : ∀ d ∈ B, inl d = true) : Split (A ++ B) := ⟨A, B, rfl, hA, hB⟩

omit [DecidableEq V] in
theorem split_none (A : List (Decl V)) (hA : ∀ d ∈ A, inl d = false) : Split A := ⟨A, [], by simp, hA, by simp⟩

omit [DecidableEq V] in
theorem split_before (C l : List (Decl V)) (hC : ∀ d ∈ C, inl d = false) (h : Split l) : Split (C ++ l) := by
  obtain ⟨A, B, rfl, hA, hB⟩ := h
  refine ⟨C ++ A, B, by simp, ?_, hB⟩
  intro d hd
  rcases List.mem_append.mp hd with h | h
  · exact hC d h
  · exact hA d h

omit [DecidableEq V] in
theorem split_cons (d : Decl V) (l : List (Decl V)) (hd : inl d = false) (h : Split l) : Split (d :: l) :=
  split_before [d] l (by intro e he; simp at he; rw [he]; exact hd) h

theorem sideDiff_split (b : Pos → Key → V) (base other : Pos) : Split (sideDiff true b base other) := by
  cases h : other.block
  · refine ⟨[], _, rfl, by simp, fun d hd => ?_⟩
    rw [(sideDiff_shape true b base other d hd).1, h]; rfl
  · refine split_none _ fun d hd => ?_
    rw [(sideDiff_shape true b base other d hd).1, h]; rfl

omit [DecidableEq V] in
theorem split_last (l B : List (Decl V)) (h : Split l) (hB : ∀ d ∈ B, inl d = true) : Split (l ++ B) := by
  obtain ⟨A, B', rfl, hA, hB'⟩ := h
  refine ⟨A, B' ++ B, by simp, hA, ?_⟩
  intro d hd
  rcases List.mem_append.mp hd with h | h
  · exact hB' d h
  · exact hB d h

theorem blockEq_split (b : Pos → Key → V) : Split (blockEq true b) := by
  have hs : Split (sideDiff true b .bs .is ++ sideDiff true b .bs .ie) :=
    split_last _ _ (sideDiff_split ..) fun d hd => by rw [(sideDiff_shape true b _ _ d hd).1]; rfl
  have h1 : ∀ d : Decl V, inl d = false → Split [d] := fun d hd => split_none _ (by intro e he; simp at he; rw [he]; exact hd)
  simp only [blockEq, if_true]
  split
  · split
    · exact h1 _ rfl
    · split
      · exact h1 _ rfl
      · split
        · exact h1 _ rfl
        · exact hs
  · split
    · exact h1 _ rfl
    · exact hs

theorem complete_split (b : Pos → Key → V) : Split (complete true b) := by
  have hb : ∀ x : Key → V, inl (Decl.border x) = false := fun _ => rfl
  have hp : ∀ base fallback wb, Split fallback → Split (propDiff true b base fallback wb) := by
    intro base fallback wb h
    simp only [propDiff, Bool.not_true, Bool.false_and, Bool.false_eq_true, if_false]
    refine split_before _ _ ?_ h
    intro d hd
    split at hd
    · simp at hd; subst hd; rfl
    · cases hd
  simp only [complete]
  split; · exact split_none _ (by intro d hd; simp at hd; subst hd; rfl)
  split; · exact split_cons _ _ rfl (sideDiff_split ..)
  split; · exact split_cons _ _ rfl (sideDiff_split ..)
  split; · exact split_cons _ _ rfl (sideDiff_split ..)
  split; · exact split_cons _ _ rfl (sideDiff_split ..)
  split; · exact hp _ _ _ (blockEq_split b)
  split
  · refine hp _ _ _ (split_before _ _ ?_ (sideDiff_split ..))
    intro d hd; rw [(sideDiff_shape true b _ _ d hd).1]; rfl
  split
  · refine hp _ _ _ (split_before _ _ ?_ (sideDiff_split ..))
    intro d hd; rw [(sideDiff_shape true b _ _ d hd).1]; rfl
  refine hp _ _ _ ⟨[.side (.log .bs) (b .bs), .side (.log .be) (b .be)], [.side (.log .is) (b .is), .side (.log .ie) (b .ie)], rfl, ?_, ?_⟩
  · intro d hd; simp at hd; rcases hd with rfl | rfl <;> rfl
  · intro d hd; simp at hd; rcases hd with rfl | rfl <;> rfl

/-- Nothing for a direction, and no logical axes if `ax` is not allowed. -/
def Plain (ax : Bool) (l : List (Decl V)) : Prop := ∀ d ∈ l, inl d = false ∧ (ax = false → axial d = false)

omit [DecidableEq V] in
theorem plain_append {ax : Bool} {l r : List (Decl V)} (hl : Plain ax l) (hr : Plain ax r) : Plain ax (l ++ r) := by
  intro d hd
  rcases List.mem_append.mp hd with h | h
  · exact hl d h
  · exact hr d h

omit [DecidableEq V] in
theorem plain_one {ax : Bool} {d : Decl V} (h : inl d = false) (h' : ax = false → axial d = false) : Plain ax [d] := by
  intro e he; simp at he; subst he; exact ⟨h, h'⟩

theorem shorthand_plain (log : Bool) (k : Key) (s : Held V × List (Decl V)) (ax : Bool) (h : Plain ax s.2) : Plain ax (shorthand log k s).2 := by
  simp only [shorthand]
  split
  · split
    · exact plain_append h (plain_one rfl fun _ => rfl)
    · exact h
  · exact h

omit [DecidableEq V] in
theorem axisShorthand_plain (a : Axis) (k : Key) (s : Held V × List (Decl V)) (h : Plain true s.2) : Plain true (axisShorthand a k s).2 := by
  simp only [axisShorthand]
  split
  · exact plain_append h (plain_one rfl fun h => absurd h (by decide))
  · exact h

theorem inlineProp_plain (k : Key) (s : Held V × List (Decl V)) (ax : Bool) (h : Plain ax s.2) : Plain ax (inlineProp k s).2 := by
  simp only [inlineProp]
  split
  · split
    · refine plain_append h ?_
      intro d hd; simp at hd; rcases hd with rfl | rfl <;> exact ⟨rfl, fun _ => rfl⟩
    · exact h
  · exact h

omit [DecidableEq V] in
theorem plain_mono {l : List (Decl V)} {ax : Bool} (h : Plain false l) : Plain ax l := fun d hd => ⟨(h d hd).1, fun _ => (h d hd).2 rfl⟩

theorem blockOut_plain (env : Env V) (hl : env.logical = false) (log : Bool) (s : Held V × List (Decl V)) (h : Plain env.logicalShorthand s.2) :
    Plain env.logicalShorthand (blockOut env log s).2 := by
  simp only [blockOut]
  split
  · simp only [hl, Bool.false_eq_true, if_false]
    refine plain_append h ?_
    intro d hd; simp at hd; rcases hd with rfl | rfl <;> exact ⟨rfl, fun _ => rfl⟩
  · refine plain_append ?_ (plain_append ?_ ?_)
    · split
      · rename_i hc
        simp only [Bool.and_eq_true] at hc
        rw [hc.1.1.2] at h ⊢
        exact axisShorthand_plain _ _ _ (axisShorthand_plain _ _ _ (axisShorthand_plain _ _ _ h))
      · exact h
    · intro d hd; have := sideOut_shape _ _ _ d hd; refine ⟨?_, fun _ => this.2⟩; rw [this.1]; simp [Pos.block]
    · intro d hd; have := sideOut_shape _ _ _ d hd; refine ⟨?_, fun _ => this.2⟩; rw [this.1]; simp [Pos.block]

theorem inlineOut_split (env : Env V) (hl : env.logical = false) (log : Bool) (s : Held V × List (Decl V)) (h : Plain env.logicalShorthand s.2) :
    ∃ A B, (inlineOut env log s).2 = A ++ B ∧ Plain env.logicalShorthand A ∧ ∀ d ∈ B, inl d = log ∧ axial d = false := by
  simp only [inlineOut]
  split
  · simp only [hl, Bool.false_eq_true, if_false]
    refine ⟨_, [], (List.append_nil _).symm, plain_append h ?_, by simp⟩
    intro d hd; simp at hd; rcases hd with rfl | rfl <;> exact ⟨rfl, fun _ => rfl⟩
  · refine ⟨_, _, rfl, ?_, ?_⟩
    · split
      · split
        · rename_i hc
          rw [hc] at h ⊢
          exact axisShorthand_plain _ _ _ (axisShorthand_plain _ _ _ (axisShorthand_plain _ _ _ h))
        · exact inlineProp_plain _ _ _ (inlineProp_plain _ _ _ (inlineProp_plain _ _ _ h))
      · exact h
    · intro d hd
      rcases List.mem_append.mp hd with hd | hd
      · have := sideOut_shape _ _ _ d hd; refine ⟨?_, this.2⟩; rw [this.1]; simp [Pos.block]
      · have := sideOut_shape _ _ _ d hd; refine ⟨?_, this.2⟩; rw [this.1]; simp [Pos.block]

theorem category_split (env : Env V) (hl : env.logical = false) (g : Held V) : Split (category env true g) := by
  simp only [category]
  split
  · exact complete_split _
  · obtain ⟨A, B, h, hA, hB⟩ := inlineOut_split env hl true (blockOut env true (shorthand true .color (shorthand true .width (shorthand true .style (g, []))))) (blockOut_plain env hl _ _ (shorthand_plain _ _ _ _ (shorthand_plain _ _ _ _ (shorthand_plain _ _ _ _ (by intro d hd; cases hd)))))
    rw [h]
    exact ⟨A, B, rfl, fun d hd => (hA d hd).1, fun d hd => (hB d hd).1⟩

theorem propDiff_phys (b : Pos → Key → V) (base : Pos) (fallback : List (Decl V)) (wb : Bool) (h : Plain false fallback) : Plain false (propDiff false b base fallback wb) := by
  simp only [propDiff]
  split; · intro d hd; simp at hd; rcases hd with rfl | rfl <;> exact ⟨rfl, fun _ => rfl⟩
  split; · intro d hd; simp at hd; rcases hd with rfl | rfl <;> exact ⟨rfl, fun _ => rfl⟩
  split; · intro d hd; simp at hd; rcases hd with rfl | rfl <;> exact ⟨rfl, fun _ => rfl⟩
  refine plain_append ?_ h
  intro d hd
  split at hd
  · simp at hd; subst hd; exact ⟨rfl, fun _ => rfl⟩
  · cases hd

theorem sideDiff_phys (b : Pos → Key → V) (base other : Pos) : Plain false (sideDiff false b base other) := by
  intro d hd; have := sideDiff_shape _ _ _ _ d hd; exact ⟨this.1, fun _ => this.2⟩

omit [DecidableEq V] in
theorem plain_cons {ax : Bool} {d : Decl V} {l : List (Decl V)} (h : inl d = false) (h' : ax = false → axial d = false) (hl : Plain ax l) : Plain ax (d :: l) :=
  plain_append (plain_one h h') hl

/-- The physical category has only physical declarations. -/
theorem category_phys (env : Env V) (g : Held V) : Plain false (category env false g) := by
  simp only [category]
  split
  · simp only [complete]
    split; · exact plain_one rfl fun _ => rfl
    split; · exact plain_cons rfl (fun _ => rfl) (sideDiff_phys _ _ _)
    split; · exact plain_cons rfl (fun _ => rfl) (sideDiff_phys _ _ _)
    split; · exact plain_cons rfl (fun _ => rfl) (sideDiff_phys _ _ _)
    split; · exact plain_cons rfl (fun _ => rfl) (sideDiff_phys _ _ _)
    split
    · apply propDiff_phys
      simp only [blockEq, Bool.false_eq_true, if_false]
      exact plain_append (sideDiff_phys _ _ _) (sideDiff_phys _ _ _)
    split; · exact propDiff_phys _ _ _ _ (plain_append (sideDiff_phys _ _ _) (sideDiff_phys _ _ _))
    split; · exact propDiff_phys _ _ _ _ (plain_append (sideDiff_phys _ _ _) (sideDiff_phys _ _ _))
    apply propDiff_phys
    intro d hd; simp at hd; rcases hd with rfl | rfl | rfl | rfl <;> exact ⟨rfl, fun _ => rfl⟩
  · have e : Plain false (shorthand false .color (shorthand false .width (shorthand false .style (g, [])))).2 := shorthand_plain _ _ _ _ (shorthand_plain _ _ _ _ (shorthand_plain _ _ _ _ (by intro d hd; cases hd)))
    generalize shorthand false .color (shorthand false .width (shorthand false .style (g, []))) = s at e
    simp only [blockOut, inlineOut, Bool.false_eq_true, if_false, Bool.false_and]
    have so : ∀ p, Plain false (sideOut false s.1 p) := by intro p d hd; have := sideOut_shape _ _ _ d hd; exact ⟨this.1, fun _ => this.2⟩
    exact plain_append (plain_append e (plain_append (so _) (so _))) (plain_append (so _) (so _))

/-- Without inline sides there is nothing for the directions. -/
theorem category_noinline (env : Env V) (hl : env.logical = false) (g : Held V) (h1 : ∀ k, g .is k = none) (h2 : ∀ k, g .ie k = none) :
    Plain env.logicalShorthand (category env true g) := by
  have hf : fullAll g = none := by
    have : full g .is = none := by simp only [full, h1]
    simp only [fullAll, this]; split <;> simp_all
  simp only [category, hf]
  have sh : ∀ k (s : Held V × List (Decl V)), s.1 .is k = none → shorthand true k s = s := by
    intro k s h
    simp only [shorthand, h]
    split
    · simp_all
    · rfl
  have e : shorthand true .color (shorthand true .width (shorthand true .style (g, []))) = (g, []) := by
    rw [sh .style (g, []) (h1 _), sh .width (g, []) (h1 _), sh .color (g, []) (h1 _)]
  rw [e]
  have hb := blockOut_plain env hl true (g, []) (by intro d hd; cases hd)
  have held : ∀ x k, ¬ (x = Pos.bs ∨ x = .be) → (blockOut env true (g, [])).1 x k = g x k := (blockOut_half env Mode.ltr true (.inr (.inr ⟨rfl, rfl⟩)) (fun _ _ => .before) (g, [])).held
  generalize blockOut env true (g, []) = t at hb held
  have t1 : ∀ k, t.1 .is k = none := by intro k; rw [held _ _ (by simp)]; exact h1 k
  have t2 : ∀ k, t.1 .ie k = none := by intro k; rw [held _ _ (by simp)]; exact h2 k
  have so : ∀ (u : Held V) p, (∀ k, u p k = none) → sideOut true u p = [] := by
    intro u p hu; simp [sideOut, full, longOf, hu]
  have ax : ∀ k (s : Held V × List (Decl V)), s.1 .is k = none → axisShorthand .inline k s = s := by
    intro k s h; simp only [axisShorthand, Axis.start, h]
  have ip : ∀ k (s : Held V × List (Decl V)), s.1 .is k = none → inlineProp k s = s := by
    intro k s h; simp only [inlineProp, h]
  simp only [inlineOut]
  split
  · rename_i b hb
    simp only [if_true] at hb
    have := (eqFull_some hb .width).1
    rw [t1] at this; cases this
  · rw [ax .style t (t1 _), ax .width t (t1 _), ax .color t (t1 _), ip .style t (t1 _), ip .width t (t1 _), ip .color t (t1 _)]
    simp only [ite_self]
    rw [so _ _ t1, so _ _ t2]
    simpa using hb

/-- The two directions: `true` for left to right. -/
def dirMode (l : Bool) : Mode := if l then .ltr else .rtl

/-- The rule for a direction. -/
def Out.dir (l : Bool) (o : Out V) : List (Decl V) := if l then o.ltr else o.rtl

omit [DecidableEq V] in
theorem dirMode_horizontal (l : Bool) : (dirMode l).Horizontal := by cases l <;> exact ⟨rfl, rfl⟩

omit [DecidableEq V] in
theorem set_long_block (m : Mode) (hm : m.Horizontal) (c : Pos → Key → Value V) (q : Pos) (hq : q.block = true) (k : Key) (v : V) :
    Spec.set m c (.long (.phys q) k v) = Spec.set m c (.long (.log q) k v) := by
  funext p j
  have h1 := set_long m c true q k v p j
  simp only [slotOf, if_true, sig] at h1
  rw [h1, set_phys]
  obtain ⟨i1, i2, i3⟩ := horizontal_inv hm
  have i3 := i3 p
  have : p = q ↔ m.inv p = q := by
    cases q with
    | is => cases hq
    | ie => cases hq
    | bs =>
      cases p
      · simp [i1]
      · simp [i2]
      all_goals revert i3; generalize m.inv _ = x; cases x <;> simp
    | be =>
      cases p
      · simp [i1]
      · simp [i2]
      all_goals revert i3; generalize m.inv _ = x; cases x <;> simp
  simp only [this]

omit [DecidableEq V] in
theorem set_side_block (m : Mode) (hm : m.Horizontal) (c : Pos → Key → Value V) (q : Pos) (hq : q.block = true) (b : Key → V) :
    Spec.set m c (.side (.phys q) b) = Spec.set m c (.side (.log q) b) := by
  have e : ∀ sl : Slot, Spec.set m c (.side sl b) = Spec.set m (Spec.set m (Spec.set m c (.long sl .width (b .width))) (.long sl .style (b .style))) (.long sl .color (b .color)) := by
    intro sl
    funext p j
    cases sl with
    | phys q =>
      have h1 := set_side m c false q b p j
      simp only [slotOf, Bool.false_eq_true, if_false, sig] at h1
      simp only [h1, set_phys]
      cases j <;> by_cases h : p = q <;> simp [h]
    | log q =>
      have h1 := set_side m c true q b p j
      have h2 := fun (c : Pos → Key → Value V) k v => set_long m c true q k v p j
      simp only [slotOf, if_true, sig] at h1 h2
      simp only [h1, h2]
      cases j <;> by_cases h : m.inv p = q <;> simp [h]
  rw [e, e]
  rw [set_long_block m hm _ q hq, set_long_block m hm _ q hq, set_long_block m hm _ q hq]

omit [DecidableEq V] in
theorem prop_block (env : Env V) (hl : env.logical = false) (hs : SameProperty env) (m : Mode) (hm : m.Horizontal) (o : Out V) (d : Decl V) (hd : inl d = false) (c : Pos → Key → Value V) :
    sets m c (o.prop env d).main = Spec.set m (sets m c o.main) d ∧ (o.prop env d).ltr = o.ltr ∧ (o.prop env d).rtl = o.rtl := by
  have gen : ∀ e : Decl V, (∀ c, Spec.set m c e = Spec.set m c d) → sets m c (o.push env e).main = Spec.set m (sets m c o.main) d ∧ (o.push env e).ltr = o.ltr ∧ (o.push env e).rtl = o.rtl := by
    intro e he
    exact ⟨by rw [push_sets env hs, he], push_rules env o e⟩
  simp only [Out.prop, hl, Bool.false_eq_true, if_false]
  split
  · cases hd
  · cases hd
  · rename_i p k v h1 h2
    exact gen _ (fun c => set_long_block m hm c p (by cases p <;> first | rfl | exact absurd rfl h1 | exact absurd rfl h2) k v)
  · cases hd
  · cases hd
  · rename_i p b h1 h2
    exact gen _ (fun c => set_side_block m hm c p (by cases p <;> first | rfl | exact absurd rfl h1 | exact absurd rfl h2) b)
  · exact gen d fun _ => rfl

omit [DecidableEq V] in
theorem props_block (env : Env V) (hl : env.logical = false) (hs : SameProperty env) (m : Mode) (hm : m.Horizontal) (c : Pos → Key → Value V) (ds : List (Decl V)) (hd : ∀ d ∈ ds, inl d = false) :
    ∀ o : Out V, sets m c (ds.foldl (Out.prop env) o).main = sets m (sets m c o.main) ds ∧ (ds.foldl (Out.prop env) o).ltr = o.ltr ∧ (ds.foldl (Out.prop env) o).rtl = o.rtl := by
  induction ds with
  | nil => intro o; exact ⟨rfl, rfl, rfl⟩
  | cons d ds ih =>
    intro o
    obtain ⟨h1, h2, h3⟩ := prop_block env hl hs m hm o d (hd d (List.mem_cons_self ..)) c
    obtain ⟨e1, e2, e3⟩ := ih (fun x hx => hd x (List.mem_cons_of_mem _ hx)) (o.prop env d)
    rw [List.foldl_cons]
    exact ⟨by rw [e1, h1]; rfl, by rw [e2, h2], by rw [e3, h3]⟩

omit [DecidableEq V] in
theorem prop_inl (env : Env V) (hl : env.logical = false) (l : Bool) (o : Out V) (d : Decl V) (hd : inl d = true) (c : Pos → Key → Value V) :
    (o.prop env d).main = o.main ∧ sets (dirMode l) c ((o.prop env d).dir l) = Spec.set (dirMode l) (sets (dirMode l) c (o.dir l)) d := by
  have hlong : ∀ (c : Pos → Key → Value V) q k (v : V), q.block = false → Spec.set (dirMode l) c (.long (.phys (if l then q else Spec.swap q)) k v) = Spec.set (dirMode l) c (.long (.log q) k v) := by
    intro c q k v hq
    funext p j
    have h1 := set_long (dirMode l) c true q k v p j
    simp only [slotOf, if_true, sig] at h1
    rw [h1, set_phys]
    have : (p = (if l then q else Spec.swap q)) ↔ (dirMode l).inv p = q := by
      cases l <;> cases q <;> cases p <;> revert hq <;> simp [Pos.block, Spec.swap, dirMode, Mode.ltr, Mode.rtl]
    simp only [this]
  have hside : ∀ (c : Pos → Key → Value V) q (b : Key → V), q.block = false → Spec.set (dirMode l) c (.side (.phys (if l then q else Spec.swap q)) b) = Spec.set (dirMode l) c (.side (.log q) b) := by
    intro c q b hq
    funext p j
    have h1 := set_side (dirMode l) c true q b p j
    have h2 := set_side (dirMode l) c false (if l then q else Spec.swap q) b p j
    simp only [slotOf, if_true, sig, Bool.false_eq_true, if_false] at h1 h2
    rw [h1, h2]
    have : (p = (if l then q else Spec.swap q)) ↔ (dirMode l).inv p = q := by
      cases l <;> cases q <;> cases p <;> revert hq <;> simp [Pos.block, Spec.swap, dirMode, Mode.ltr, Mode.rtl]
    simp only [this]
  simp only [Out.prop, hl, Bool.false_eq_true, if_false]
  split
  · refine ⟨rfl, ?_⟩
    cases l <;> simp only [Out.rule, Out.dir, Bool.false_eq_true, if_false, if_true, sets_append, sets_cons, sets_nil]
    · exact hlong _ .is _ _ rfl
    · exact hlong _ .is _ _ rfl
  · refine ⟨rfl, ?_⟩
    cases l <;> simp only [Out.rule, Out.dir, Bool.false_eq_true, if_false, if_true, sets_append, sets_cons, sets_nil]
    · exact hlong _ .ie _ _ rfl
    · exact hlong _ .ie _ _ rfl
  · rename_i p k v h1 h2
    cases p
    · cases hd
    · cases hd
    · exact absurd rfl h1
    · exact absurd rfl h2
  · refine ⟨rfl, ?_⟩
    cases l <;> simp only [Out.rule, Out.dir, Bool.false_eq_true, if_false, if_true, sets_append, sets_cons, sets_nil]
    · exact hside _ .is _ rfl
    · exact hside _ .is _ rfl
  · refine ⟨rfl, ?_⟩
    cases l <;> simp only [Out.rule, Out.dir, Bool.false_eq_true, if_false, if_true, sets_append, sets_cons, sets_nil]
    · exact hside _ .ie _ rfl
    · exact hside _ .ie _ rfl
  · rename_i p k h1 h2
    cases p
    · cases hd
    · cases hd
    · exact absurd rfl h1
    · exact absurd rfl h2
  · exfalso
    rename_i h1 h2 h3 h4 h5 h6
    cases d with
    | long sl k v => cases sl with
      | phys p => cases hd
      | log p => exact h3 p k v rfl
    | side sl b => cases sl with
      | phys p => cases hd
      | log p => exact h6 p b rfl
    | _ => cases hd

omit [DecidableEq V] in
theorem props_inl (env : Env V) (hl : env.logical = false) (l : Bool) (c : Pos → Key → Value V) (ds : List (Decl V)) (hd : ∀ d ∈ ds, inl d = true) :
    ∀ o : Out V, (ds.foldl (Out.prop env) o).main = o.main ∧ sets (dirMode l) c ((ds.foldl (Out.prop env) o).dir l) = sets (dirMode l) (sets (dirMode l) c (o.dir l)) ds := by
  induction ds with
  | nil => intro o; exact ⟨rfl, rfl⟩
  | cons d ds ih =>
    intro o
    obtain ⟨h1, h2⟩ := prop_inl env hl l o d (hd d (List.mem_cons_self ..)) c
    obtain ⟨e1, e2⟩ := ih (fun x hx => hd x (List.mem_cons_of_mem _ hx)) (o.prop env d)
    rw [List.foldl_cons]
    exact ⟨by rw [e1, h1], by rw [e2, h2]; rfl⟩

/-- `flush` without inline sides. -/
theorem flush_noinline (env : Env V) (hl : env.logical = false) (hs : SameProperty env) (m : Mode) (hm : m.Horizontal) (c : Pos → Key → Value V) (s : Handler V × Out V) (hi : Inv s.1)
    (h1 : ∀ k, s.1.f (.log .is) k = none) (h2 : ∀ k, s.1.f (.log .ie) k = none) :
    sets m c (flush env s).2.main = overs m s.1 (sets m c s.2.main) ∧ (flush env s).2.ltr = s.2.ltr ∧ (flush env s).2.rtl = s.2.rtl := by
  simp only [flush]
  cases ha : s.1.any with
  | true =>
    simp only [if_true]
    have hn : ∀ d ∈ calls env s.1, inl d = false := by
      intro d hd
      rcases List.mem_append.mp hd with h | h
      · exact (category_phys env _ d h).1
      · exact (category_noinline env hl _ h1 h2 d h).1
    obtain ⟨e1, e2, e3⟩ := props_block env hl hs m hm c (calls env s.1) hn s.2
    exact ⟨by rw [e1, sets_calls env m (.inr (.inr hm))], e2, e3⟩
  | false => simp only [Bool.false_eq_true, if_false]; refine ⟨?_, trivial, trivial⟩; rw [overs_none m s.1 (hi.any ha)]

/-- `flush` with nothing in the rules yet. -/
theorem flush_dir (env : Env V) (hl : env.logical = false) (hs : SameProperty env) (l : Bool) (c : Pos → Key → Value V) (s : Handler V × Out V) (hi : Inv s.1) (hr : s.2.dir l = []) :
    sets (dirMode l) c ((flush env s).2.main ++ (flush env s).2.dir l) = overs (dirMode l) s.1 (sets (dirMode l) c s.2.main) := by
  simp only [flush]
  cases ha : s.1.any with
  | true =>
    simp only [if_true]
    obtain ⟨A, B, e, hA, hB⟩ := category_split env hl (fun p => s.1.f (.log p))
    have hc : calls env s.1 = (category env false (fun p => s.1.f (.phys p)) ++ A) ++ B := by simp only [calls, e, List.append_assoc]
    rw [← sets_calls env (dirMode l) (.inr (.inr (dirMode_horizontal l))), hc, List.foldl_append, sets_append (dirMode l) _ (_ ++ A) B]
    obtain ⟨e1, e2, e3⟩ := props_block env hl hs (dirMode l) (dirMode_horizontal l) c (category env false (fun p => s.1.f (.phys p)) ++ A)
      (by intro d hd; rcases List.mem_append.mp hd with h | h; exact (category_phys env _ d h).1; exact hA d h) s.2
    have e23 : ((category env false (fun p => s.1.f (.phys p)) ++ A).foldl (Out.prop env) s.2).dir l = [] := by
      rw [← hr]; simp only [Out.dir, e2, e3]
    generalize (category env false (fun p => s.1.f (.phys p)) ++ A).foldl (Out.prop env) s.2 = o at e1 e23
    rw [← e1, sets_append, (props_inl env hl l c B hB o).1, (props_inl env hl l (sets (dirMode l) c o.main) B hB o).2, e23]; rfl
  | false =>
    simp only [Bool.false_eq_true, if_false]; rw [overs_none _ s.1 (hi.any ha), hr, List.append_nil]

/-- Nothing is held for the inline sides. -/
def NoInline (h : Handler V) : Prop := ∀ k, h.f (.log .is) k = none ∧ h.f (.log .ie) k = none

/-- A declaration that sets no logical inline side. -/
def InlineFree (d : Decl V) : Prop := ∀ id val, parts d = some (id, val) → ∀ k, ¬ Longhand id (.log .is) k ∧ ¬ Longhand id (.log .ie) k

theorem noInline_closed (env : Env V) : Closed env NoInline where
  flush := by
    intro s h
    simp only [flush]
    split
    · intro k; exact ⟨rfl, rfl⟩
    · exact h

omit [DecidableEq V] in
theorem noInline_long (h : Handler V) (hp : NoInline h) (sl : Slot) (k : Key) (v : V) (cat any : Bool) (hn : sl ≠ .log .is ∧ sl ≠ .log .ie) :
    NoInline { h with f := fun t j => if t = sl ∧ j = k then some v else h.f t j, category := cat, any := any } := by
  intro j
  refine ⟨?_, ?_⟩ <;> simp only
  · rw [if_neg (by rintro ⟨h, _⟩; exact hn.1 h.symm)]; exact (hp j).1
  · rw [if_neg (by rintro ⟨h, _⟩; exact hn.2 h.symm)]; exact (hp j).2

omit [DecidableEq V] in
theorem noInline_side (h : Handler V) (hp : NoInline h) (sl : Slot) (b : Key → V) (cat any : Bool) (hn : sl ≠ .log .is ∧ sl ≠ .log .ie) :
    NoInline { h with f := fun t j => if t = sl then some (b j) else h.f t j, category := cat, any := any } := by
  intro j
  refine ⟨?_, ?_⟩ <;> simp only
  · rw [if_neg (fun h => hn.1 h.symm)]; exact (hp j).1
  · rw [if_neg (fun h => hn.2 h.symm)]; exact (hp j).2

omit [DecidableEq V] in
theorem inlineFree_slot {d : Decl V} (hd : InlineFree d) {id : PId} {val : Slot → Key → Value V} (e : parts d = some (id, val)) {sl : Slot} {k : Key} (hl : Longhand id sl k) :
    sl ≠ .log .is ∧ sl ≠ .log .ie :=
  ⟨fun h => (hd id val e k).1 (h ▸ hl), fun h => (hd id val e k).2 (h ▸ hl)⟩

/-- The predicate is kept by the declarations that it allows. -/
theorem handle_noInline (env : Env V) (s : Handler V × Out V) (d : Decl V) (hd : InlineFree d) (hp : NoInline s.1) : NoInline (handle env s d).1 := by
  have hc := noInline_closed env
  have hl : ∀ {id : PId} {val} (_ : parts d = some (id, val)) {sl : Slot} {k : Key} (_ : Longhand id sl k) (s : Handler V × Out V) (v : V), NoInline s.1 → NoInline (property env s sl k v).1 :=
    by intro id val e sl k h s v hp; exact property_closed hc s _ _ v (fun x hx => noInline_long x hx _ _ v _ _ (inlineFree_slot hd e h)) hp
  have hsd : ∀ {id : PId} {val} (_ : parts d = some (id, val)) {sl : Slot} {k : Key} (_ : Longhand id sl k) (s : Handler V × Out V) (b : Key → V), NoInline s.1 → NoInline (setBorder env s sl b).1 :=
    by intro id val e sl k h s b hp; exact setBorder_closed hc s _ b (fun x hx => noInline_side x hx _ b _ _ (inlineFree_slot hd e h)) hp
  cases d with
  | long sl k v => exact hl rfl (.long _ _) s v hp
  | side sl b => exact hsd rfl (.side _ .width) s b hp
  | rect k v =>
    have := hl rfl (.rect k .is) _ (v .is) (hl rfl (.rect k .be) _ (v .be) (hl rfl (.rect k .ie) _ (v .ie) (hl rfl (.rect k .bs) s (v .bs) hp)))
    intro j
    simp only [handle]
    refine ⟨?_, ?_⟩
    · split
      · rfl
      · exact (this j).1
    · split
      · rfl
      · exact (this j).2
  | border b => intro j; exact ⟨rfl, rfl⟩
  | axisKey a k v w =>
    have h2 : Longhand (.axisKey a k) (.log a.stop) k := by cases a <;> constructor
    exact hl rfl h2 _ w (hl rfl (longhand_axisKey a k) s v hp)
  | axis a b =>
    have h2 : Longhand (.axis a) (.log a.stop) .width := by cases a <;> constructor
    exact hsd rfl h2 _ b (hsd rfl (longhand_axis a .width) s b hp)
  | raw id u => exact hc.flush s hp
  | image u =>
    simp only [handle]
    split
    · split
      · simp only [flushImage]; split <;> exact hp
      · exact hp
    · exact hp
  | imageRaw u =>
    have := hc.flush s hp
    simp only [handle, flushImage]
    split <;> exact this

theorem enter_dir (env : Env V) (l : Bool) (hfl : ∀ s : Handler V × Out V, NoInline s.1 → Inv s.1 → (flush env s).2.dir l = s.2.dir l) (s : Handler V × Out V) (hi : Inv s.1) (hp : NoInline s.1) (log : Bool) :
    (enter env s log).2.dir l = s.2.dir l := by
  simp only [enter]; split
  · exact hfl s hp hi
  · rfl

theorem enter_noInline (env : Env V) (s : Handler V × Out V) (hp : NoInline s.1) (log : Bool) : NoInline (enter env s log).1 := by
  simp only [enter]; split
  · exact (noInline_closed env).flush s hp
  · exact hp

theorem property_dir (env : Env V) (l : Bool) (hfl : ∀ s : Handler V × Out V, NoInline s.1 → Inv s.1 → (flush env s).2.dir l = s.2.dir l) (s : Handler V × Out V) (hi : Inv s.1) (hp : NoInline s.1) (sl : Slot) (k : Key) (v : V) :
    (property env s sl k v).2.dir l = s.2.dir l := by
  have h1 := enter_dir env l hfl s hi hp sl.logical
  have h2 := enter_noInline env s hp sl.logical
  have h3 := enter_inv env s sl.logical hi
  rw [← h1]
  simp only [property, conflict]
  generalize enter env s sl.logical = t at h1 h2 h3
  split
  · split
    · exact hfl t h2 h3
    · rfl
  · rfl

omit [DecidableEq V] in
theorem rawOut_block (env : Env V) (hl : env.logical = false) (m : Mode) (hm : m.Horizontal) (c : Pos → Key → Value V) (id : PId) (u : Nat) (hd : InlineFree (Decl.raw id u : Decl V)) (o : Out V) :
    sets m c (rawOut env o id u).main = Spec.set m (sets m c o.main) (.raw id u) ∧ (rawOut env o id u).ltr = o.ltr ∧ (rawOut env o id u).rtl = o.rtl := by
  obtain ⟨i1, i2, i3⟩ := horizontal_inv hm
  have inv : ∀ q : Pos, q.block = true → ∀ p, p = q ↔ m.inv p = q := by
    intro q hq p
    have i3 := i3 p
    cases q with
    | is => cases hq
    | ie => cases hq
    | bs =>
      cases p
      · simp [i1]
      · simp [i2]
      all_goals revert i3; generalize m.inv _ = x; cases x <;> simp
    | be =>
      cases p
      · simp [i1]
      · simp [i2]
      all_goals revert i3; generalize m.inv _ = x; cases x <;> simp
  have hlong : ∀ (c : Pos → Key → Value V) q k, q.block = true → Spec.set m c (.raw (.long (.phys q) k) u) = Spec.set m c (.raw (.long (.log q) k) u) := by
    intro c q k hq
    funext p j
    simp only [Spec.set, parts]
    have e := inv q hq p
    by_cases h : p = q ∧ j = k
    · have h' := e.mp h.1
      rw [h.1] at h'
      obtain ⟨rfl, rfl⟩ := h
      rw [if_pos (.long _ _), if_neg (by intro h; cases h), if_pos (by rw [h']; exact .long _ _)]
    · rw [if_neg (by intro h'; cases h'; exact h ⟨rfl, rfl⟩), if_neg (by intro h'; cases h'), if_neg (by intro h'; cases h'), if_neg]
      intro h'
      generalize hx : m.inv p = x at h'
      cases h'
      exact h ⟨e.mpr hx, rfl⟩
  have hside : ∀ (c : Pos → Key → Value V) q, q.block = true → Spec.set m c (.raw (.side (.phys q)) u) = Spec.set m c (.raw (.side (.log q)) u) := by
    intro c q hq
    funext p j
    simp only [Spec.set, parts]
    have e := inv q hq p
    by_cases h : p = q
    · have h' := e.mp h
      rw [h] at h'
      obtain rfl := h
      rw [if_pos (.side _ _), if_neg (by intro h; cases h), if_pos (by rw [h']; exact .side _ _)]
    · rw [if_neg (by intro h'; cases h'; exact h rfl), if_neg (by intro h'; cases h'), if_neg (by intro h'; cases h'), if_neg]
      intro h'
      generalize hx : m.inv p = x at h'
      cases h'
      exact h (e.mpr hx)
  simp only [rawOut, hl, Bool.false_eq_true, if_false]
  split
  · exact absurd (.long _ _) (hd _ _ rfl _).1
  · exact absurd (.long _ _) (hd _ _ rfl _).2
  · rename_i p k h1 h2
    refine ⟨?_, rfl, rfl⟩
    simp only [sets_append, sets_cons, sets_nil]
    exact hlong _ _ _ (by cases p <;> first | rfl | exact absurd rfl h1 | exact absurd rfl h2)
  · exact absurd (.side _ .width) (hd _ _ rfl _).1
  · exact absurd (.side _ .width) (hd _ _ rfl _).2
  · rename_i p h1 h2
    refine ⟨?_, rfl, rfl⟩
    simp only [sets_append, sets_cons, sets_nil]
    exact hside _ _ (by cases p <;> first | rfl | exact absurd rfl h1 | exact absurd rfl h2)
  · exact ⟨by rw [show ((({ Out.mark o id with main := o.main ++ [Decl.raw id u] } : Out V)).main) = o.main ++ [.raw id u] from rfl, sets_append]; rfl, rfl, rfl⟩

/-- One declaration without logical inline sides: the state follows, nothing is written for the directions. -/
theorem handle_free (env : Env V) (hl : env.logical = false) (hs : SameProperty env) (m : Mode) (hm : m.Horizontal) (c : Pos → Key → Value V) (s : Handler V × Out V) (d : Decl V)
    (hd : InlineFree d) (hi : Inv s.1) (hp : NoInline s.1) :
    state m c (handle env s d) = Spec.set m (state m c s) d ∧ ∀ l, (handle env s d).2.dir l = s.2.dir l := by
  have hg : GoodFlush env m c NoInline := fun s hi hp => (flush_noinline env hl hs m hm c s hi (fun k => (hp k).1) (fun k => (hp k).2)).1
  have hfl : ∀ l, ∀ s : Handler V × Out V, NoInline s.1 → Inv s.1 → (flush env s).2.dir l = s.2.dir l := by
    intro l s hp hi
    have := (flush_noinline env hl hs m hm c s hi (fun k => (hp k).1) (fun k => (hp k).2)).2
    simp only [Out.dir, this.1, this.2]
  refine ⟨?_, ?_⟩
  · apply handle_state env m c hg (noInline_closed env) s d _ hi hp
    · rintro sl k v ⟨id, val, e, h⟩ x hx
      exact noInline_long x hx _ _ v _ _ (inlineFree_slot hd e h)
    · rintro sl b ⟨id, val, e, h⟩ x hx
      exact noInline_side x hx _ b _ _ (inlineFree_slot hd e (h .width))
    · rintro id u rfl o
      exact (rawOut_block env hl m hm c id u hd o).1
  · intro l
    have hc := noInline_closed env
    have hlg : ∀ {id : PId} {val} (_ : parts d = some (id, val)) {sl : Slot} {k : Key} (_ : Longhand id sl k) (s : Handler V × Out V) (v : V), NoInline s.1 → Inv s.1 →
        NoInline (property env s sl k v).1 ∧ Inv (property env s sl k v).1 ∧ (property env s sl k v).2.dir l = s.2.dir l :=
      by intro id val e sl k h s v hp hi; exact ⟨property_closed hc s _ _ v (fun x hx => noInline_long x hx _ _ v _ _ (inlineFree_slot hd e h)) hp, property_inv env s _ _ v hi, property_dir env l (hfl l) s hi hp _ _ v⟩
    have hsd : ∀ {id : PId} {val} (_ : parts d = some (id, val)) {sl : Slot} {k : Key} (_ : Longhand id sl k) (s : Handler V × Out V) (b : Key → V), NoInline s.1 → Inv s.1 →
        NoInline (setBorder env s sl b).1 ∧ Inv (setBorder env s sl b).1 ∧ (setBorder env s sl b).2.dir l = s.2.dir l :=
      by intro id val e sl k h s b hp hi; exact ⟨setBorder_closed hc s _ b (fun x hx => noInline_side x hx _ b _ _ (inlineFree_slot hd e h)) hp, setBorder_inv env s _ b hi, enter_dir env l (hfl l) s hi hp _⟩
    cases d with
    | long sl k v => exact (hlg rfl (.long _ _) s v hp hi).2.2
    | side sl b => exact (hsd rfl (.side _ .width) s b hp hi).2.2
    | rect k v =>
      obtain ⟨p1, i1, e1⟩ := hlg rfl (.rect k .bs) s (v .bs) hp hi
      obtain ⟨p2, i2, e2⟩ := hlg rfl (.rect k .ie) _ (v .ie) p1 i1
      obtain ⟨p3, i3, e3⟩ := hlg rfl (.rect k .be) _ (v .be) p2 i2
      obtain ⟨p4, i4, e4⟩ := hlg rfl (.rect k .is) _ (v .is) p3 i3
      exact e4.trans (e3.trans (e2.trans e1))
    | border b => rfl
    | axisKey a k v w =>
      have h2 : Longhand (.axisKey a k) (.log a.stop) k := by cases a <;> constructor
      obtain ⟨p1, i1, e1⟩ := hlg rfl (longhand_axisKey a k) s v hp hi
      exact (hlg rfl h2 _ w p1 i1).2.2.trans e1
    | axis a b =>
      have h2 : Longhand (.axis a) (.log a.stop) .width := by cases a <;> constructor
      obtain ⟨p1, i1, e1⟩ := hsd rfl (longhand_axis a .width) s b hp hi
      exact (hsd rfl h2 _ b p1 i1).2.2.trans e1
    | raw id u =>
      have := rawOut_block env hl m hm c id u hd (flush env s).2
      rw [← hfl l s hp hi]
      simp only [handle, Out.dir, this.2.1, this.2.2]
    | image u =>
      simp only [handle]
      split
      · split
        · simp only [flushImage]; split <;> rfl
        · rfl
      · rfl
    | imageRaw u =>
      rw [← hfl l s hp hi]
      simp only [handle, flushImage]
      split <;> rfl

theorem foldl_free (env : Env V) (hl : env.logical = false) (hs : SameProperty env) (m : Mode) (hm : m.Horizontal) (c : Pos → Key → Value V) (ds : List (Decl V)) (hd : ∀ d ∈ ds, InlineFree d) :
    ∀ s : Handler V × Out V, Inv s.1 → NoInline s.1 →
      state m c (ds.foldl (handle env) s) = sets m (state m c s) ds ∧ (∀ l, (ds.foldl (handle env) s).2.dir l = s.2.dir l) ∧ Inv (ds.foldl (handle env) s).1 ∧ NoInline (ds.foldl (handle env) s).1 := by
  induction ds with
  | nil => intro s hi hp; exact ⟨rfl, fun _ => rfl, hi, hp⟩
  | cons d ds ih =>
    intro s hi hp
    have hd1 := hd d (List.mem_cons_self ..)
    obtain ⟨e1, r1⟩ := handle_free env hl hs m hm c s d hd1 hi hp
    obtain ⟨e2, r2, i2, p2⟩ := ih (fun x hx => hd x (List.mem_cons_of_mem _ hx)) (handle env s d) (handle_inv env s d hi) (handle_noInline env s d hd1 hp)
    rw [List.foldl_cons]
    exact ⟨by rw [e2, e1]; rfl, fun l => (r2 l).trans (r1 l), i2, p2⟩

/-- A declaration of logical properties, with a parsed value. -/
def LogicalParsed (d : Decl V) : Prop := (∀ id u, d ≠ .raw id u) ∧ (∀ u, d ≠ .image u) ∧ (∀ u, d ≠ .imageRaw u) ∧ ∀ id val, parts d = some (id, val) → ∀ p k, ¬ Longhand id (.phys p) k

omit [DecidableEq V] in
theorem logicalParsed_cases {d : Decl V} (h : LogicalParsed d) :
    (∃ p k v, d = .long (.log p) k v) ∨ (∃ p b, d = .side (.log p) b) ∨ (∃ a k v w, d = .axisKey a k v w) ∨ ∃ a b, d = .axis a b := by
  obtain ⟨h1, h2, h3, h4⟩ := h
  cases d with
  | long sl k v => cases sl with
    | phys p => exact absurd (.long _ _) (h4 _ _ rfl p k)
    | log p => exact .inl ⟨_, _, _, rfl⟩
  | side sl b => cases sl with
    | phys p => exact absurd (.side _ .width) (h4 _ _ rfl p .width)
    | log p => exact .inr (.inl ⟨_, _, rfl⟩)
  | rect k v => exact absurd (.rect _ _) (h4 _ _ rfl .bs k)
  | border b => exact absurd (.border _ _) (h4 _ _ rfl .bs .width)
  | axisKey a k v w => exact .inr (.inr (.inl ⟨_, _, _, _, rfl⟩))
  | axis a b => exact .inr (.inr (.inr ⟨_, _, rfl⟩))
  | raw id u => exact absurd rfl (h1 id u)
  | image u => exact absurd rfl (h2 u)
  | imageRaw u => exact absurd rfl (h3 u)

/-- The invariant for the logical part of a block. -/
structure Late (m : Mode) (c x : Pos → Key → Value V) (s : Handler V × Out V) : Prop where
  inv : Inv s.1
  state : state m c s = x
  dir : ∀ l, s.2.dir l = []

theorem enter_late (env : Env V) (hl : env.logical = false) (hs : SameProperty env) (m : Mode) (hm : m.Horizontal) (c x : Pos → Key → Value V) (s : Handler V × Out V) (h : Late m c x s) :
    Late m c x (enter env s true) := by
  simp only [enter]
  split
  · rename_i hc
    have hcat : s.1.category = false := by simpa using hc.symm
    have f1 := h.inv.cat hcat
    obtain ⟨e1, e2, e3⟩ := flush_noinline env hl hs m hm c s h.inv (f1 _) (f1 _)
    refine ⟨flush_inv env s h.inv, ?_, ?_⟩
    · rw [state_flushed env m c s h.inv e1]; exact h.state
    · intro l; have := h.dir l; simp only [Out.dir, e2, e3] at this ⊢; exact this
  · exact h

theorem property_late (env : Env V) (hl : env.logical = false) (hs : SameProperty env) (hc : ∀ k v, env.compat k v = true) (m : Mode) (hm : m.Horizontal) (c x : Pos → Key → Value V) (s : Handler V × Out V) (h : Late m c x s)
    (p : Pos) (k : Key) (v : V) : Late m c (Spec.set m x (.long (.log p) k v)) (property env s (.log p) k v) := by
  have h' := enter_late env hl hs m hm c x s h
  have e : property env s (.log p) k v = ({ (enter env s true).1 with f := fun t j => if t = .log p ∧ j = k then some v else (enter env s true).1.f t j, category := true, any := true }, (enter env s true).2) := by
    simp only [property, Slot.logical]
    generalize enter env s true = t
    have : conflict env t (.log p) k v = t := by
      simp only [conflict]
      split
      · rw [if_neg (by rw [hc]; simp)]
      · rfl
    rw [this]
  rw [e]
  refine ⟨⟨(by intro h; cases h), (by intro h; cases h)⟩, ?_, h'.dir⟩
  simp only [state]
  rw [overs_long m _ (.log p) k v _ _ _ (by intro h; cases h)]
  rw [← h'.state]; rfl

theorem setBorder_late (env : Env V) (hl : env.logical = false) (hs : SameProperty env) (m : Mode) (hm : m.Horizontal) (c x : Pos → Key → Value V) (s : Handler V × Out V) (h : Late m c x s)
    (p : Pos) (b : Key → V) : Late m c (Spec.set m x (.side (.log p) b)) (setBorder env s (.log p) b) := by
  have h' := enter_late env hl hs m hm c x s h
  simp only [setBorder, Slot.logical]
  refine ⟨⟨(by intro h; cases h), (by intro h; cases h)⟩, ?_, h'.dir⟩
  simp only [state]
  rw [overs_side m _ (.log p) b _ _ _ (by intro h; cases h)]
  rw [← h'.state]; rfl

theorem foldl_late (env : Env V) (hl : env.logical = false) (hs : SameProperty env) (hc : ∀ k v, env.compat k v = true) (m : Mode) (hm : m.Horizontal) (c : Pos → Key → Value V) (ds : List (Decl V)) (hd : ∀ d ∈ ds, LogicalParsed d) :
    ∀ (x : Pos → Key → Value V) (s : Handler V × Out V), Late m c x s → Late m c (sets m x ds) (ds.foldl (handle env) s) := by
  induction ds with
  | nil => intro x s h; exact h
  | cons d ds ih =>
    intro x s h
    rw [List.foldl_cons, sets_cons]
    refine ih (fun x hx => hd x (List.mem_cons_of_mem _ hx)) _ _ ?_
    rcases logicalParsed_cases (hd d (List.mem_cons_self ..)) with ⟨p, k, v, rfl⟩ | ⟨p, b, rfl⟩ | ⟨a, k, v, w, rfl⟩ | ⟨a, b, rfl⟩
    · exact property_late env hl hs hc m hm c x s h p k v
    · exact setBorder_late env hl hs m hm c x s h p b
    · rw [set_axisKey2]
      exact property_late env hl hs hc m hm c _ _ (property_late env hl hs hc m hm c x s h _ k v) _ k w
    · rw [set_axis2]
      exact setBorder_late env hl hs m hm c _ _ (setBorder_late env hl hs m hm c x s h _ b) _ b

end
end Verif.Border
