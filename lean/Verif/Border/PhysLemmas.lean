import Verif.Border.Compile
/-! # Only physical properties are written -/
namespace Verif.Border
open Spec (SameProperty Mode Value Longhand parts Agent Computed Sets Physical OfAxis)

section
variable {V : Type}

theorem physical_long (p : Pos) (k : Key) (v : V) : Physical (.long (.phys p) k v) := by
  rintro s j ⟨id, val, e, h⟩; cases e; cases h; exact ⟨_, rfl⟩
theorem physical_side (p : Pos) (b : Key → V) : Physical (.side (.phys p) b) := by
  rintro s j ⟨id, val, e, h⟩; cases e; cases h; exact ⟨_, rfl⟩
theorem physical_rect (k : Key) (v : Pos → V) : Physical (.rect k v) := by
  rintro s j ⟨id, val, e, h⟩; cases e; cases h; exact ⟨_, rfl⟩
theorem physical_border (b : Key → V) : Physical (.border b) := by
  rintro s j ⟨id, val, e, h⟩; cases e; cases h; exact ⟨_, rfl⟩
theorem physical_none (d : Decl V) (h : parts d = none) : Physical d := by
  rintro s j ⟨id, val, e, _⟩; rw [h] at e; cases e

/-- All that is written is physical. -/
structure AllPhys (o : Out V) : Prop where
  main : ∀ d ∈ o.main, Physical d
  ltr : ∀ d ∈ o.ltr, Physical d
  rtl : ∀ d ∈ o.rtl, Physical d

theorem push_phys (env : Env V) (hs : SameProperty env) (o : Out V) (d : Decl V) (h : AllPhys o) (hd : Physical d) : AllPhys (o.push env d) := by
  obtain ⟨r1, r2⟩ := push_rules env o d
  refine ⟨?_, by rw [r1]; exact h.ltr, by rw [r2]; exact h.rtl⟩
  intro e he
  simp only [Out.push] at he
  split at he
  · simp only at he
    rcases List.mem_append.mp he with he | he
    · exact h.main e he
    · rcases List.mem_append.mp he with he | he
      · split at he
        · obtain ⟨id, v, w, e1, e2⟩ := hs d e he
          rintro s k ⟨id', val, e3, hl⟩
          rw [e2] at e3; cases e3
          exact hd s k ⟨id, v, e1, hl⟩
        · cases he
      · simp at he; subst he; exact hd
  · simp only at he
    rcases List.mem_append.mp he with he | he
    · exact h.main e he
    · simp at he; subst he; exact hd

theorem rule_phys (o : Out V) (l r : Decl V) (h : AllPhys o) (hl : Physical l) (hr : Physical r) : AllPhys (o.rule l r) := by
  refine ⟨h.main, ?_, ?_⟩
  · intro e he
    rcases List.mem_append.mp he with he | he
    · exact h.ltr e he
    · simp at he; subst he; exact hl
  · intro e he
    rcases List.mem_append.mp he with he | he
    · exact h.rtl e he
    · simp at he; subst he; exact hr

theorem prop_phys (env : Env V) (hl : env.logical = false) (hs : SameProperty env) (o : Out V) (d : Decl V) (h : AllPhys o) (hd : axial d = false) : AllPhys (o.prop env d) := by
  simp only [Out.prop, hl, Bool.false_eq_true, if_false]
  split
  · exact rule_phys _ _ _ h (physical_long _ _ _) (physical_long _ _ _)
  · exact rule_phys _ _ _ h (physical_long _ _ _) (physical_long _ _ _)
  · exact push_phys env hs _ _ h (physical_long _ _ _)
  · exact rule_phys _ _ _ h (physical_side _ _) (physical_side _ _)
  · exact rule_phys _ _ _ h (physical_side _ _) (physical_side _ _)
  · exact push_phys env hs _ _ h (physical_side _ _)
  · rename_i h1 h2 h3 h4 h5 h6
    apply push_phys env hs _ _ h
    cases d with
    | long sl k v => cases sl with
      | phys p => exact physical_long _ _ _
      | log p => exact absurd rfl (h3 p k v)
    | side sl b => cases sl with
      | phys p => exact physical_side _ _
      | log p => exact absurd rfl (h6 p b)
    | rect k v => exact physical_rect _ _
    | border b => exact physical_border _
    | axisKey a k v w => cases hd
    | axis a b => cases hd
    | raw id u => cases hd
    | image u => exact physical_none _ rfl
    | imageRaw u => exact physical_none _ rfl

theorem props_phys (env : Env V) (hl : env.logical = false) (hs : SameProperty env) (ds : List (Decl V)) (hd : ∀ d ∈ ds, axial d = false) :
    ∀ o : Out V, AllPhys o → AllPhys (ds.foldl (Out.prop env) o) := by
  induction ds with
  | nil => intro o h; exact h
  | cons d ds ih =>
    intro o h
    exact ih (fun x hx => hd x (List.mem_cons_of_mem _ hx)) _ (prop_phys env hl hs o d h (hd d (List.mem_cons_self ..)))

variable [DecidableEq V]

/-- Some logical longhand is not held. -/
def Gap (p : Pos) (k : Key) (h : Handler V) : Prop := h.f (.log p) k = none

theorem calls_axial (env : Env V) (hl : env.logical = false) (hls : env.logicalShorthand = false) (h : Handler V) (p : Pos) (k : Key) (hg : Gap p k h) :
    ∀ d ∈ calls env h, axial d = false := by
  intro d hd
  rcases List.mem_append.mp hd with hd | hd
  · exact (category_phys env _ d hd).2 rfl
  · have hf : fullAll (fun p => h.f (.log p)) = none := by
      cases hf : fullAll (fun p => h.f (.log p)) with
      | none => rfl
      | some b => have := fullAll_some hf p k; simp only [Gap] at hg; rw [hg] at this; cases this
    simp only [category, hf] at hd
    obtain ⟨A, B, e, hA, hB⟩ := inlineOut_split env hl true (blockOut env true (shorthand true .color (shorthand true .width (shorthand true .style ((fun p => h.f (.log p)), []))))) (blockOut_plain env hl _ _ (shorthand_plain _ _ _ _ (shorthand_plain _ _ _ _ (shorthand_plain _ _ _ _ (by intro d hd; cases hd)))))
    rw [e] at hd
    rcases List.mem_append.mp hd with hd | hd
    · exact (hA d hd).2 hls
    · exact (hB d hd).2

/-- The invariant. -/
structure PInv (p : Pos) (k : Key) (s : Handler V × Out V) : Prop where
  gap : Gap p k s.1
  phys : AllPhys s.2

variable (env : Env V) (hl : env.logical = false) (hls : env.logicalShorthand = false) (hs : SameProperty env) (p : Pos) (k : Key)
include hl hls hs

theorem flush_pinv (s : Handler V × Out V) (h : PInv p k s) : PInv p k (flush env s) := by
  simp only [flush]
  split
  · exact ⟨rfl, props_phys env hl hs _ (calls_axial env hl hls s.1 p k h.gap) _ h.phys⟩
  · exact h

theorem enter_pinv (s : Handler V × Out V) (log : Bool) (h : PInv p k s) : PInv p k (enter env s log) := by
  simp only [enter]; split
  · exact flush_pinv env hl hls hs p k s h
  · exact h

theorem property_pinv (s : Handler V × Out V) (sl : Slot) (j : Key) (v : V) (hn : ¬ (sl = .log p ∧ j = k)) (h : PInv p k s) : PInv p k (property env s sl j v) := by
  have h1 := enter_pinv env hl hls hs p k s sl.logical h
  have h2 : PInv p k (conflict env (enter env s sl.logical) sl j v) := by
    simp only [conflict]
    split
    · split
      · exact flush_pinv env hl hls hs p k _ h1
      · exact h1
    · exact h1
  refine ⟨?_, h2.phys⟩
  simp only [property, Gap]
  rw [if_neg (by rintro ⟨e1, e2⟩; exact hn ⟨e1.symm, e2.symm⟩)]
  exact h2.gap

theorem setBorder_pinv (s : Handler V × Out V) (sl : Slot) (b : Key → V) (hn : sl ≠ .log p) (h : PInv p k s) : PInv p k (setBorder env s sl b) := by
  have h1 := enter_pinv env hl hls hs p k s sl.logical h
  refine ⟨?_, h1.phys⟩
  simp only [setBorder, Gap]
  rw [if_neg (fun e => hn e.symm)]
  exact h1.gap

omit hl hls hs [DecidableEq V] in
theorem flushImage_pinv (s : Handler V × Out V) (h : PInv p k s) : PInv p k (flushImage s) := by
  simp only [flushImage]
  split
  · refine ⟨h.gap, ?_, h.phys.ltr, h.phys.rtl⟩
    intro d hd
    rcases List.mem_append.mp hd with hd | hd
    · exact h.phys.main d hd
    · simp at hd; subst hd; exact physical_none _ rfl
  · exact h

theorem handle_pinv (s : Handler V × Out V) (d : Decl V) (hd : ¬ Sets d (.log p) k) (ha : ∀ id u, d = .raw id u → ¬ OfAxis d) (h : PInv p k s) : PInv p k (handle env s d) := by
  cases d with
  | long sl j v =>
    refine property_pinv env hl hls hs p k s sl j v ?_ h
    rintro ⟨rfl, rfl⟩; exact hd ⟨_, _, rfl, .long _ _⟩
  | side sl b =>
    refine setBorder_pinv env hl hls hs p k s sl b ?_ h
    rintro rfl; exact hd ⟨_, _, rfl, .side _ _⟩
  | rect j v =>
    have ph : ∀ q v' (s : Handler V × Out V), PInv p k s → PInv p k (property env s (.phys q) j v') :=
      fun q v' s h => property_pinv env hl hls hs p k s (.phys q) j v' (by rintro ⟨h, _⟩; cases h) h
    have := ph .is (v .is) _ (ph .be (v .be) _ (ph .ie (v .ie) _ (ph .bs (v .bs) s h)))
    simp only [handle]
    refine ⟨?_, this.phys⟩
    simp only [Gap]
    split
    · rfl
    · exact this.gap
  | border b => exact ⟨rfl, h.phys⟩
  | axisKey a j v w =>
    simp only [handle]
    have n1 : ¬ (Slot.log a.start = .log p ∧ j = k) := by
      rintro ⟨h1, rfl⟩; exact hd ⟨_, _, rfl, by rw [← h1]; cases a <;> constructor⟩
    have n2 : ¬ (Slot.log a.stop = .log p ∧ j = k) := by
      rintro ⟨h1, rfl⟩; exact hd ⟨_, _, rfl, by rw [← h1]; cases a <;> constructor⟩
    exact property_pinv env hl hls hs p k _ _ j w n2 (property_pinv env hl hls hs p k _ _ j v n1 h)
  | axis a b =>
    simp only [handle]
    have n1 : Slot.log a.start ≠ .log p := by
      intro h1; exact hd ⟨_, _, rfl, by rw [← h1]; cases a <;> constructor⟩
    have n2 : Slot.log a.stop ≠ .log p := by
      intro h1; exact hd ⟨_, _, rfl, by rw [← h1]; cases a <;> constructor⟩
    exact setBorder_pinv env hl hls hs p k _ _ b n2 (setBorder_pinv env hl hls hs p k _ _ b n1 h)
  | raw id u =>
    have h1 := flush_pinv env hl hls hs p k s h
    simp only [handle]
    refine ⟨h1.gap, ?_⟩
    have hp := h1.phys
    generalize (flush env s).2 = o at hp
    have put : ∀ id', Physical (Decl.raw id' u : Decl V) → AllPhys ({ o.mark id' with main := o.main ++ [.raw id' u] } : Out V) := by
      intro id' hi
      refine ⟨?_, hp.ltr, hp.rtl⟩
      intro d hd
      rcases List.mem_append.mp hd with hd | hd
      · exact hp.main d hd
      · simp at hd; subst hd; exact hi
    have pl : ∀ q j, Physical (Decl.raw (.long (.phys q) j) u : Decl V) := by
      rintro q j s i ⟨id, val, e, h⟩; cases e; cases h; exact ⟨_, rfl⟩
    have ps : ∀ q, Physical (Decl.raw (.side (.phys q)) u : Decl V) := by
      rintro q s i ⟨id, val, e, h⟩; cases e; cases h; exact ⟨_, rfl⟩
    simp only [rawOut, hl, Bool.false_eq_true, if_false]
    split
    · exact rule_phys _ _ _ hp (pl _ _) (pl _ _)
    · exact rule_phys _ _ _ hp (pl _ _) (pl _ _)
    · exact put _ (pl _ _)
    · exact rule_phys _ _ _ hp (ps _) (ps _)
    · exact rule_phys _ _ _ hp (ps _) (ps _)
    · exact put _ (ps _)
    · rename_i h1 h2 h3 h4 h5 h6
      apply put
      rintro s' j ⟨id', val, e, hlh⟩
      cases e
      have ha := ha _ _ rfl
      cases hlh with
      | long => cases s' with
        | phys q => exact ⟨_, rfl⟩
        | log q => exact absurd rfl (h3 q j)
      | side => cases s' with
        | phys q => exact ⟨_, rfl⟩
        | log q => exact absurd rfl (h6 q)
      | rect k q => exact ⟨_, rfl⟩
      | border q k => exact ⟨_, rfl⟩
      | blockStart k => exact absurd ⟨_, _, rfl, .inl ⟨_, _, rfl⟩⟩ ha
      | blockEnd k => exact absurd ⟨_, _, rfl, .inl ⟨_, _, rfl⟩⟩ ha
      | inlineStart k => exact absurd ⟨_, _, rfl, .inl ⟨_, _, rfl⟩⟩ ha
      | inlineEnd k => exact absurd ⟨_, _, rfl, .inl ⟨_, _, rfl⟩⟩ ha
      | blockStarts k => exact absurd ⟨_, _, rfl, .inr ⟨_, rfl⟩⟩ ha
      | blockEnds k => exact absurd ⟨_, _, rfl, .inr ⟨_, rfl⟩⟩ ha
      | inlineStarts k => exact absurd ⟨_, _, rfl, .inr ⟨_, rfl⟩⟩ ha
      | inlineEnds k => exact absurd ⟨_, _, rfl, .inr ⟨_, rfl⟩⟩ ha
  | image u =>
    simp only [handle]
    split
    · split
      · have := flushImage_pinv p k s h; exact ⟨this.gap, this.phys⟩
      · exact ⟨h.gap, h.phys⟩
    · exact ⟨h.gap, h.phys⟩
  | imageRaw u =>
    have := flushImage_pinv p k _ (flush_pinv env hl hls hs p k s h)
    simp only [handle]
    refine ⟨this.gap, ?_, this.phys.ltr, this.phys.rtl⟩
    intro d hd
    rcases List.mem_append.mp hd with hd | hd
    · exact this.phys.main d hd
    · simp at hd; subst hd; exact physical_none _ rfl

theorem foldl_pinv (ds : List (Decl V)) (hd : ∀ d ∈ ds, ¬ Sets d (.log p) k) (ha : ∀ d ∈ ds, ∀ id u, d = .raw id u → ¬ OfAxis d) :
    ∀ s, PInv p k s → PInv p k (ds.foldl (handle env) s) := by
  induction ds with
  | nil => intro s h; exact h
  | cons d ds ih =>
    intro s h
    exact ih (fun x hx => hd x (List.mem_cons_of_mem _ hx)) (fun x hx => ha x (List.mem_cons_of_mem _ hx)) _ (handle_pinv env hl hls hs p k s d (hd d (List.mem_cons_self ..)) (ha d (List.mem_cons_self ..)) h)

end
end Verif.Border
