import Verif.Handler.StateLemmas
/-! `finalize`. -/
namespace Verif.Handler
variable {V M C : Type} [DecidableEq V]

/-- What `finalize` needs of a state. -/
structure State.FInv (s : State V) : Prop where
  box : ∀ f, (s.box f).Inv
  short : ∀ f, (s.short f).Inv

/-- Families already written out. -/
inductive Part | dir | box (f : Fam) | short (f : ShFam) | overflow
deriving DecidableEq

/-- Nothing is pending in a part. -/
def Done (s : State V) : Part → Prop
  | .dir => s.direction = none ∧ s.bidi = none
  | .box f => (s.box f).Clean
  | .short f => (∀ i, (s.short f).key i = none) ∧ ∀ i, (s.short f).flushed i = false
  | .overflow => s.overflow = ⟨none, none⟩

/-- A step of `finalize` that writes out a part. -/
def Writes (m : V → M) (wm : WritingMode) (p : Part) (r r' : State V × Ctx V C) : Prop :=
  r'.1.FInv ∧ Done r'.1 p ∧ (∀ q, Done r.1 q → Done r'.1 q) ∧ (∀ l, stateView m wm r'.1 l = stateView m wm r.1 l)

theorem fin_view (m : V → M) (wm : WritingMode) (s s' : State V) (em : List (Decl V)) (hd : s'.decls = s.decls ++ em) (l : Long)
    (h : (pending m wm s' l).or (last (sets m wm l) em) = pending m wm s l) :
    stateView m wm s' l = stateView m wm s l := by
  have := view_append m wm s s' em hd l none (by simpa using h)
  simpa using this

theorem finDir_spec (m : V → M) (wm : WritingMode) (r : State V × Ctx V C) (h : r.1.FInv) : Writes m wm .dir r (State.finDir r) := by
  refine ⟨⟨h.box, h.short⟩, ⟨rfl, rfl⟩, fun q hq => ?_, fun l => ?_⟩
  · cases q with
    | dir => exact ⟨rfl, rfl⟩
    | _ => exact hq
  · apply fin_view m wm r.1 _ ((r.1.direction.map .direction).toList ++ (r.1.bidi.map .unicodeBidi).toList)
    · simp [State.finDir]
    · rw [last_append, last_toList, last_toList]
      cases l <;> cases hd : r.1.direction <;> cases hb : r.1.bidi <;> simp [sets, pending, State.finDir, pv, hd, hb]

theorem finBox_spec (m : V → M) (wm : WritingMode) (c : Cfg V C) (hc : c.Keeps m) (f : Fam) (r : State V × Ctx V C) (h : r.1.FInv) :
    Writes m wm (.box f) r (State.finBox c f r) := by
  obtain ⟨h1, h2, h3, h4, h5⟩ := flush_spec m wm (c.box f) (hc.box f) (r.1.box f) (h.box f)
  refine ⟨⟨fun g => ?_, h.short⟩, ?_, fun q hq => ?_, fun l => ?_⟩
  · simp only [State.finBox]
    split
    · exact clean_inv _ h1
    · exact h.box g
  · simpa [Done, State.finBox] using h1
  · cases q with
    | box g =>
      simp only [Done, State.finBox]
      split
      · exact h1
      · exact hq
    | _ => exact hq
  · apply fin_view m wm r.1 _ _ rfl
    rw [last_box]
    cases l with
    | box g sd =>
      by_cases hg : g = f
      · subst hg
        simp [State.finBox, pending, clean_pend m wm sd _ h1, h5]
      · simp [State.finBox, pending, hg]
    | _ => simp [State.finBox, pending]

theorem finShort_spec (m : V → M) (wm : WritingMode) (c : Cfg V C) (hc : c.Keeps m) (f : ShFam) (r : State V × Ctx V C) (h : r.1.FInv) :
    Writes m wm (.short f) r (State.finShort c f r) := by
  obtain ⟨h1, h2, h3⟩ := sh_finalize m (c.short f) (hc.short f) (r.1.short f) (h.short f)
  refine ⟨⟨h.box, fun g => ?_⟩, ?_, fun q hq => ?_, fun l => ?_⟩
  · simp only [State.finShort]
    by_cases hg : f = g
    · subst hg; simp only [dif_pos]; exact fun _ => h1
    · rw [dif_neg hg]; exact h.short g
  · simp only [Done, State.finShort, dif_pos]; exact ⟨h1, h2⟩
  · cases q with
    | short g =>
      simp only [Done, State.finShort]
      by_cases hg : f = g
      · subst hg; simp only [dif_pos]; exact ⟨h1, h2⟩
      · simp only [dif_neg hg]; exact hq
    | _ => exact hq
  · apply fin_view m wm r.1 _ _ rfl
    rw [last_sh]
    cases l with
    | short g i =>
      by_cases hg : f = g
      · subst hg
        simp [State.finShort, pending, h1, h3, pv]
      · simp [State.finShort, pending, hg]
    | _ => simp [State.finShort, pending]

theorem finOverflow_spec (m : V → M) (wm : WritingMode) (c : Cfg V C) (r : State V × Ctx V C) (h : r.1.FInv) :
    Writes m wm .overflow r (State.finOverflow c r) := by
  obtain ⟨h1, h2, h3⟩ := ov_finalize m c.overflowTwo r.1.overflow
  refine ⟨⟨h.box, h.short⟩, h1, fun q hq => ?_, fun l => ?_⟩
  · cases q with
    | overflow => exact h1
    | _ => exact hq
  · apply fin_view m wm r.1 _ _ rfl
    rw [last_ov]
    cases l <;> simp [State.finOverflow, pending, h1, h2, h3, pv]

/-- A handler ready for the next block: nothing pending, nothing written. -/
structure State.Ready (s : State V) : Prop where
  done : ∀ p, Done s p
  customs : s.customs = []
  decls : s.decls = []

omit [DecidableEq V] in
theorem done_pending (m : V → M) (wm : WritingMode) (s : State V) (h : ∀ p, Done s p) (l : Long) : pending m wm s l = none := by
  cases l with
  | box f sd => exact clean_pend m wm sd _ (h (.box f))
  | overflowX => have := h .overflow; simp only [Done] at this; simp [pending, this, pv]
  | overflowY => have := h .overflow; simp only [Done] at this; simp [pending, this, pv]
  | short f i => simp [pending, (h (.short f)).1, pv]
  | direction => simp [pending, (h .dir).1, pv]
  | bidi => simp [pending, (h .dir).2, pv]
  | _ => rfl

omit [DecidableEq V] in
theorem ready_inv (s : State V) (h : s.Ready) : s.Inv where
  box f := clean_inv _ (h.done (.box f))
  short f := fun _ => (h.done (.short f)).1
  custom := by rw [h.customs, h.decls]; exact ⟨by simp, by simp, by simp⟩
  dir := by rw [h.decls]; simp

omit [DecidableEq V] in
theorem ready_view (m : V → M) (wm : WritingMode) (s : State V) (h : s.Ready) (l : Long) : stateView m wm s l = none := by
  simp [stateView, done_pending m wm s h.done, h.decls, last_nil]

theorem finalize_spec (m : V → M) (wm : WritingMode) (c : Cfg V C) (hc : c.Keeps m) (r : State V × Ctx V C) (h : r.1.FInv) :
    (∀ p, Done (State.finalize c r).1 p) ∧ (State.finalize c r).1.customs = [] ∧
      ∀ l, last (sets m wm l) (State.finalize c r).1.decls = stateView m wm r.1 l := by
  obtain ⟨a1, b1, c1, d1⟩ := finDir_spec m wm r h
  obtain ⟨a2, b2, c2, d2⟩ := finShort_spec m wm c hc .outline _ a1
  obtain ⟨a3, b3, c3, d3⟩ := finBox_spec m wm c hc .margin _ a2
  obtain ⟨a4, b4, c4, d4⟩ := finBox_spec m wm c hc .padding _ a3
  obtain ⟨a5, b5, c5, d5⟩ := finBox_spec m wm c hc .scrollMargin _ a4
  obtain ⟨a6, b6, c6, d6⟩ := finBox_spec m wm c hc .scrollPadding _ a5
  obtain ⟨a7, b7, c7, d7⟩ := finShort_spec m wm c hc .listStyle _ a6
  obtain ⟨a8, b8, c8, d8⟩ := finBox_spec m wm c hc .inset _ a7
  obtain ⟨a9, b9, c9, d9⟩ := finOverflow_spec m wm c _ a8
  obtain ⟨a10, b10, c10, d10⟩ := finShort_spec m wm c hc .container _ a9
  have hdone : ∀ p, Done (State.finalize c r).1 p := by
    intro p
    have : Done (State.finShort c .container (State.finOverflow c (State.finBox c .inset (State.finShort c .listStyle
      (State.finBox c .scrollPadding (State.finBox c .scrollMargin (State.finBox c .padding (State.finBox c .margin
        (State.finShort c .outline (State.finDir r)))))))))).1 p := by
      cases p with
      | dir => exact c10 _ (c9 _ (c8 _ (c7 _ (c6 _ (c5 _ (c4 _ (c3 _ (c2 _ b1))))))))
      | overflow => exact c10 _ b9
      | short f =>
        cases f with
        | outline => exact c10 _ (c9 _ (c8 _ (c7 _ (c6 _ (c5 _ (c4 _ (c3 _ b2)))))))
        | listStyle => exact c10 _ (c9 _ (c8 _ b7))
        | container => exact b10
      | box f =>
        cases f with
        | margin => exact c10 _ (c9 _ (c8 _ (c7 _ (c6 _ (c5 _ (c4 _ b3))))))
        | padding => exact c10 _ (c9 _ (c8 _ (c7 _ (c6 _ (c5 _ b4)))))
        | scrollMargin => exact c10 _ (c9 _ (c8 _ (c7 _ (c6 _ b5))))
        | scrollPadding => exact c10 _ (c9 _ (c8 _ (c7 _ b6)))
        | inset => exact c10 _ (c9 _ b8)
    cases p <;> exact this
  refine ⟨hdone, rfl, fun l => ?_⟩
  rw [← d1 l, ← d2 l, ← d3 l, ← d4 l, ← d5 l, ← d6 l, ← d7 l, ← d8 l, ← d9 l, ← d10 l]
  have hv : stateView m wm (State.finalize c r).1 l = last (sets m wm l) (State.finalize c r).1.decls := by
    simp [stateView, done_pending m wm _ hdone]
  rw [← hv]
  unfold stateView
  congr 1

omit [DecidableEq V] in
theorem inv_finv (s : State V) (h : s.Inv) : s.FInv := ⟨h.box, h.short⟩

end Verif.Handler
