import Verif.Handler.Spec
/-! `side_handler!` keeps the meaning of the declarations. -/
namespace Verif.Handler
variable {V M : Type}

theorem last_append {D R : Type} (f : D → Option R) (a b : List D) : last f (a ++ b) = (last f b).or (last f a) := by
  simp [last, List.findSome?_append]

theorem last_nil {D R : Type} (f : D → Option R) : last f [] = none := rfl

theorem last_singleton {D R : Type} (f : D → Option R) (d : D) : last f [d] = f d := by
  simp [last]

theorem last_cons {D R : Type} (f : D → Option R) (d : D) (ds : List D) : last f (d :: ds) = (last f ds).or (f d) := by
  rw [show d :: ds = [d] ++ ds from rfl, last_append, last_singleton]

theorem last_toList {D R X : Type} (f : D → Option R) (o : Option X) (g : X → D) :
    last f (o.map g).toList = o.bind fun x => f (g x) := by
  cases o with
  | none => rfl
  | some x => simp [last_singleton]

theorem last_none {D R : Type} (f : D → Option R) (ds : List D) (h : ∀ d ∈ ds, f d = none) : last f ds = none := by
  simp only [last, List.findSome?_eq_none_iff, List.mem_reverse]
  exact h

/-- The meaning of a pending logical longhand. -/
def pendingVal (m : V → M) : Pending V → Val M
  | .parsed v => .val (m v)
  | .unparsed v => .var (m v)

/-- What is pending for a physical side: logical longhands come after physical ones. -/
def pend (m : V → M) (wm : WritingMode) (s : Side) (σ : BoxState V) : Option (Val M) :=
  ((σ.log (wm.symm s)).map (pendingVal m)).or ((σ.phys s).map fun v => .val (m v))

/-- Nothing is pending. -/
def BoxState.Clean (σ : BoxState V) : Prop := (∀ s, σ.phys s = none) ∧ ∀ l, σ.log l = none

/-- The invariant of the handler. -/
def BoxState.Inv (σ : BoxState V) : Prop :=
  (σ.hasAny = false → σ.Clean) ∧ (σ.category = .physical → ∀ l, σ.log l = none)

theorem wm_iff (wm : WritingMode) (l : LSide) (s : Side) : wm l = s ↔ l = wm.symm s := by
  constructor
  · rintro rfl; simp
  · rintro rfl; simp

theorem last_flushPhys (m : V → M) (wm : WritingMode) (c : BoxCfg V) (p : Side → Option V) (s : Side) :
    last (boxSets m wm s) (flushPhys c p) = (p s).map fun v => .val (m v) := by
  unfold flushPhys
  cases h1 : p .top <;> cases h2 : p .bottom <;> cases h3 : p .left <;> cases h4 : p .right <;>
    simp only [] <;> (try split) <;> cases s <;>
    simp [last_cons, last_nil, boxSets, h1, h2, h3, h4]

theorem last_logicalSide_block (m : V → M) (wm : WritingMode) (c : BoxCfg V) (log : LSide → Option (Pending V)) (s : Side) :
    last (boxSets m wm s) (logicalSide c .blockStart .blockEnd .block log) =
      if wm.symm s = .blockStart ∨ wm.symm s = .blockEnd then (log (wm.symm s)).map (pendingVal m) else none := by
  generalize hl : wm.symm s = l
  have e : ∀ x, wm x = s ↔ x = l := fun x => by rw [wm_iff, hl]
  unfold logicalSide
  rcases h1 : log .blockStart with _ | (a | a) <;> rcases h2 : log .blockEnd with _ | (b | b) <;>
    simp only [] <;> (try split) <;> cases l <;>
    simp_all [last_cons, last_nil, boxSets, pendingVal, pendingDecl]

theorem last_logicalSide_inline (m : V → M) (wm : WritingMode) (c : BoxCfg V) (log : LSide → Option (Pending V)) (s : Side) :
    last (boxSets m wm s) (logicalSide c .inlineStart .inlineEnd .inline log) =
      if wm.symm s = .inlineStart ∨ wm.symm s = .inlineEnd then (log (wm.symm s)).map (pendingVal m) else none := by
  generalize hl : wm.symm s = l
  have e : ∀ x, wm x = s ↔ x = l := fun x => by rw [wm_iff, hl]
  unfold logicalSide
  rcases h1 : log .inlineStart with _ | (a | a) <;> rcases h2 : log .inlineEnd with _ | (b | b) <;>
    simp only [] <;> (try split) <;> cases l <;>
    simp_all [last_cons, last_nil, boxSets, pendingVal, pendingDecl]

variable [DecidableEq V]

theorem flush_spec (m : V → M) (wm : WritingMode) (c : BoxCfg V) (hc : c.logicalSupported = true) (σ : BoxState V) (h : σ.Inv) :
    (σ.flush c).1.Clean ∧ (σ.flush c).1.hasAny = false ∧ (σ.flush c).1.category = σ.category ∧ (σ.flush c).2.2 = [] ∧
      ∀ s, last (boxSets m wm s) (σ.flush c).2.1 = pend m wm s σ := by
  unfold BoxState.flush
  cases ha : σ.hasAny with
  | false =>
    obtain ⟨h1, h2⟩ := h.1 ha
    simp only [Bool.not_false, if_true]
    exact ⟨⟨h1, h2⟩, ha, by trivial, by trivial, fun s => by simp [pend, h1, h2, last_nil]⟩
  | true =>
    simp only [Bool.not_true, Bool.false_eq_true, if_false, hc, if_true]
    refine ⟨⟨fun _ => rfl, fun _ => rfl⟩, by trivial, by trivial, by trivial, fun s => ?_⟩
    rw [last_append, last_append, last_flushPhys, last_logicalSide_block, last_logicalSide_inline]
    unfold pend
    cases wm.symm s <;> simp

/-- The value of a side so far: pending or emitted. -/
def view (m : V → M) (wm : WritingMode) (s : Side) (o : BoxOut V) : Option (Val M) :=
  (pend m wm s o.1).or (last (boxSets m wm s) o.2.1)

/-- The invariant of a state with its output: nothing is added to the context. -/
def BoxOut.Inv (o : BoxOut V) : Prop := BoxState.Inv o.1 ∧ o.2.2 = []

omit [DecidableEq V] in
theorem clean_inv (σ : BoxState V) (h : σ.Clean) : σ.Inv := ⟨fun _ => h, fun _ => h.2⟩

omit [DecidableEq V] in
theorem clean_pend (m : V → M) (wm : WritingMode) (s : Side) (σ : BoxState V) (h : σ.Clean) : pend m wm s σ = none := by
  simp [pend, h.1, h.2]

theorem out_flush (m : V → M) (wm : WritingMode) (c : BoxCfg V) (hc : c.logicalSupported = true) (o : BoxOut V) (h : o.Inv) :
    (o.flush c).Inv ∧ (o.flush c).1.Clean ∧ (o.flush c).1.category = o.1.category ∧ ∀ s, view m wm s (o.flush c) = view m wm s o := by
  obtain ⟨h1, h2, h3, h4, h5⟩ := flush_spec m wm c hc o.1 h.1
  refine ⟨⟨clean_inv _ h1, ?_⟩, h1, h3, fun s => ?_⟩
  · simp [BoxOut.flush, h4, h.2]
  · unfold view
    rw [show (o.flush c).1 = (o.1.flush c).1 from rfl, clean_pend m wm s _ h1]
    rw [show (o.flush c).2.1 = o.2.1 ++ (o.1.flush c).2.1 from rfl, last_append, h5]
    simp

theorem out_flushIf (m : V → M) (wm : WritingMode) (c : BoxCfg V) (hc : c.logicalSupported = true) (p : BoxState V → Bool) (v : V)
    (cat : Category) (o : BoxOut V) (h : o.Inv) :
    (o.flushIf c p v cat).Inv ∧ ((o.flushIf c p v cat).1.category = cat ∨ (o.flushIf c p v cat).1.Clean) ∧
      (o.1.Clean → (o.flushIf c p v cat).1.Clean) ∧ (o.flushIf c p v cat).1.category = o.1.category ∧
      ∀ s, view m wm s (o.flushIf c p v cat) = view m wm s o := by
  unfold BoxOut.flushIf
  split
  · obtain ⟨h1, h2, h3, h4⟩ := out_flush m wm c hc o h
    exact ⟨h1, .inr h2, fun _ => h2, h3, h4⟩
  · next hn =>
    refine ⟨h, .inl ?_, fun h => h, rfl, fun _ => rfl⟩
    by_contra hne
    exact hn (.inl fun he => hne he.symm)

omit [DecidableEq V] in
theorem out_setPhys (m : V → M) (wm : WritingMode) (t : Side) (v : V) (o : BoxOut V) (h : o.Inv)
    (hc : o.1.category = .physical ∨ o.1.Clean) :
    (o.setPhys t v).Inv ∧ ∀ s, view m wm s (o.setPhys t v) = (boxSets m wm s (.phys t v)).or (view m wm s o) := by
  have hl : ∀ l, o.1.log l = none := hc.elim h.1.2 (·.2)
  refine ⟨⟨⟨by simp [BoxOut.setPhys], fun _ => hl⟩, h.2⟩, fun s => ?_⟩
  simp only [view, pend, BoxOut.setPhys, hl, boxSets]
  by_cases hs : t = s
  · simp [hs]
  · simp [hs, Ne.symm hs]

theorem out_logical (m : V → M) (wm : WritingMode) (c : BoxCfg V) (hc : c.logicalSupported = true) (l : LSide) (p : Pending V)
    (o : BoxOut V) (h : o.Inv) :
    (o.logicalProperty c l p).Inv ∧ (o.logicalProperty c l p).1.category = .logical ∧
      ∀ s, view m wm s (o.logicalProperty c l p) = (if wm l = s then some (pendingVal m p) else none).or (view m wm s o) := by
  have main : ∀ o' : BoxOut V, o'.Inv → (∀ s, view m wm s o' = view m wm s o) →
      BoxOut.Inv (({ o'.1 with log := fun x => if x = l then some p else o'.1.log x, category := .logical, hasAny := true }, o'.2) : BoxOut V) ∧
      ∀ s, view m wm s (({ o'.1 with log := fun x => if x = l then some p else o'.1.log x, category := .logical, hasAny := true }, o'.2) : BoxOut V) =
        (if wm l = s then some (pendingVal m p) else none).or (view m wm s o) := by
    intro o' h' hv
    refine ⟨⟨⟨by simp, by simp⟩, h'.2⟩, fun s => ?_⟩
    rw [← hv s]
    simp only [view, pend]
    by_cases hs : wm l = s
    · rw [if_pos hs, if_pos ((wm_iff wm l s).1 hs).symm]
      simp
    · rw [if_neg hs, if_neg (fun he => hs ((wm_iff wm l s).2 he.symm))]
      simp
  unfold BoxOut.logicalProperty
  simp only []
  split
  · obtain ⟨h1, h2, h3, h4⟩ := out_flush m wm c hc o h
    obtain ⟨a, b⟩ := main _ h1 h4
    exact ⟨a, by trivial, b⟩
  · obtain ⟨a, b⟩ := main o h (fun _ => rfl)
    exact ⟨a, by trivial, b⟩

/-- Handling a declaration: the view becomes what the declaration sets, or stays. -/
theorem handle_spec (m : V → M) (wm : WritingMode) (c : BoxCfg V) (hc : c.logicalSupported = true) (d : BoxDecl V) (σ : BoxState V)
    (h : σ.Inv) :
    (σ.handle c d).Inv ∧ ∀ s, view m wm s (σ.handle c d) = (boxSets m wm s d).or (pend m wm s σ) := by
  have h0 : BoxOut.Inv ((σ, [], []) : BoxOut V) := ⟨h, rfl⟩
  have hv0 : ∀ s, view m wm s ((σ, [], []) : BoxOut V) = pend m wm s σ := fun s => by simp [view, last_nil]
  cases d with
  | phys t v =>
    obtain ⟨a1, a2, _, _, a5⟩ := out_flushIf m wm c hc (fun σ => (σ.phys t).isSome) v .physical _ h0
    obtain ⟨b1, b2⟩ := out_setPhys m wm t v _ a1 a2
    exact ⟨b1, fun s => by rw [← hv0 s, ← a5 s]; exact b2 s⟩
  | log l v =>
    obtain ⟨a1, _, _, _, a5⟩ := out_flushIf m wm c hc (fun σ => (σ.log l).isSome) v .logical _ h0
    obtain ⟨b1, _, b2⟩ := out_logical m wm c hc l (.parsed v) _ a1
    exact ⟨b1, fun s => by rw [← hv0 s, ← a5 s]; exact b2 s⟩
  | block a b =>
    obtain ⟨a1, _, _, _, a5⟩ := out_flushIf m wm c hc (fun σ => (σ.log .blockStart).isSome) a .logical _ h0
    obtain ⟨b1, _, _, _, b5⟩ := out_flushIf m wm c hc (fun σ => (σ.log .blockEnd).isSome) b .logical _ a1
    obtain ⟨c1, _, c2⟩ := out_logical m wm c hc .blockStart (.parsed a) _ b1
    obtain ⟨d1, _, d2⟩ := out_logical m wm c hc .blockEnd (.parsed b) _ c1
    refine ⟨d1, fun s => ?_⟩
    rw [← hv0 s, ← a5 s, ← b5 s]
    refine (d2 s).trans ?_
    rw [c2 s]
    simp only [boxSets, pendingVal, wm_iff]
    cases wm.symm s <;> simp
  | inline a b =>
    obtain ⟨a1, _, _, _, a5⟩ := out_flushIf m wm c hc (fun σ => (σ.log .inlineStart).isSome) a .logical _ h0
    obtain ⟨b1, _, _, _, b5⟩ := out_flushIf m wm c hc (fun σ => (σ.log .inlineEnd).isSome) b .logical _ a1
    obtain ⟨c1, _, c2⟩ := out_logical m wm c hc .inlineStart (.parsed a) _ b1
    obtain ⟨d1, _, d2⟩ := out_logical m wm c hc .inlineEnd (.parsed b) _ c1
    refine ⟨d1, fun s => ?_⟩
    rw [← hv0 s, ← a5 s, ← b5 s]
    refine (d2 s).trans ?_
    rw [c2 s]
    simp only [boxSets, pendingVal, wm_iff]
    cases wm.symm s <;> simp
  | rect t r b l =>
    obtain ⟨a1, a2, a3, a4, a5⟩ := out_flushIf m wm c hc (fun σ => (σ.phys .top).isSome) t c.shorthandCategory _ h0
    obtain ⟨b1, b2, b3, b4, b5⟩ := out_flushIf m wm c hc (fun σ => (σ.phys .right).isSome) r c.shorthandCategory _ a1
    obtain ⟨c1, c2, c3, c4, c5⟩ := out_flushIf m wm c hc (fun σ => (σ.phys .bottom).isSome) b c.shorthandCategory _ b1
    obtain ⟨d1, d2, d3, d4, d5⟩ := out_flushIf m wm c hc (fun σ => (σ.phys .left).isSome) l c.shorthandCategory _ c1
    refine ⟨⟨⟨by simp [BoxState.handle], fun _ _ => rfl⟩, d1.2⟩, fun s => ?_⟩
    simp only [view, pend, BoxState.handle, boxSets]
    cases s <;> simp
  | unparsed id v =>
    have hother : ∀ (hid : ∀ l, id ≠ .log l), (σ.handle c (.unparsed id v)).Inv ∧
        ∀ s, view m wm s (σ.handle c (.unparsed id v)) = (boxSets m wm s (.unparsed id v)).or (pend m wm s σ) := by
      intro hid
      obtain ⟨a1, a2, _, a4⟩ := out_flush m wm c hc _ h0
      have he : σ.handle c (.unparsed id v) =
          ((BoxOut.flush c (σ, [], [])).1, (BoxOut.flush c (σ, [], [])).2.1 ++ [.unparsed id v], (BoxOut.flush c (σ, [], [])).2.2) := by
        cases id with
        | log l => exact absurd rfl (hid l)
        | _ => rfl
      rw [he]
      refine ⟨a1, fun s => ?_⟩
      rw [← hv0 s, ← a4 s]
      simp only [view, clean_pend m wm s _ a2, last_append, last_singleton]
      simp
    cases id with
    | log l =>
      obtain ⟨b1, _, b2⟩ := out_logical m wm c hc l (.unparsed v) _ h0
      exact ⟨b1, fun s => by rw [← hv0 s]; exact b2 s⟩
    | phys _ => exact hother (by simp)
    | rect => exact hother (by simp)
    | block => exact hother (by simp)
    | inline => exact hother (by simp)

end Verif.Handler
