import Verif.Border.Lemmas
/-! # Lemmas about the border handler -/
namespace Verif.Border
open Spec (SameProperty Mode Value Longhand parts Agent Computed apply computed)

section
variable {V : Type}

theorem set_set (m : Mode) (c : Pos → Key → Value V) (d e : Decl V) {id : PId} {v w : Slot → Key → Value V} (hd : parts d = some (id, v)) (he : parts e = some (id, w)) :
    Spec.set m (Spec.set m c e) d = Spec.set m c d := by
  funext p k
  simp only [Spec.set, hd, he]
  by_cases h1 : Longhand id (.phys p) k
  · rw [if_pos h1, if_pos h1]
  · rw [if_neg h1]
    by_cases h2 : Longhand id (.log (m.inv p)) k
    · rw [if_pos h2, if_neg h1, if_pos h2]
    · rw [if_neg h2, if_neg h1, if_neg h2, if_neg h1, if_neg h2]

theorem sets_fb (env : Env V) (hs : SameProperty env) (m : Mode) (d : Decl V) (l : List (Decl V)) (hl : ∀ e ∈ l, e ∈ env.fb d) :
    ∀ c : Pos → Key → Value V, sets m c (l ++ [d]) = Spec.set m c d := by
  induction l with
  | nil => intro c; rfl
  | cons e l ih =>
    intro c
    obtain ⟨id, v, w, hd, he⟩ := hs d e (hl e (List.mem_cons_self ..))
    rw [List.cons_append, sets_cons, ih (fun x hx => hl x (List.mem_cons_of_mem _ hx)), set_set m c d e hd he]

variable [DecidableEq V]

omit [DecidableEq V] in
theorem push_sets (env : Env V) (hs : SameProperty env) (m : Mode) (o : Out V) (d : Decl V) (c : Pos → Key → Value V) :
    sets m c (o.push env d).main = Spec.set m (sets m c o.main) d := by
  simp only [Out.push]
  split
  · simp only
    rw [sets_append]
    apply sets_fb env hs
    intro e he
    split at he
    · exact he
    · cases he
  · rw [sets_append]; rfl

omit [DecidableEq V] in
theorem push_rules (env : Env V) (o : Out V) (d : Decl V) : (o.push env d).ltr = o.ltr ∧ (o.push env d).rtl = o.rtl := by
  simp only [Out.push]
  split <;> exact ⟨rfl, rfl⟩

omit [DecidableEq V] in
theorem prop_logical (env : Env V) (hl : env.logical = true) (o : Out V) (d : Decl V) : o.prop env d = o.push env d := by
  simp only [Out.prop, hl, if_true]

omit [DecidableEq V] in
theorem props_logical (env : Env V) (hl : env.logical = true) (hs : SameProperty env) (m : Mode) (c : Pos → Key → Value V) (ds : List (Decl V)) :
    ∀ o : Out V, sets m c (ds.foldl (Out.prop env) o).main = sets m (sets m c o.main) ds := by
  induction ds with
  | nil => intro o; rfl
  | cons d ds ih =>
    intro o
    rw [List.foldl_cons, ih, prop_logical env hl, push_sets env hs, sets_cons]

/-- What the held values make of the computed ones. -/
def overs (m : Mode) (h : Handler V) (c : Pos → Key → Value V) : Pos → Key → Value V :=
  over m true (fun p => h.f (.log p)) (over m false (fun p => h.f (.phys p)) c)

/-- The invariant of the handler. -/
structure Inv (h : Handler V) : Prop where
  cat : h.category = false → ∀ p k, h.f (.log p) k = none
  any : h.any = false → ∀ s k, h.f s k = none

theorem sets_calls (env : Env V) (m : Mode) (hf : Fits env m true) (h : Handler V) (c : Pos → Key → Value V) : sets m c (calls env h) = overs m h c := by
  simp only [calls]
  rw [sets_append, sets_category env m false (.inl rfl), sets_category env m true hf]; rfl

/-- A correct way to flush: the handler's values are written to a place that is read by `view`. -/
structure Flushes (env : Env V) (m : Mode) (view : Out V → List (Decl V)) (s : Handler V × Out V) (c : Pos → Key → Value V) : Prop where
  eq : sets m c (view (flush env s).2) = overs m s.1 (sets m c (view s.2))

omit [DecidableEq V] in
theorem overs_none (m : Mode) (h : Handler V) (hn : ∀ s k, h.f s k = none) (c : Pos → Key → Value V) : overs m h c = c := by
  funext p k; simp only [overs, over, hn]

theorem flush_held (env : Env V) (s : Handler V × Out V) (hi : Inv s.1) : ∀ t k, (flush env s).1.f t k = none := by
  intro t k
  simp only [flush]
  cases ha : s.1.any with
  | true => rfl
  | false => exact hi.any ha t k

theorem flush_inv (env : Env V) (s : Handler V × Out V) (hi : Inv s.1) : Inv (flush env s).1 :=
  ⟨fun _ _ _ => flush_held env s hi _ _, fun _ _ _ => flush_held env s hi _ _⟩

theorem flush_cat (env : Env V) (s : Handler V × Out V) : (flush env s).1.category = s.1.category := by
  simp only [flush]; split <;> rfl

theorem flush_image (env : Env V) (s : Handler V × Out V) : (flush env s).1.image = s.1.image := by
  simp only [flush]; split <;> rfl

/-- `flush` when logical properties are supported. -/
theorem flush_logical (env : Env V) (hl : env.logical = true) (hs : SameProperty env) (m : Mode) (hf : Fits env m true) (s : Handler V × Out V) (hi : Inv s.1) (c : Pos → Key → Value V) :
    sets m c (flush env s).2.main = overs m s.1 (sets m c s.2.main) := by
  simp only [flush]
  cases ha : s.1.any with
  | true => simp only [if_true]; rw [props_logical env hl hs, sets_calls env m hf]
  | false => simp only [Bool.false_eq_true, if_false]; rw [overs_none m s.1 (hi.any ha)]

/-- The state of the simulation: the held values over what is written. -/
def state (m : Mode) (c : Pos → Key → Value V) (s : Handler V × Out V) : Pos → Key → Value V := overs m s.1 (sets m c s.2.main)

theorem state_flushed (env : Env V) (m : Mode) (c : Pos → Key → Value V) (s : Handler V × Out V) (hi : Inv s.1)
    (hfl : sets m c (flush env s).2.main = overs m s.1 (sets m c s.2.main)) : state m c (flush env s) = state m c s := by
  simp only [state]; rw [overs_none m _ (flush_held env s hi), hfl]

theorem enter_inv (env : Env V) (s : Handler V × Out V) (log : Bool) (hi : Inv s.1) : Inv (enter env s log).1 := by
  simp only [enter]; split
  · exact flush_inv env s hi
  · exact hi

theorem enter_log (env : Env V) (s : Handler V × Out V) (hi : Inv s.1) : ∀ p k, (enter env s false).1.f (.log p) k = none := by
  intro p k
  simp only [enter]; split
  · exact flush_held env s hi _ _
  · rename_i h; exact hi.cat (by simpa using Eq.symm (Classical.not_not.mp h)) p k

/-- Whether `flush` is right for the state of the handler. -/
def GoodFlush (env : Env V) (m : Mode) (c : Pos → Key → Value V) (P : Handler V → Prop) : Prop :=
  ∀ s : Handler V × Out V, Inv s.1 → P s.1 → sets m c (flush env s).2.main = overs m s.1 (sets m c s.2.main)

omit [DecidableEq V] in
/-- A value is set. -/
theorem overs_long (m : Mode) (h : Handler V) (sl : Slot) (k : Key) (v : V) (cat any : Bool) (c : Pos → Key → Value V)
    (hl : sl.logical = false → ∀ p k, h.f (.log p) k = none) :
    overs m { h with f := fun t j => if t = sl ∧ j = k then some v else h.f t j, category := cat, any := any } c = Spec.set m (overs m h c) (.long sl k v) := by
  funext p j
  cases sl with
  | phys q =>
    have hl := hl rfl
    rw [set_phys]
    simp only [overs, over]
    rw [if_neg (by rintro ⟨h, _⟩; cases h), hl]
    by_cases hq : p = q ∧ j = k
    · obtain ⟨rfl, rfl⟩ := hq; simp [sig]
    · rw [if_neg hq, if_neg (by rintro ⟨h1, h2⟩; injection h1 with h1; exact hq ⟨h1, h2⟩)]
  | log q =>
    have := set_long m (overs m h c) true q k v p j
    simp only [slotOf, if_true] at this
    rw [this]
    by_cases hq : sig m true p = q ∧ j = k
    · rw [if_pos hq]; simp only [overs, over]; rw [if_pos ⟨by rw [hq.1], hq.2⟩]
    · rw [if_neg hq]
      simp only [overs, over]
      rw [if_neg (by rintro ⟨h1, h2⟩; injection h1 with h1; exact hq ⟨h1, h2⟩), if_neg (by rintro ⟨h, _⟩; cases h)]

omit [DecidableEq V] in
theorem overs_side (m : Mode) (h : Handler V) (sl : Slot) (b : Key → V) (cat any : Bool) (c : Pos → Key → Value V)
    (hl : sl.logical = false → ∀ p k, h.f (.log p) k = none) :
    overs m { h with f := fun t j => if t = sl then some (b j) else h.f t j, category := cat, any := any } c = Spec.set m (overs m h c) (.side sl b) := by
  funext p j
  cases sl with
  | phys q =>
    have hl := hl rfl
    have := set_side m (overs m h c) false q b p j
    simp only [slotOf, Bool.false_eq_true, if_false] at this
    rw [this]
    simp only [overs, over]
    rw [if_neg (by intro h; cases h), hl]
    by_cases hq : p = q
    · obtain rfl := hq; simp [sig]
    · have hq' : ¬ sig m false p = q := hq
      rw [if_neg hq', if_neg (by intro h1; injection h1 with h1; exact hq h1)]
  | log q =>
    have := set_side m (overs m h c) true q b p j
    simp only [slotOf, if_true] at this
    rw [this]
    by_cases hq : sig m true p = q
    · rw [if_pos hq]; simp only [overs, over]; rw [if_pos (by rw [hq])]
    · rw [if_neg hq]
      simp only [overs, over]
      rw [if_neg (by intro h1; injection h1 with h1; exact hq h1), if_neg (by intro h; cases h)]

/-- The predicates `P` on the handler that we carry along. -/
structure Closed (env : Env V) (P : Handler V → Prop) : Prop where
  flush : ∀ s : Handler V × Out V, P s.1 → P (flush env s).1

theorem enter_state (env : Env V) (m : Mode) (c : Pos → Key → Value V) {P : Handler V → Prop} (hg : GoodFlush env m c P) (s : Handler V × Out V) (log : Bool) (hi : Inv s.1) (hp : P s.1) :
    state m c (enter env s log) = state m c s := by
  simp only [enter]; split
  · exact state_flushed env m c s hi (hg s hi hp)
  · rfl

theorem property_state (env : Env V) (m : Mode) (c : Pos → Key → Value V) {P : Handler V → Prop} (hg : GoodFlush env m c P) (hc : Closed env P)
    (s : Handler V × Out V) (sl : Slot) (k : Key) (v : V) (hi : Inv s.1) (hp : P s.1) :
    state m c (property env s sl k v) = Spec.set m (state m c s) (.long sl k v) := by
  rw [← enter_state env m c hg s sl.logical hi hp]
  simp only [property, conflict]
  have hi' := enter_inv env s sl.logical hi
  have hp' : P (enter env s sl.logical).1 := by simp only [enter]; split; exact hc.flush s hp; exact hp
  have hl' : sl.logical = false → ∀ p k, (enter env s sl.logical).1.f (.log p) k = none := by intro h; rw [h]; exact enter_log env s hi
  generalize enter env s sl.logical = t at hi' hp' hl'
  have fin : ∀ u : Handler V × Out V, (sl.logical = false → ∀ p k, u.1.f (.log p) k = none) → state m c u = state m c t →
      state m c ({ u.1 with f := fun t j => if t = sl ∧ j = k then some v else u.1.f t j, category := sl.logical, any := true }, u.2) = Spec.set m (state m c t) (.long sl k v) := by
    intro u hu e
    simp only [state]
    rw [overs_long m u.1 sl k v _ _ _ hu]
    simp only [state] at e
    rw [e]
  apply fin
  · intro h
    split
    · split
      · exact fun p k => flush_held env t hi' _ _
      · exact hl' h
    · exact hl' h
  · split
    · split
      · exact state_flushed env m c t hi' (hg t hi' hp')
      · rfl
    · rfl

theorem property_inv (env : Env V) (s : Handler V × Out V) (sl : Slot) (k : Key) (v : V) (hi : Inv s.1) : Inv (property env s sl k v).1 := by
  simp only [property, conflict]
  have hi' := enter_inv env s sl.logical hi
  have hl' : sl.logical = false → ∀ p k, (enter env s sl.logical).1.f (.log p) k = none := by intro h; rw [h]; exact enter_log env s hi
  generalize enter env s sl.logical = t at hi' hl'
  refine ⟨?_, by intro h; cases h⟩
  intro hcat p j
  simp only at hcat ⊢
  rw [if_neg (by rintro ⟨h1, _⟩; rw [← h1] at hcat; cases hcat)]
  split
  · split
    · exact flush_held env t hi' _ _
    · exact hl' hcat p j
  · exact hl' hcat p j

theorem setBorder_state (env : Env V) (m : Mode) (c : Pos → Key → Value V) {P : Handler V → Prop} (hg : GoodFlush env m c P)
    (s : Handler V × Out V) (sl : Slot) (b : Key → V) (hi : Inv s.1) (hp : P s.1) :
    state m c (setBorder env s sl b) = Spec.set m (state m c s) (.side sl b) := by
  rw [← enter_state env m c hg s sl.logical hi hp]
  simp only [setBorder, state]
  rw [overs_side]
  intro h; rw [h]; exact enter_log env s hi

theorem setBorder_inv (env : Env V) (s : Handler V × Out V) (sl : Slot) (b : Key → V) (hi : Inv s.1) : Inv (setBorder env s sl b).1 := by
  simp only [setBorder]
  have hl' : sl.logical = false → ∀ p k, (enter env s sl.logical).1.f (.log p) k = none := by intro h; rw [h]; exact enter_log env s hi
  refine ⟨?_, by intro h; cases h⟩
  intro hcat p j
  simp only at hcat ⊢
  rw [if_neg (by intro h1; rw [← h1] at hcat; cases hcat)]
  exact hl' hcat p j

omit [DecidableEq V] in
theorem set_rect4 (m : Mode) (c : Pos → Key → Value V) (k : Key) (v : Pos → V) :
    Spec.set m c (.rect k v) = Spec.set m (Spec.set m (Spec.set m (Spec.set m c (.long (.phys .bs) k (v .bs))) (.long (.phys .ie) k (v .ie))) (.long (.phys .be) k (v .be))) (.long (.phys .is) k (v .is)) := by
  funext p j
  rw [set_rect]
  simp only [set_phys]
  by_cases hj : j = k
  · subst hj; cases p <;> simp
  · simp [hj]

omit [DecidableEq V] in
theorem set_axisKey2 (m : Mode) (c : Pos → Key → Value V) (a : Axis) (k : Key) (v w : V) :
    Spec.set m c (.axisKey a k v w) = Spec.set m (Spec.set m c (.long (.log a.start) k v)) (.long (.log a.stop) k w) := by
  funext p j
  have := fun (c : Pos → Key → Value V) q v => set_long m c true q k v p j
  simp only [slotOf, if_true, sig] at this
  rw [set_axisKey, this, this]
  generalize m.inv p = x
  cases a <;> cases x <;> simp [Axis.start, Axis.stop]

omit [DecidableEq V] in
theorem set_axis2 (m : Mode) (c : Pos → Key → Value V) (a : Axis) (b : Key → V) :
    Spec.set m c (.axis a b) = Spec.set m (Spec.set m c (.side (.log a.start) b)) (.side (.log a.stop) b) := by
  funext p j
  have := fun c q => set_side m c true q b p j
  simp only [slotOf, if_true, sig] at this
  rw [set_axis, this, this]
  generalize m.inv p = x
  cases a <;> cases x <;> simp [Axis.start, Axis.stop]

/-- Closedness of `P` under all steps of a declaration, in the places where the handler might flush. -/
theorem property_closed {env : Env V} {P : Handler V → Prop} (hc : Closed env P) (s : Handler V × Out V) (sl : Slot) (k : Key) (v : V)
    (hstep : ∀ h : Handler V, P h → P { h with f := fun t j => if t = sl ∧ j = k then some v else h.f t j, category := sl.logical, any := true }) (hp : P s.1) :
    P (property env s sl k v).1 := by
  simp only [property, conflict]
  have hp' : P (enter env s sl.logical).1 := by simp only [enter]; split; exact hc.flush s hp; exact hp
  generalize enter env s sl.logical = t at hp'
  split
  · split
    · exact hstep _ (hc.flush t hp')
    · exact hstep _ hp'
  · exact hstep _ hp'

theorem setBorder_closed {env : Env V} {P : Handler V → Prop} (hc : Closed env P) (s : Handler V × Out V) (sl : Slot) (b : Key → V)
    (hstep : ∀ h : Handler V, P h → P { h with f := fun t j => if t = sl then some (b j) else h.f t j, category := sl.logical, any := true }) (hp : P s.1) :
    P (setBorder env s sl b).1 := by
  simp only [setBorder]
  have hp' : P (enter env s sl.logical).1 := by simp only [enter]; split; exact hc.flush s hp; exact hp
  exact hstep _ hp'

/-- What an unparsed value writes, if logical properties are supported. -/
def RawGood (env : Env V) (m : Mode) (c : Pos → Key → Value V) (d : Decl V) : Prop :=
  ∀ id u, d = .raw id u → ∀ o : Out V, sets m c (rawOut env o id u).main = Spec.set m (sets m c o.main) (.raw id u)

theorem handle_inv (env : Env V) (s : Handler V × Out V) (d : Decl V) (hi : Inv s.1) : Inv (handle env s d).1 := by
  cases d with
  | long sl k v => exact property_inv env s sl k v hi
  | side sl b => exact setBorder_inv env s sl b hi
  | rect k v =>
    simp only [handle]
    have h1 := property_inv env _ (.phys .is) k (v .is) (property_inv env _ (.phys .be) k (v .be) (property_inv env _ (.phys .ie) k (v .ie) (property_inv env s (.phys .bs) k (v .bs) hi)))
    refine ⟨?_, by intro h; cases h⟩
    intro hcat p j
    simp only
    split
    · rfl
    · exact h1.cat hcat p j
  | border b => exact ⟨fun _ p k => rfl, by intro h; cases h⟩
  | axisKey a k v w => exact property_inv env _ _ _ _ (property_inv env _ _ _ _ hi)
  | axis a b => exact setBorder_inv env _ _ _ (setBorder_inv env _ _ _ hi)
  | raw id u => exact flush_inv env s hi
  | image u =>
    simp only [handle]
    split
    · split
      · simp only [flushImage]; split <;> exact ⟨hi.cat, hi.any⟩
      · exact ⟨hi.cat, hi.any⟩
    · exact ⟨hi.cat, hi.any⟩
  | imageRaw u =>
    simp only [handle, flushImage]
    have := flush_inv env s hi
    split <;> exact ⟨this.cat, this.any⟩

omit [DecidableEq V] in
theorem set_none (m : Mode) (c : Pos → Key → Value V) (d : Decl V) (h : parts d = none) : Spec.set m c d = c := by simp only [Spec.set, h]

omit [DecidableEq V] in
theorem flushImage_state (m : Mode) (c : Pos → Key → Value V) (s : Handler V × Out V) : state m c (flushImage s) = state m c s := by
  simp only [flushImage]
  split
  · simp only [state, sets_append, sets_cons, sets_nil]; rw [set_none _ _ _ rfl]; rfl
  · rfl

theorem property_cat (env : Env V) (s : Handler V × Out V) (sl : Slot) (k : Key) (v : V) : (property env s sl k v).1.category = sl.logical := rfl

theorem longhand_axis (a : Axis) (k : Key) : Longhand (.axis a) (.log a.start) k := by cases a <;> constructor
theorem longhand_axisKey (a : Axis) (k : Key) : Longhand (.axisKey a k) (.log a.start) k := by cases a <;> constructor

/-- One declaration. -/
theorem handle_state (env : Env V) (m : Mode) (c : Pos → Key → Value V) {P : Handler V → Prop} (hg : GoodFlush env m c P) (hc : Closed env P)
    (s : Handler V × Out V) (d : Decl V) (hr : RawGood env m c d) (hi : Inv s.1) (hp : P s.1)
    (hlong : ∀ sl k v, (∃ id val, parts d = some (id, val) ∧ Longhand id sl k) →
      ∀ h : Handler V, P h → P { h with f := fun t j => if t = sl ∧ j = k then some v else h.f t j, category := sl.logical, any := true })
    (hside : ∀ sl (b : Key → V), (∃ id val, parts d = some (id, val) ∧ ∀ k, Longhand id sl k) →
      ∀ h : Handler V, P h → P { h with f := fun t j => if t = sl then some (b j) else h.f t j, category := sl.logical, any := true }) :
    state m c (handle env s d) = Spec.set m (state m c s) d := by
  cases d with
  | long sl k v => exact property_state env m c hg hc s sl k v hi hp
  | side sl b => exact setBorder_state env m c hg s sl b hi hp
  | rect k v =>
    rw [set_rect4]
    simp only [handle]
    have st := fun q v' (s : Handler V × Out V) (hi : Inv s.1) (hp : P s.1) =>
      And.intro (property_state env m c hg hc s (.phys q) k v' hi hp)
        (And.intro (property_inv env s (.phys q) k v' hi)
          (property_closed hc s (.phys q) k v' (hlong (.phys q) k v' ⟨_, _, rfl, .rect _ _⟩) hp))
    obtain ⟨e1, i1, p1⟩ := st .bs (v .bs) s hi hp
    obtain ⟨e2, i2, p2⟩ := st .ie (v .ie) _ i1 p1
    obtain ⟨e3, i3, p3⟩ := st .be (v .be) _ i2 p2
    obtain ⟨e4, i4, p4⟩ := st .is (v .is) _ i3 p3
    rw [← e1, ← e2, ← e3, ← e4]
    have hcat : (property env (property env (property env (property env s (.phys .bs) k (v .bs)) (.phys .ie) k (v .ie)) (.phys .be) k (v .be)) (.phys .is) k (v .is)).1.category = false := property_cat ..
    generalize property env (property env (property env (property env s (.phys .bs) k (v .bs)) (.phys .ie) k (v .ie)) (.phys .be) k (v .be)) (.phys .is) k (v .is) = t at i4 hcat
    funext p j
    simp only [state, overs, over, Slot.logical, Bool.false_eq_true, false_and, if_false]
    rw [i4.cat hcat]
    split
    · rename_i h; split at h <;> cases h
    · rfl
  | border b =>
    funext p j
    rw [set_border]
    simp only [handle, state, overs, over, Slot.logical, Bool.false_eq_true, if_false, if_true]
  | axisKey a k v w =>
    rw [set_axisKey2]
    simp only [handle]
    rw [property_state env m c hg hc _ _ _ _ (property_inv env _ _ _ _ hi), property_state env m c hg hc _ _ _ _ hi hp]
    exact property_closed hc s _ k v (hlong _ k v ⟨_, _, rfl, longhand_axisKey a k⟩) hp
  | axis a b =>
    rw [set_axis2]
    simp only [handle]
    rw [setBorder_state env m c hg _ _ _ (setBorder_inv env _ _ _ hi), setBorder_state env m c hg _ _ _ hi hp]
    exact setBorder_closed hc s _ b (hside _ b ⟨_, _, rfl, longhand_axis a⟩) hp
  | raw id u =>
    simp only [handle]
    rw [← state_flushed env m c s hi (hg s hi hp)]
    simp only [state]
    rw [overs_none m _ (flush_held env s hi), overs_none m _ (flush_held env s hi), hr id u rfl]
  | image u =>
    rw [set_none _ _ _ rfl]
    simp only [handle]
    split
    · split
      · rw [← flushImage_state m c s]; rfl
      · rfl
    · rfl
  | imageRaw u =>
    rw [set_none _ _ _ rfl]
    simp only [handle]
    rw [← state_flushed env m c s hi (hg s hi hp), ← flushImage_state m c (flush env s)]
    simp only [state, sets_append, sets_cons, sets_nil]
    rw [set_none _ _ _ rfl]

end
end Verif.Border
