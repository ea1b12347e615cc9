import Verif.Handler.SmallLemmas
/-! `DeclarationHandler` keeps the meaning of the declarations. -/
namespace Verif.Handler
variable {V M C : Type}

/-! ### Emitted declarations of one family -/

theorem last_map {D E R : Type} (f : E → Option R) (g : D → E) (ds : List D) : last f (ds.map g) = last (fun d => f (g d)) ds := by
  simp only [last, ← List.map_reverse, List.findSome?_map]
  rfl

theorem last_box (m : V → M) (wm : WritingMode) (f : Fam) (ds : List (BoxDecl V)) (l : Long) :
    last (sets m wm l) (ds.map (.box f)) = match l with
      | .box g s => if g = f then last (boxSets m wm s) ds else none
      | _ => none := by
  rw [last_map]
  cases l with
  | box g s =>
    by_cases h : g = f
    · subst h; simp [sets]
    · simp only [sets, if_neg h]; exact last_none _ _ fun _ _ => rfl
  | _ => exact last_none _ _ fun _ _ => rfl

theorem last_ov (m : V → M) (wm : WritingMode) (ds : List (OvDecl V)) (l : Long) :
    last (sets m wm l) (ds.map .overflow) = match l with
      | .overflowX => last (ovSetsX m) ds
      | .overflowY => last (ovSetsY m) ds
      | _ => none := by
  rw [last_map]
  cases l with
  | overflowX => rfl
  | overflowY => rfl
  | _ => exact last_none _ _ fun _ _ => rfl

theorem last_sh (m : V → M) (wm : WritingMode) (f : ShFam) (ds : List (ShDecl V f.n)) (l : Long) :
    last (sets m wm l) (ds.map (.short f)) = match l with
      | .short g i => if h : f = g then last (shSets m i) (h ▸ ds) else none
      | _ => none := by
  rw [last_map]
  cases l with
  | short g i =>
    by_cases h : f = g
    · subst h; simp [sets]
    · simp only [sets, dif_neg h]; exact last_none _ _ fun _ _ => rfl
  | _ => exact last_none _ _ fun _ _ => rfl

/-! ### The view of a state -/

/-- What is pending for a longhand. -/
def pending (m : V → M) (wm : WritingMode) (s : State V) : Long → Option (Val M)
  | .box f sd => pend m wm sd (s.box f)
  | .overflowX => pv m s.overflow.x
  | .overflowY => pv m s.overflow.y
  | .short f i => pv m ((s.short f).key i)
  | .direction => pv m s.direction
  | .bidi => pv m s.bidi
  | _ => none

/-- Pending or emitted. -/
def stateView (m : V → M) (wm : WritingMode) (s : State V) (l : Long) : Option (Val M) :=
  (pending m wm s l).or (last (sets m wm l) s.decls)

/-- The index of custom properties is exact: every custom declaration is listed once, at its place. -/
def CustomInv (customs : List (Str × Nat)) (decls : List (Decl V)) : Prop :=
  (customs.map (·.1)).Nodup ∧ (∀ n i, (n, i) ∈ customs → ∃ w, decls[i]? = some (.custom n w)) ∧
    ∀ (i : Nat) n w, decls[i]? = some (.custom n w) → (n, i) ∈ customs

/-- A declaration that sets `direction` or `unicode-bidi`. -/
def Decl.isDir : Decl V → Bool
  | .direction _ | .unicodeBidi _ | .unparsedDirection _ | .unparsedBidi _ => true
  | _ => false

/-- The invariant of the handler, while it has not seen unparsed `direction` or `unicode-bidi`. -/
structure State.Inv (s : State V) : Prop where
  box : ∀ f, (s.box f).Inv
  short : ∀ f, (s.short f).Inv
  custom : CustomInv s.customs s.decls
  dir : ∀ d ∈ s.decls, d.isDir = false

theorem isDir_none (m : V → M) (wm : WritingMode) (d : Decl V) (h : d.isDir = false) :
    sets m wm .direction d = none ∧ sets m wm .bidi d = none := by
  cases d <;> simp_all [Decl.isDir, sets]

theorem dir_last (m : V → M) (wm : WritingMode) (ds : List (Decl V)) (h : ∀ d ∈ ds, d.isDir = false) :
    last (sets m wm .direction) ds = none ∧ last (sets m wm .bidi) ds = none :=
  ⟨last_none _ _ fun d hd => (isDir_none m wm d (h d hd)).1, last_none _ _ fun d hd => (isDir_none m wm d (h d hd)).2⟩

theorem customInv_append (customs : List (Str × Nat)) (decls em : List (Decl V)) (h : CustomInv customs decls)
    (he : ∀ d ∈ em, ∀ n w, d ≠ .custom n w) : CustomInv customs (decls ++ em) := by
  refine ⟨h.1, fun n i hi => ?_, fun i n w hi => ?_⟩
  · obtain ⟨w, hw⟩ := h.2.1 n i hi
    have := (List.getElem?_eq_some_iff.1 hw).1
    exact ⟨w, by rw [List.getElem?_append_left this, hw]⟩
  · by_cases hl : i < decls.length
    · rw [List.getElem?_append_left hl] at hi
      exact h.2.2 i n w hi
    · rw [List.getElem?_append_right (by omega)] at hi
      exact absurd rfl (he _ (List.mem_of_getElem? hi) n w)

theorem init_inv : (State.init : State V).Inv := by
  refine ⟨fun _ => clean_inv _ ⟨fun _ => rfl, fun _ => rfl⟩, fun _ _ _ => rfl, ⟨List.nodup_nil, ?_, ?_⟩, by simp [State.init]⟩
  · intro n i h; simp [State.init] at h
  · intro i n w h; simp [State.init] at h

theorem last_eq_of_map {D R : Type} (f : D → Option R) (a b : List D) (h : a.map f = b.map f) : last f a = last f b := by
  have key : ∀ l : List D, last f l = last id (l.map f) := by
    intro l; rw [last_map]; rfl
  rw [key, key, h]

theorem last_set_same {D R : Type} (f : D → Option R) (ds : List D) (i : Nat) (d e : D) (hi : ds[i]? = some e) (h : f d = f e) :
    last f (ds.set i d) = last f ds := by
  apply last_eq_of_map
  rw [List.map_set, h]
  obtain ⟨hl, he⟩ := List.getElem?_eq_some_iff.1 hi
  subst he
  apply List.ext_getElem?
  intro j
  rw [List.getElem?_set]
  split
  · next hj => subst hj; simp [hl]
  · rfl

/-- If only one place sets something, that is the value. -/
theorem last_unique {D R : Type} (f : D → Option R) (ds : List D) (i : Nat) (e : D) (hi : ds[i]? = some e)
    (h : ∀ (j : Nat) d, ds[j]? = some d → f d ≠ none → j = i) : last f ds = f e := by
  induction ds generalizing i with
  | nil => simp at hi
  | cons d ds ih =>
    rw [last_cons]
    cases i with
    | zero =>
      simp at hi
      subst hi
      rw [last_none f ds]
      · simp
      · intro x hx
        obtain ⟨j, hj⟩ := List.getElem?_of_mem hx
        by_contra hne
        have := h (j + 1) x (by simpa using hj) hne
        omega
    | succ i =>
      rw [ih i (by simpa using hi)]
      · have : f d = none := by
          by_contra hne
          have := h 0 d (by simp) hne
          omega
        simp [this]
      · intro j x hj hne
        have := h (j + 1) x (by simpa using hj) hne
        omega

theorem sets_custom_iff (m : V → M) (wm : WritingMode) (n : Str) (d : Decl V) (h : sets m wm (.custom n) d ≠ none) :
    ∃ w, d = .custom n w := by
  cases d <;> simp [sets] at h
  exact ⟨_, by rw [h]⟩

theorem nodup_fst_unique {A B : Type} (l : List (A × B)) (h : (l.map (·.1)).Nodup) (a : A) (b b' : B) (h1 : (a, b) ∈ l)
    (h2 : (a, b') ∈ l) : b = b' := by
  induction l with
  | nil => simp at h1
  | cons x l ih =>
    simp only [List.map_cons, List.nodup_cons, List.mem_map] at h
    rcases List.mem_cons.1 h1 with e1 | e1
    · rcases List.mem_cons.1 h2 with e2 | e2
      · rw [← e2] at e1; exact congrArg Prod.snd e1
      · exact absurd ⟨(a, b'), e2, by rw [← e1]⟩ h.1
    · rcases List.mem_cons.1 h2 with e2 | e2
      · exact absurd ⟨(a, b), e1, by rw [← e2]⟩ h.1
      · exact ih h.2 e1 e2

/-- The value of a custom property is that of its place. -/
theorem custom_last (m : V → M) (wm : WritingMode) (customs : List (Str × Nat)) (decls : List (Decl V)) (h : CustomInv customs decls)
    (n : Str) (i : Nat) (hi : (n, i) ∈ customs) (w : V) (hw : decls[i]? = some (.custom n w)) :
    last (sets m wm (.custom n)) decls = some (.val (m w)) := by
  rw [last_unique _ decls i _ hw]
  · simp [sets]
  · intro j d hj hd
    obtain ⟨w', rfl⟩ := sets_custom_iff m wm n d hd
    exact (nodup_fst_unique _ h.1 n i j hi (h.2.2 j n w' hj)).symm

/-- A custom property that is not listed has no value. -/
theorem custom_last_none (m : V → M) (wm : WritingMode) (customs : List (Str × Nat)) (decls : List (Decl V)) (h : CustomInv customs decls)
    (n : Str) (hn : ∀ i, (n, i) ∉ customs) : last (sets m wm (.custom n)) decls = none := by
  apply last_none
  intro d hd
  by_contra hne
  obtain ⟨w, rfl⟩ := sets_custom_iff m wm n d hne
  obtain ⟨i, hi⟩ := List.getElem?_of_mem hd
  exact hn i (h.2.2 i n w hi)

theorem lookup_some_mem {B : Type} (l : List (Str × B)) (n : Str) (b : B) (h : l.lookup n = some b) : (n, b) ∈ l := by
  induction l with
  | nil => simp at h
  | cons x l ih =>
    obtain ⟨k, v⟩ := x
    rw [List.lookup_cons] at h
    by_cases hk : n = k
    · subst hk; simp at h; subst h; simp
    · have : (n == k) = false := by simpa using hk
      rw [this] at h
      exact List.mem_cons_of_mem _ (ih h)

theorem lookup_none_not_mem {B : Type} (l : List (Str × B)) (n : Str) (h : l.lookup n = none) (b : B) : (n, b) ∉ l := by
  induction l with
  | nil => simp
  | cons x l ih =>
    obtain ⟨k, v⟩ := x
    rw [List.lookup_cons] at h
    by_cases hk : n = k
    · subst hk; simp at h
    · have : (n == k) = false := by simpa using hk
      rw [this] at h
      simp only [List.mem_cons, Prod.mk.injEq, not_or]
      exact ⟨fun he => hk he.1, ih h⟩

/-! ### `all` -/

theorem moveCustoms_spec (decls : List (Decl V)) (L cs : List (Str × Nat)) (ds : List (Decl V))
    (hL : ∀ n i, (n, i) ∈ L → ∃ w, decls[i]? = some (.custom n w)) (h : CustomInv cs ds)
    (hn : ((cs ++ L).map (·.1)).Nodup) :
    CustomInv (moveCustoms decls L cs ds).1 (moveCustoms decls L cs ds).2 ∧
      (∀ d ∈ (moveCustoms decls L cs ds).2, d ∈ ds ∨ ∃ n w, d = .custom n w) ∧
      (∀ d ∈ ds, d ∈ (moveCustoms decls L cs ds).2) ∧
      (∀ n i w, (n, i) ∈ L → decls[i]? = some (.custom n w) → .custom n w ∈ (moveCustoms decls L cs ds).2) ∧
      ∀ n w, .custom n w ∈ (moveCustoms decls L cs ds).2 → .custom n w ∈ ds ∨ ∃ i, (n, i) ∈ L ∧ decls[i]? = some (.custom n w) := by
  induction L generalizing cs ds with
  | nil => exact ⟨h, fun d hd => .inl hd, fun _ hd => hd, by simp, fun n w hm => .inl hm⟩
  | cons x L ih =>
    obtain ⟨k, i⟩ := x
    obtain ⟨w, hw⟩ := hL k i (by simp)
    have hinv : CustomInv (cs ++ [(k, ds.length)]) (ds ++ [.custom k w]) := by
      refine ⟨?_, fun n j hj => ?_, fun j n w' hj => ?_⟩
      · simp only [List.map_append, List.map_cons, List.map_nil]
        refine List.Nodup.sublist ?_ hn
        simp
      · rcases List.mem_append.1 hj with hj | hj
        · obtain ⟨w', hw'⟩ := h.2.1 n j hj
          have := (List.getElem?_eq_some_iff.1 hw').1
          exact ⟨w', by rw [List.getElem?_append_left this, hw']⟩
        · simp at hj
          obtain ⟨rfl, rfl⟩ := hj
          exact ⟨w, by simp⟩
      · by_cases hl : j < ds.length
        · rw [List.getElem?_append_left hl] at hj
          exact List.mem_append_left _ (h.2.2 j n w' hj)
        · rw [List.getElem?_append_right (by omega)] at hj
          have h0 : j - ds.length = 0 := by
            have := (List.getElem?_eq_some_iff.1 hj).1
            simp at this; omega
          rw [h0] at hj
          simp at hj
          obtain ⟨rfl, rfl⟩ := hj
          have : j = ds.length := by omega
          subst this
          simp
    obtain ⟨a, b, c, d, e⟩ := ih (cs ++ [(k, ds.length)]) (ds ++ [.custom k w]) (fun n i hi => hL n i (by simp [hi])) hinv
      (by simpa using hn)
    rw [moveCustoms, hw]
    refine ⟨a, fun x hx => ?_, fun x hx => c x (by simp [hx]), fun n j w' hj hw' => ?_, fun n w' hm => ?_⟩
    · rcases b x hx with hx | hx
      · rcases List.mem_append.1 hx with hx | hx
        · exact .inl hx
        · simp at hx; exact .inr ⟨k, w, hx⟩
      · exact .inr hx
    · rcases List.mem_cons.1 hj with hj | hj
      · injection hj with h1 h2
        subst h1; subst h2
        rw [hw] at hw'
        injection hw' with hw'
        rw [← hw']
        exact c _ (by simp)
      · exact d n j w' hj hw'
    · rcases e n w' hm with hm | ⟨j, hj, hw'⟩
      · rcases List.mem_append.1 hm with hm | hm
        · exact .inl hm
        · simp at hm
          obtain ⟨rfl, rfl⟩ := hm
          exact .inr ⟨i, by simp, hw⟩
      · exact .inr ⟨j, by simp [hj], hw'⟩

/-- A custom property has the value of any of its declarations. -/
theorem custom_last_mem (m : V → M) (wm : WritingMode) (customs : List (Str × Nat)) (decls : List (Decl V)) (h : CustomInv customs decls)
    (n : Str) (w : V) (hw : .custom n w ∈ decls) : last (sets m wm (.custom n)) decls = some (.val (m w)) := by
  obtain ⟨i, hi⟩ := List.getElem?_of_mem hw
  exact custom_last m wm customs decls h n i (h.2.2 i n w hi) w hi

theorem handleAll_spec (m : V → M) (wm : WritingMode) (v : V) (s : State V) (h : s.Inv) :
    (s.handleAll v).Inv ∧ ∀ l, stateView m wm (s.handleAll v) l = (sets m wm l (.all v)).or (stateView m wm s l) := by
  have h0 : CustomInv ([] : List (Str × Nat)) ([] : List (Decl V)) := ⟨by simp, by simp, by simp⟩
  obtain ⟨a, b, c, d, e⟩ := moveCustoms_spec s.decls s.customs [] [] h.custom.2.1 h0 (by simpa using h.custom.1)
  have hcust : ∀ x ∈ (moveCustoms s.decls s.customs [] []).2, ∃ n w, x = .custom n w := fun x hx => by
    rcases b x hx with hx | hx
    · simp at hx
    · exact hx
  refine ⟨⟨init_inv.box, init_inv.short, customInv_append _ _ _ a (by simp), ?_⟩, fun l => ?_⟩
  · intro x hx
    rcases List.mem_append.1 (show x ∈ (moveCustoms s.decls s.customs [] []).2 ++ [.all v] from hx) with hx | hx
    · obtain ⟨n, w, rfl⟩ := hcust x hx; rfl
    · simp at hx; subst hx; rfl
  have hd : (s.handleAll v).decls = (moveCustoms s.decls s.customs [] []).2 ++ [.all v] := rfl
  unfold stateView
  rw [hd, last_append, last_singleton]
  have hnone : ∀ l, (∀ n, l ≠ .custom n) → last (sets m wm l) (moveCustoms s.decls s.customs [] []).2 = none := by
    intro l hl
    apply last_none
    intro x hx
    obtain ⟨n, w, rfl⟩ := hcust x hx
    cases l <;> first | rfl | exact absurd rfl (hl _)
  cases l with
  | custom n =>
    simp only [sets, pending, Option.none_or]
    by_cases hm : ∃ w, .custom n w ∈ s.decls
    · obtain ⟨w, hw⟩ := hm
      rw [custom_last_mem m wm _ _ h.custom n w hw]
      obtain ⟨i, hi⟩ := List.getElem?_of_mem hw
      rw [custom_last_mem m wm _ _ a n w (d n i w (h.custom.2.2 i n w hi) hi)]
    · have h1 : last (sets m wm (.custom n)) s.decls = none := by
        apply last_none
        intro x hx
        by_contra hne
        obtain ⟨w, rfl⟩ := sets_custom_iff m wm n x hne
        exact hm ⟨w, hx⟩
      rw [h1]
      apply last_none
      intro x hx
      by_contra hne
      obtain ⟨w, rfl⟩ := sets_custom_iff m wm n x hne
      rcases e n w hx with hx | ⟨i, _, hi⟩
      · simp at hx
      · exact hm ⟨w, List.mem_of_getElem? hi⟩
  | direction =>
    rw [hnone _ (by simp), (dir_last m wm s.decls h.dir).1]
    simp [sets, pending, State.handleAll]
  | bidi =>
    rw [hnone _ (by simp), (dir_last m wm s.decls h.dir).2]
    simp [sets, pending, State.handleAll]
  | _ => simp [sets, pending, State.handleAll, State.init, pend, pv, BoxState.init, ShState.init]

/-! ### One declaration -/

/-- Handling appends declarations: the view changes as the new pending values and the emitted declarations say. -/
theorem view_append (m : V → M) (wm : WritingMode) (s s' : State V) (em : List (Decl V)) (hd : s'.decls = s.decls ++ em) (l : Long)
    (r : Option (Val M)) (h : (pending m wm s' l).or (last (sets m wm l) em) = r.or (pending m wm s l)) :
    stateView m wm s' l = r.or (stateView m wm s l) := by
  unfold stateView
  rw [hd, last_append, ← Option.or_assoc, h, Option.or_assoc]

/-- The configuration keeps meanings: logical properties are not compiled, fallbacks of shorthands keep the meaning of the value,
and custom properties need no fallback. -/
structure Cfg.Keeps (c : Cfg V C) (m : V → M) : Prop where
  box : ∀ f, (c.box f).logicalSupported = true
  short : ∀ f, (c.short f).Keeps m
  lower : c.kind = .keyframes ∨ ∀ v, m (c.lower v).1 = m v

/-- The longhand is not of a custom or unknown property listed as unused. -/
def Long.used (c : Cfg V C) : Long → Prop
  | .custom n => c.unused n = false
  | .unknown n => c.unused n = false
  | _ => True

/-- Unparsed `all`, `direction` and `unicode-bidi`. -/
def Decl.odd : Decl V → Bool
  | .unparsedAll _ | .unparsedDirection _ | .unparsedBidi _ => true
  | _ => false

variable [DecidableEq V] [DecidableEq C]

theorem addFallbacks_val (c : Cfg V C) (m : V → M) (hc : c.Keeps m) (n : Str) (v : V) (x : Ctx V C) :
    m (addFallbacks c n v x).1 = m v := by
  unfold addFallbacks
  split
  · rfl
  · next h => exact hc.lower.resolve_left h v

theorem handleCustom_spec (m : V → M) (wm : WritingMode) (c : Cfg V C) (hc : c.Keeps m) (n : Str) (v : V) (s : State V) (h : s.Inv)
    (x : Ctx V C) :
    (s.handleCustom c n v x).1.Inv ∧
      ∀ l, l.used c → stateView m wm (s.handleCustom c n v x).1 l = (sets m wm l (.custom n v)).or (stateView m wm s l) := by
  have hfb := addFallbacks_val c m hc n v x
  have hother : ∀ l, l ≠ .custom n → ∀ w : V, sets m wm l (.custom n w) = none := by
    intro l hl w
    cases l with
    | custom k => simp only [sets]; rw [if_neg]; rintro rfl; exact hl rfl
    | _ => rfl
  unfold State.handleCustom
  split
  · next hu =>
    refine ⟨h, fun l hl => ?_⟩
    rw [hother l (by rintro rfl; simp [Long.used, hu] at hl)]
    simp
  · next hu =>
    -- replacing the declaration at its place
    have upd : ∀ i w, (n, i) ∈ s.customs → s.decls[i]? = some (.custom n w) → ∀ v', m v' = m v →
        State.Inv ({ s with decls := s.decls.set i (.custom n v') }) ∧ ∀ l, l.used c →
          stateView m wm ({ s with decls := s.decls.set i (.custom n v') }) l = (sets m wm l (.custom n v)).or (stateView m wm s l) := by
      intro i w hmem hi v' hv'
      have hlt := (List.getElem?_eq_some_iff.1 hi).1
      have hcinv : CustomInv s.customs (s.decls.set i (.custom n v')) := by
        refine ⟨h.custom.1, fun k j hj => ?_, fun j k w' hj => ?_⟩
        · obtain ⟨w', hw'⟩ := h.custom.2.1 k j hj
          rw [List.getElem?_set]
          by_cases hij : i = j
          · subst hij
            rw [hi] at hw'
            simp at hw'
            exact ⟨v', by simp [hlt, hw'.1]⟩
          · exact ⟨w', by rw [if_neg hij, hw']⟩
        · rw [List.getElem?_set] at hj
          by_cases hij : i = j
          · subst hij
            simp [hlt] at hj
            rw [← hj.1]; exact hmem
          · rw [if_neg hij] at hj
            exact h.custom.2.2 j k w' hj
      refine ⟨⟨h.box, h.short, hcinv, fun d hd => ?_⟩, fun l _ => ?_⟩
      · rcases List.mem_or_eq_of_mem_set hd with hd | rfl
        · exact h.dir d hd
        · rfl
      · by_cases hl : l = .custom n
        · subst hl
          have := custom_last m wm s.customs _ hcinv n i hmem v' (by simp [hlt])
          simp only [stateView, pending, Option.none_or, this, sets, if_true, Option.some_or, hv']
        · rw [hother l hl]
          have : last (sets m wm l) (s.decls.set i (.custom n v')) = last (sets m wm l) s.decls :=
            last_set_same _ _ _ _ _ hi (by rw [hother l hl, hother l hl])
          simp only [stateView, this, Option.none_or]
          congr 1
    split
    · next i hlk =>
      have hmem := lookup_some_mem _ _ _ hlk
      obtain ⟨w, hi⟩ := h.custom.2.1 n i hmem
      rw [hi]
      simp only []
      split
      · next heq =>
        obtain ⟨_, rfl⟩ := heq
        refine ⟨h, fun l _ => ?_⟩
        by_cases hl : l = .custom n
        · subst hl
          simp only [stateView, pending, Option.none_or, custom_last m wm _ _ h.custom n i hmem w hi, sets, if_true, Option.some_or]
        · rw [hother l hl]; simp
      · exact upd i w hmem hi _ hfb
    · next hlk =>
      have hnm := lookup_none_not_mem _ _ hlk
      have hcinv : CustomInv (s.customs ++ [(n, s.decls.length)]) (s.decls ++ [.custom n (addFallbacks c n v x).1]) := by
        refine ⟨?_, fun k j hj => ?_, fun j k w' hj => ?_⟩
        · rw [List.map_append, List.nodup_append]
          refine ⟨h.custom.1, by simp, fun a ha b hb => ?_⟩
          simp at hb
          subst hb
          rintro rfl
          simp only [List.mem_map] at ha
          obtain ⟨⟨k, j⟩, hk, rfl⟩ := ha
          exact hnm j hk
        · rcases List.mem_append.1 hj with hj | hj
          · obtain ⟨w', hw'⟩ := h.custom.2.1 k j hj
            have := (List.getElem?_eq_some_iff.1 hw').1
            exact ⟨w', by rw [List.getElem?_append_left this, hw']⟩
          · simp at hj
            obtain ⟨rfl, rfl⟩ := hj
            exact ⟨(addFallbacks c k v x).1, by simp⟩
        · by_cases hl : j < s.decls.length
          · rw [List.getElem?_append_left hl] at hj
            exact List.mem_append_left _ (h.custom.2.2 j k w' hj)
          · rw [List.getElem?_append_right (by omega)] at hj
            have h0 : j - s.decls.length = 0 := by
              have := (List.getElem?_eq_some_iff.1 hj).1
              simp at this; omega
            rw [h0] at hj
            simp at hj
            have : j = s.decls.length := by omega
            subst this
            simp [hj.1]
      refine ⟨⟨h.box, h.short, hcinv, fun d hd => ?_⟩, fun l _ => ?_⟩
      · rcases List.mem_append.1 hd with hd | hd
        · exact h.dir d hd
        · simp at hd; subst hd; rfl
      · apply view_append m wm s _ [.custom n (addFallbacks c n v x).1] rfl
        rw [last_singleton]
        by_cases hl : l = .custom n
        · subst hl; simp [sets, pending, hfb]
        · rw [hother l hl, hother l hl]; simp only [Option.or_none, Option.none_or]; cases l <;> rfl

theorem handle_state_spec (m : V → M) (wm : WritingMode) (c : Cfg V C) (hc : c.Keeps m) (d : Decl V) (hd : d.odd = false) (s : State V)
    (h : s.Inv) (x : Ctx V C) :
    (s.handle c d x).1.Inv ∧
      ∀ l, l.used c → stateView m wm (s.handle c d x).1 l = (sets m wm l d).or (stateView m wm s l) := by
  have app : ∀ (s' : State V) (em : List (Decl V)), s'.decls = s.decls ++ em → (∀ f, (s'.box f).Inv) → (∀ f, (s'.short f).Inv) →
      s'.customs = s.customs → (∀ d ∈ em, (∀ n w, d ≠ .custom n w) ∧ d.isDir = false) → s'.Inv := by
    intro s' em h1 h2 h3 h4 h5
    refine ⟨h2, h3, ?_, ?_⟩
    · rw [h1, h4]; exact customInv_append _ _ _ h.custom fun d hd => (h5 d hd).1
    · rw [h1]
      intro d hd
      rcases List.mem_append.1 hd with hd | hd
      · exact h.dir d hd
      · exact (h5 d hd).2
  cases d with
  | box f d =>
    obtain ⟨a, b⟩ := handle_spec m wm (c.box f) (hc.box f) d (s.box f) (h.box f)
    refine ⟨app _ _ rfl (fun g => ?_) h.short rfl ?_, fun l _ => ?_⟩
    · simp only [State.handle]
      split
      · exact a.1
      · exact h.box g
    · intro x hx
      simp only [List.mem_map] at hx
      obtain ⟨y, _, rfl⟩ := hx
      exact ⟨by simp, rfl⟩
    · apply view_append m wm s _ _ rfl
      rw [last_box]
      cases l with
      | box g sd =>
        by_cases hg : g = f
        · subst hg
          simp only [State.handle, pending, if_true, sets]
          exact b sd
        · simp [State.handle, pending, hg, sets]
      | _ => simp [State.handle, pending, sets]
  | overflow d =>
    have b := ov_handle m c.overflowTwo d s.overflow
    refine ⟨app _ _ rfl h.box h.short rfl ?_, fun l _ => ?_⟩
    · intro x hx
      simp only [List.mem_map] at hx
      obtain ⟨y, _, rfl⟩ := hx
      exact ⟨by simp, rfl⟩
    · apply view_append m wm s _ _ rfl
      rw [last_ov]
      cases l with
      | overflowX => exact b.1
      | overflowY => exact b.2
      | _ => simp [State.handle, pending, sets]
  | short f d =>
    obtain ⟨a, b⟩ := sh_handle m (c.short f) (hc.short f) d (s.short f) (h.short f)
    refine ⟨app _ _ rfl h.box (fun g => ?_) rfl ?_, fun l _ => ?_⟩
    · simp only [State.handle]
      by_cases hg : f = g
      · subst hg; simp only [dif_pos]; exact a
      · rw [dif_neg hg]; exact h.short g
    · intro x hx
      simp only [List.mem_map] at hx
      obtain ⟨y, _, rfl⟩ := hx
      exact ⟨by simp, rfl⟩
    · apply view_append m wm s _ _ rfl
      rw [last_sh]
      cases l with
      | short g i =>
        by_cases hg : f = g
        · subst hg
          simp only [State.handle, pending, dif_pos, sets]
          exact b i
        · simp [State.handle, pending, hg, sets]
      | _ => simp [State.handle, pending, sets]
  | custom n v => exact handleCustom_spec m wm c hc n v s h x
  | direction v =>
    refine ⟨⟨h.box, h.short, h.custom, h.dir⟩, fun l _ => ?_⟩
    cases l <;> simp [stateView, State.handle, pending, sets, pv]
  | unicodeBidi v =>
    refine ⟨⟨h.box, h.short, h.custom, h.dir⟩, fun l _ => ?_⟩
    cases l <;> simp [stateView, State.handle, pending, sets, pv]
  | all v =>
    obtain ⟨a, b⟩ := handleAll_spec m wm v s h
    exact ⟨a, fun l _ => b l⟩
  | unparsedDirection v => simp [Decl.odd] at hd
  | unparsedBidi v => simp [Decl.odd] at hd
  | unparsedAll v => simp [Decl.odd] at hd
  | unknown n v =>
    simp only [State.handle]
    split
    · next hu =>
      refine ⟨h, fun l hl => ?_⟩
      cases l with
      | unknown k =>
        simp only [sets]
        rw [if_neg]
        · simp
        · rintro rfl; simp [Long.used, hu] at hl
      | _ => simp [sets]
    · refine ⟨app _ _ rfl h.box h.short rfl (by simp [Decl.isDir]), fun l _ => ?_⟩
      apply view_append m wm s _ _ rfl
      rw [last_singleton]
      cases l <;> simp [pending, sets]
  | other n v =>
    refine ⟨app _ _ rfl h.box h.short rfl (by simp [Decl.isDir]), fun l _ => ?_⟩
    apply view_append m wm s _ _ rfl
    rw [last_singleton]
    cases l <;> simp [pending, sets, State.handle]

theorem handleList_spec (m : V → M) (wm : WritingMode) (c : Cfg V C) (hc : c.Keeps m) (imp : Bool) (ds : List (Decl V))
    (hd : ∀ d ∈ ds, d.odd = false) (r : State V × Ctx V C) (h : r.1.Inv) :
    (handleList c imp ds r).1.Inv ∧
      ∀ l, l.used c → stateView m wm (handleList c imp ds r).1 l = (last (sets m wm l) ds).or (stateView m wm r.1 l) := by
  induction ds generalizing r with
  | nil => exact ⟨h, fun l _ => by simp [handleList, last_nil]⟩
  | cons d ds ih =>
    obtain ⟨a, b⟩ := handle_state_spec m wm c hc d (hd d (by simp)) r.1 h { r.2 with isImportant := imp }
    obtain ⟨a', b'⟩ := ih (fun d hd' => hd d (by simp [hd'])) _ a
    refine ⟨a', fun l hl => ?_⟩
    rw [handleList, b' l hl, b l hl, last_cons, Option.or_assoc]

end Verif.Handler
