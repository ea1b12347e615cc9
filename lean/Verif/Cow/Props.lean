import Verif.Cow.Spec
namespace Verif.Cow
open Spec
variable {T : Type}

/-- The text that a variable gives. -/
def view (src : Nat → Nat → T) (m : Mem T) (h : Nat) : Option T := (find m.live h).bind (deref src m)

/-- The number of references to an address. -/
def refs (live : List (Nat × CowStr)) (a : Nat) : Nat := live.countP fun x => x.2.owned && x.2.ptr == a

theorem find_cons (live : List (Nat × CowStr)) (h : Nat) (c : CowStr) (x : Nat) : find ((h, c) :: live) x = if x = h then some c else find live x := by
  unfold find
  by_cases e : x = h
  · subst e; simp
  · have : ¬ h = x := fun k => e k.symm
    simp [e, this]

theorem find_forget (live : List (Nat × CowStr)) (h x : Nat) : find (forget live h) x = if x = h then none else find live x := by
  induction live with
  | nil => simp [find, forget]
  | cons y live ih =>
    obtain ⟨k, c⟩ := y
    unfold forget at ih ⊢
    by_cases e : k = h
    · subst e
      simp only [List.filter_cons, bne_self_eq_false, Bool.false_eq_true, if_false]
      rw [ih, find_cons]
      by_cases e2 : x = k <;> simp [e2]
    · simp only [List.filter_cons, bne_iff_ne, ne_eq, e, not_false_eq_true, if_true]
      rw [find_cons, ih, find_cons]
      by_cases e2 : x = k
      · subst e2; simp [e]
      · simp [e2]

theorem refs_forget (live : List (Nat × CowStr)) (h : Nat) (c : CowStr) (hn : (live.map Prod.fst).Nodup) (hf : find live h = some c) (a : Nat) :
    refs live a = refs (forget live h) a + if c.owned && c.ptr == a then 1 else 0 := by
  induction live with
  | nil => cases hf
  | cons y live ih =>
    obtain ⟨k, d⟩ := y
    rw [find_cons] at hf
    have hn' := List.nodup_cons.1 hn
    by_cases e : h = k
    · subst e
      rw [if_pos rfl] at hf
      cases hf
      have : forget ((h, c) :: live) h = live := by
        unfold forget
        simp only [List.filter_cons, bne_self_eq_false, Bool.false_eq_true, if_false]
        refine List.filter_eq_self.2 fun x hx => ?_
        simp only [bne_iff_ne, ne_eq]
        intro e
        exact hn'.1 (List.mem_map.2 ⟨x, hx, e⟩)
      rw [this]
      unfold refs
      rw [List.countP_cons]
    · rw [if_neg e] at hf
      have e' : ¬ k = h := fun x => e x.symm
      have : forget ((k, d) :: live) h = (k, d) :: forget live h := by
        unfold forget; simp [e']
      rw [this]
      have := ih hn'.2 hf
      unfold refs at this ⊢
      rw [List.countP_cons, List.countP_cons]
      omega

theorem forget_nodup (live : List (Nat × CowStr)) (h : Nat) (hn : (live.map Prod.fst).Nodup) : ((forget live h).map Prod.fst).Nodup :=
  hn.sublist (List.Sublist.map _ List.filter_sublist)

theorem find_mem (live : List (Nat × CowStr)) (h : Nat) (c : CowStr) (hf : find live h = some c) : ∃ x ∈ live, x.2 = c := by
  induction live with
  | nil => cases hf
  | cons y live ih =>
    obtain ⟨k, d⟩ := y
    rw [find_cons] at hf
    by_cases e : h = k
    · rw [if_pos e] at hf; cases hf; exact ⟨_, List.mem_cons_self, rfl⟩
    · rw [if_neg e] at hf
      obtain ⟨x, hx, hc⟩ := ih hf
      exact ⟨x, List.mem_cons_of_mem _ hx, hc⟩

theorem find_not_mem (live : List (Nat × CowStr)) (h : Nat) (hf : find live h = none) : h ∉ live.map Prod.fst := by
  induction live with
  | nil => simp
  | cons y live ih =>
    obtain ⟨k, d⟩ := y
    rw [find_cons] at hf
    by_cases e : h = k
    · rw [if_pos e] at hf; cases hf
    · rw [if_neg e] at hf
      simp only [List.map_cons, List.mem_cons, not_or]
      exact ⟨e, ih hf⟩

/-- The invariant: the counts are the numbers of references, nothing freed was used, and the texts are those of the specification. -/
structure Good (src : Nat → Nat → T) (m : Mem T) (v : Texts T) : Prop where
  ub : m.ub = false
  nodup : (m.live.map Prod.fst).Nodup
  heap : ∀ a, match m.heap a with
    | some (_, n) => n = refs m.live a ∧ 1 ≤ n
    | none => refs m.live a = 0
  found : ∀ h, (find m.live h).isSome = (v h).isSome
  text : ∀ h, view src m h = v h

theorem refs_pos (live : List (Nat × CowStr)) (h : Nat) (c : CowStr) (hf : find live h = some c) (ho : c.owned = true) : 1 ≤ refs live c.ptr := by
  obtain ⟨x, hx, hc⟩ := find_mem live h c hf
  exact List.countP_pos_iff.2 ⟨x, hx, by simp [hc, ho]⟩

/-- An owned string that is held is on the heap. -/
theorem Good.alive {src : Nat → Nat → T} {m : Mem T} {v : Texts T} (g : Good src m v) (h : Nat) (c : CowStr) (hf : find m.live h = some c) (ho : c.owned = true) : ∃ t n, m.heap c.ptr = some (t, n) ∧ n = refs m.live c.ptr ∧ 1 ≤ n := by
  have := g.heap c.ptr
  have hp := refs_pos _ _ _ hf ho
  cases hh : m.heap c.ptr with
  | none => rw [hh] at this; simp only at this; omega
  | some x => obtain ⟨t, n⟩ := x; rw [hh] at this; exact ⟨t, n, rfl, this⟩

theorem newStr_good (src : Nat → Nat → T) (m : Mem T) (v : Texts T) (g : Good src m v) (h ptr len : Nat) (hv : v h = none) (hl : len < maxLen) :
    ∃ m', newStr m h ptr len = some m' ∧ Good src m' (fun x => if x = h then some (src ptr len) else v x) := by
  refine ⟨_, by unfold newStr; rw [if_pos hl], ?_⟩
  have hno : (⟨ptr, len⟩ : CowStr).owned = false := by simp [CowStr.owned]; omega
  have hf : find m.live h = none := by have := g.found h; rw [hv] at this; simpa using this
  refine ⟨g.ub, List.nodup_cons.2 ⟨find_not_mem _ _ hf, g.nodup⟩, fun a => ?_, fun x => ?_, fun x => ?_⟩
  · have := g.heap a
    have e : refs ((h, ⟨ptr, len⟩) :: m.live) a = refs m.live a := by unfold refs; rw [List.countP_cons]; simp [hno]
    show match m.heap a with | some (_, n) => n = refs ((h, ⟨ptr, len⟩) :: m.live) a ∧ 1 ≤ n | none => refs ((h, ⟨ptr, len⟩) :: m.live) a = 0
    rw [e]; exact this
  · show (find ((h, ⟨ptr, len⟩) :: m.live) x).isSome = _
    rw [find_cons]
    by_cases e : x = h
    · simp [e]
    · simp [e, g.found x]
  · show (find ((h, ⟨ptr, len⟩) :: m.live) x).bind (deref src m) = _
    rw [find_cons]
    by_cases e : x = h
    · rw [if_pos e, if_pos e]
      show deref src m ⟨ptr, len⟩ = _
      unfold deref
      rw [hno]; rfl
    · rw [if_neg e, if_neg e]; exact g.text x

theorem newString_good (src : Nat → Nat → T) (m : Mem T) (v : Texts T) (g : Good src m v) (h a : Nat) (t : T) (hv : v h = none) (ha : m.heap a = none) :
    Good src (newString m h a t) (fun x => if x = h then some t else v x) := by
  have hf : find m.live h = none := by have := g.found h; rw [hv] at this; simpa using this
  have ho : (⟨a, maxLen⟩ : CowStr).owned = true := by simp [CowStr.owned]
  have h0 : refs m.live a = 0 := by have := g.heap a; rw [ha] at this; exact this
  refine ⟨g.ub, List.nodup_cons.2 ⟨find_not_mem _ _ hf, g.nodup⟩, fun b => ?_, fun x => ?_, fun x => ?_⟩
  · show match (if b = a then some (t, 1) else m.heap b) with | some (_, n) => n = refs ((h, ⟨a, maxLen⟩) :: m.live) b ∧ 1 ≤ n | none => refs ((h, ⟨a, maxLen⟩) :: m.live) b = 0
    by_cases e : b = a
    · subst e
      have : refs ((h, ⟨b, maxLen⟩) :: m.live) b = 1 := by
        unfold refs at h0 ⊢; rw [List.countP_cons, h0]; simp [ho]
      rw [if_pos rfl, this]; exact ⟨rfl, Nat.le_refl _⟩
    · have : refs ((h, ⟨a, maxLen⟩) :: m.live) b = refs m.live b := by
        unfold refs; rw [List.countP_cons]
        have : ¬ a = b := fun k => e k.symm
        simp [this]
      rw [if_neg e, this]; exact g.heap b
  · show (find ((h, ⟨a, maxLen⟩) :: m.live) x).isSome = _
    rw [find_cons]
    by_cases e : x = h
    · simp [e]
    · simp [e, g.found x]
  · show (find ((h, ⟨a, maxLen⟩) :: m.live) x).bind (deref src (newString m h a t)) = _
    rw [find_cons]
    by_cases e : x = h
    · rw [if_pos e, if_pos e]
      show deref src (newString m h a t) ⟨a, maxLen⟩ = _
      unfold deref
      rw [ho]
      simp [newString]
    · rw [if_neg e, if_neg e, ← g.text x]
      unfold view
      cases hx : find m.live x with
      | none => rfl
      | some c =>
        show deref src (newString m h a t) c = deref src m c
        unfold deref
        by_cases hc : c.owned = true
        · rw [if_pos hc, if_pos hc]
          obtain ⟨t', n, h1, _⟩ := g.alive x c hx hc
          have : ¬ c.ptr = a := by intro e; rw [e, ha] at h1; cases h1
          show (if c.ptr = a then some (t, 1) else m.heap c.ptr).map Prod.fst = _
          rw [if_neg this]
        · rw [if_neg hc, if_neg hc]


theorem clone_good (src : Nat → Nat → T) (rc : Nat → T) (m : Mem T) (v : Texts T) (g : Good src m v) (h h' : Nat) (hs : (v h).isSome = true) (hv : v h' = none) :
    ∃ m', step src rc m (.clone h h') = some m' ∧ Good src m' (fun x => if x = h' then v h else v x) := by
  have hf' : find m.live h' = none := by have := g.found h'; rw [hv] at this; simpa using this
  have hfs := g.found h
  rw [hs] at hfs
  obtain ⟨c, hc⟩ := Option.isSome_iff_exists.1 hfs
  have ht := g.text h
  unfold view at ht
  rw [hc] at ht
  by_cases ho : c.owned = true
  · obtain ⟨t, n, h1, h2, h3⟩ := g.alive h c hc ho
    have hcc : (⟨c.ptr, maxLen⟩ : CowStr) = c := by
      obtain ⟨p, l⟩ := c
      simp only [CowStr.owned, beq_iff_eq] at ho
      simp [ho]
    refine ⟨{ incr m c.ptr with live := (h', ⟨c.ptr, maxLen⟩) :: m.live }, by simp [step, hc, ho], ?_⟩
    have hi : incr m c.ptr = { m with heap := fun b => if b = c.ptr then some (t, n + 1) else m.heap b } := by unfold incr; rw [h1]
    rw [hi, hcc]
    have hd : ∀ d, deref src { m with heap := fun b => if b = c.ptr then some (t, n + 1) else m.heap b, live := (h', c) :: m.live } d = deref src m d := by
      intro d
      unfold deref
      by_cases hod : d.owned = true
      · rw [if_pos hod, if_pos hod]
        show (if d.ptr = c.ptr then some (t, n + 1) else m.heap d.ptr).map Prod.fst = _
        by_cases e : d.ptr = c.ptr
        · rw [if_pos e, e, h1]; rfl
        · rw [if_neg e]
      · rw [if_neg hod, if_neg hod]
    refine ⟨g.ub, List.nodup_cons.2 ⟨find_not_mem _ _ hf', g.nodup⟩, fun b => ?_, fun x => ?_, fun x => ?_⟩
    · show match (if b = c.ptr then some (t, n + 1) else m.heap b) with | some (_, k) => k = refs ((h', c) :: m.live) b ∧ 1 ≤ k | none => refs ((h', c) :: m.live) b = 0
      by_cases e : b = c.ptr
      · subst e
        have : refs ((h', c) :: m.live) c.ptr = refs m.live c.ptr + 1 := by unfold refs; rw [List.countP_cons]; simp [ho]
        rw [if_pos rfl, this, ← h2]; exact ⟨rfl, by omega⟩
      · have : refs ((h', c) :: m.live) b = refs m.live b := by
          unfold refs; rw [List.countP_cons]
          have : ¬ c.ptr = b := fun k => e k.symm
          simp [this]
        rw [if_neg e, this]; exact g.heap b
    · show (find ((h', c) :: m.live) x).isSome = _
      rw [find_cons]
      by_cases e : x = h'
      · rw [if_pos e, if_pos e, hs]; rfl
      · rw [if_neg e, if_neg e, g.found x]
    · show (find ((h', c) :: m.live) x).bind (deref src _) = _
      rw [find_cons]
      by_cases e : x = h'
      · rw [if_pos e, if_pos e]
        show deref src _ c = _
        rw [hd]; exact ht
      · rw [if_neg e, if_neg e, ← g.text x]
        unfold view
        cases hx : find m.live x with
        | none => rfl
        | some d => exact hd d
  · refine ⟨{ m with live := (h', c) :: m.live }, by simp [step, hc, ho], ?_⟩
    refine ⟨g.ub, List.nodup_cons.2 ⟨find_not_mem _ _ hf', g.nodup⟩, fun b => ?_, fun x => ?_, fun x => ?_⟩
    · have e : refs ((h', c) :: m.live) b = refs m.live b := by unfold refs; rw [List.countP_cons]; simp [ho]
      show match m.heap b with | some (_, n) => n = refs ((h', c) :: m.live) b ∧ 1 ≤ n | none => refs ((h', c) :: m.live) b = 0
      rw [e]; exact g.heap b
    · show (find ((h', c) :: m.live) x).isSome = _
      rw [find_cons]
      by_cases e : x = h'
      · rw [if_pos e, if_pos e, hs]; rfl
      · rw [if_neg e, if_neg e, g.found x]
    · show (find ((h', c) :: m.live) x).bind (deref src m) = _
      rw [find_cons]
      by_cases e : x = h'
      · rw [if_pos e, if_pos e]; exact ht
      · rw [if_neg e, if_neg e]; exact g.text x

/-- A variable that borrows is forgotten. -/
theorem forget_good (src : Nat → Nat → T) (m : Mem T) (v : Texts T) (g : Good src m v) (h : Nat) (c : CowStr) (hc : find m.live h = some c) (ho : c.owned = false) :
    Good src { m with live := forget m.live h } (fun x => if x = h then none else v x) := by
  refine ⟨g.ub, forget_nodup _ _ g.nodup, fun b => ?_, fun x => ?_, fun x => ?_⟩
  · have e := refs_forget m.live h c g.nodup hc b
    rw [ho] at e
    simp only [Bool.false_and, Bool.false_eq_true, if_false, Nat.add_zero] at e
    show match m.heap b with | some (_, n) => n = refs (forget m.live h) b ∧ 1 ≤ n | none => refs (forget m.live h) b = 0
    rw [← e]; exact g.heap b
  · show (find (forget m.live h) x).isSome = _
    rw [find_forget]
    by_cases e : x = h
    · rw [if_pos e, if_pos e]; rfl
    · rw [if_neg e, if_neg e, g.found x]
  · show (find (forget m.live h) x).bind (deref src m) = _
    rw [find_forget]
    by_cases e : x = h
    · rw [if_pos e, if_pos e]; rfl
    · rw [if_neg e, if_neg e]; exact g.text x

theorem drop_good (src : Nat → Nat → T) (rc : Nat → T) (m : Mem T) (v : Texts T) (g : Good src m v) (h : Nat) (hs : (v h).isSome = true) :
    ∃ m', step src rc m (.drop h) = some m' ∧ Good src m' (fun x => if x = h then none else v x) := by
  have hfs := g.found h
  rw [hs] at hfs
  obtain ⟨c, hc⟩ := Option.isSome_iff_exists.1 hfs
  refine ⟨{ dropCow m c with live := forget m.live h }, by simp [step, hc], ?_⟩
  unfold dropCow
  by_cases ho : c.owned = true
  · rw [if_pos ho]
    obtain ⟨t, n, h1, h2, h3⟩ := g.alive h c hc ho
    have hi : decr m c.ptr = { m with heap := fun b => if b = c.ptr then (if n = 1 then none else some (t, n - 1)) else m.heap b } := by unfold decr; rw [h1]
    rw [hi]
    have hr := refs_forget m.live h c g.nodup hc
    have hrc : refs m.live c.ptr = refs (forget m.live h) c.ptr + 1 := by rw [hr]; simp [ho]
    refine ⟨g.ub, forget_nodup _ _ g.nodup, fun b => ?_, fun x => ?_, fun x => ?_⟩
    · show match (if b = c.ptr then (if n = 1 then none else some (t, n - 1)) else m.heap b) with | some (_, k) => k = refs (forget m.live h) b ∧ 1 ≤ k | none => refs (forget m.live h) b = 0
      by_cases e : b = c.ptr
      · subst e
        rw [if_pos rfl]
        by_cases hn : n = 1
        · rw [if_pos hn]; show refs (forget m.live h) c.ptr = 0; omega
        · rw [if_neg hn]; exact ⟨by omega, by omega⟩
      · have : ¬ c.ptr = b := fun k => e k.symm
        have e2 := hr b
        simp only [Bool.and_false, Bool.false_eq_true, if_false, Nat.add_zero, show (c.ptr == b) = false from by simp [this]] at e2
        rw [if_neg e, ← e2]; exact g.heap b
    · show (find (forget m.live h) x).isSome = _
      rw [find_forget]
      by_cases e : x = h
      · rw [if_pos e, if_pos e]; rfl
      · rw [if_neg e, if_neg e, g.found x]
    · show (find (forget m.live h) x).bind (deref src _) = _
      rw [find_forget]
      by_cases e : x = h
      · rw [if_pos e, if_pos e]; rfl
      · rw [if_neg e, if_neg e, ← g.text x]
        unfold view
        cases hx : find m.live x with
        | none => rfl
        | some d =>
          show deref src _ d = deref src m d
          unfold deref
          by_cases hod : d.owned = true
          · rw [if_pos hod, if_pos hod]
            show (if d.ptr = c.ptr then (if n = 1 then none else some (t, n - 1)) else m.heap d.ptr).map Prod.fst = _
            by_cases e2 : d.ptr = c.ptr
            · have hp : 1 ≤ refs (forget m.live h) d.ptr := refs_pos _ x d (by rw [find_forget, if_neg e]; exact hx) hod
              rw [e2] at hp
              have hn : ¬ n = 1 := by omega
              rw [if_pos e2, if_neg hn, e2, h1]; rfl
            · rw [if_neg e2]
          · rw [if_neg hod, if_neg hod]
  · rw [if_neg ho]
    exact forget_good src m v g h c hc (by simpa using ho)

theorem step_good (src : Nat → Nat → T) (rc : Nat → T) (m : Mem T) (v : Texts T) (g : Good src m v) (o : Op T) (hl : Legal v (fun a => (m.heap a).isSome = true) o) :
    ∃ m', step src rc m o = some m' ∧ Good src m' (apply src rc v o) := by
  have free : ∀ a, ¬ (m.heap a).isSome = true → m.heap a = none := fun a h => by simpa using h
  cases o with
  | fromStr h ptr len => exact newStr_good src m v g h ptr len hl.1 hl.2
  | fromString h a t => exact ⟨_, rfl, newString_good src m v g h a t hl.1 (free a hl.2)⟩
  | fromRc h ptr len a =>
    obtain ⟨h1, h2, h3⟩ := hl
    by_cases e : len = maxLen
    · refine ⟨_, by simp only [step]; rw [if_pos e], ?_⟩
      have := newString_good src m v g h a (rc ptr) h1 (free a h2)
      simp only [apply]
      rw [if_pos e]; exact this
    · obtain ⟨m', k1, k2⟩ := newStr_good src m v g h ptr len h1 (by omega)
      refine ⟨m', by simp only [step]; rw [if_neg e]; exact k1, ?_⟩
      simp only [apply]
      rw [if_neg e]; exact k2
  | clone h h' => exact clone_good src rc m v g h h' hl.1 hl.2
  | drop h => exact drop_good src rc m v g h hl
  | intoOwned h a =>
    have hfs := g.found h
    rw [hl.1] at hfs
    obtain ⟨c, hc⟩ := Option.isSome_iff_exists.1 hfs
    by_cases ho : c.owned = true
    · exact ⟨m, by simp [step, hc, ho], g⟩
    · have ho' : c.owned = false := by simpa using ho
      have hd : deref src m c = some (src c.ptr c.lenOrMax) := by unfold deref; rw [if_neg ho]
      refine ⟨newString { m with live := forget m.live h } h a (src c.ptr c.lenOrMax), by simp only [step, hc, ho', if_true, hd], ?_⟩
      have h1 := newString_good src _ _ (forget_good src m v g h c hc ho') h a (src c.ptr c.lenOrMax) (by simp) (free a hl.2)
      have e : (fun x => if x = h then some (src c.ptr c.lenOrMax) else if x = h then none else v x) = v := by
        funext x
        by_cases hx : x = h
        · rw [if_pos hx, hx, ← g.text h]
          unfold view; rw [hc]; exact hd.symm
        · rw [if_neg hx, if_neg hx]
      rw [e] at h1
      exact h1

theorem run_good (src : Nat → Nat → T) (rc : Nat → T) (ops : List (Op T)) : ∀ (m : Mem T) (v : Texts T), Good src m v → LegalRun src rc m v ops → ∃ m', run src rc m ops = some m' ∧ Good src m' (ops.foldl (apply src rc) v) := by
  induction ops with
  | nil => intro m v g _; exact ⟨m, rfl, g⟩
  | cons o os ih =>
    intro m v g hl
    obtain ⟨m', h1, h2⟩ := step_good src rc m v g o hl.1
    obtain ⟨m'', h3, h4⟩ := ih m' _ h2 (hl.2 m' h1)
    exact ⟨m'', by unfold run; rw [h1]; exact h3, h4⟩

theorem start_good (src : Nat → Nat → T) : Good src ({} : Mem T) (fun _ => none) :=
  ⟨rfl, List.nodup_nil, fun _ => rfl, fun _ => rfl, fun _ => rfl⟩

/-- **C170** For every sequence of operations on shared strings (so for every interleaving of threads), whatever addresses the allocator chooses: nothing panics, freed memory is never used, and every string has the text it was made with, as if nothing were shared. -/
theorem C170_texts (src : Nat → Nat → T) (rc : Nat → T) (ops : List (Op T)) (hl : LegalRun src rc {} (fun _ => none) ops) :
    ∃ m, run src rc {} ops = some m ∧ m.ub = false ∧ ∀ h, (find m.live h).bind (deref src m) = texts src rc ops h := by
  obtain ⟨m, h1, g⟩ := run_good src rc ops {} _ (start_good src) hl
  exact ⟨m, h1, g.ub, g.text⟩

/-- **C171** No string is freed while a variable refers to it, and none is kept when no variable does: the memory in use is exactly what the existing variables own; in particular all of it is freed when all variables are dropped. -/
theorem C171_no_leak (src : Nat → Nat → T) (rc : Nat → T) (ops : List (Op T)) (hl : LegalRun src rc {} (fun _ => none) ops) (m : Mem T) (hm : run src rc {} ops = some m) :
    (∀ a, (m.heap a).isSome = true ↔ ∃ x ∈ m.live, x.2.lenOrMax = maxLen ∧ x.2.ptr = a) ∧ ((∀ h, texts src rc ops h = none) → ∀ a, m.heap a = none) := by
  obtain ⟨m', h1, g⟩ := run_good src rc ops {} _ (start_good src) hl
  rw [hm] at h1
  cases h1
  have key : ∀ a, (m.heap a).isSome = true ↔ ∃ x ∈ m.live, x.2.lenOrMax = maxLen ∧ x.2.ptr = a := by
    intro a
    have hg := g.heap a
    have hp : 0 < refs m.live a ↔ ∃ x ∈ m.live, x.2.lenOrMax = maxLen ∧ x.2.ptr = a := by
      unfold refs; rw [List.countP_pos_iff]
      simp [CowStr.owned]
    rw [← hp]
    cases hh : m.heap a with
    | none => rw [hh] at hg; simp only at hg; rw [hg]; simp
    | some x =>
      rw [hh] at hg
      simp only at hg
      simp only [Option.isSome_some, true_iff]; omega
  refine ⟨key, fun hn a => ?_⟩
  cases hh : m.heap a with
  | none => rfl
  | some x =>
    obtain ⟨y, hy, _⟩ := (key a).1 (by rw [hh]; rfl)
    have hfs := g.found y.1
    have : ops.foldl (apply src rc) (fun _ => none) y.1 = none := hn y.1
    rw [this] at hfs
    exact absurd (List.mem_map.2 ⟨y, hy, rfl⟩) (find_not_mem m.live y.1 (by simpa using hfs))

/-- Two strings are equal if and only if their texts are, whether they are borrowed or owned. -/
theorem C170_eq [DecidableEq T] (src : Nat → Nat → T) (rc : Nat → T) (ops : List (Op T)) (hl : LegalRun src rc {} (fun _ => none) ops) (m : Mem T) (hm : run src rc {} ops = some m) (h k : Nat) (c d : CowStr) (hc : find m.live h = some c) (hd : find m.live k = some d) :
    eq src m c d = some (decide (texts src rc ops h = texts src rc ops k)) := by
  obtain ⟨m', h1, g⟩ := run_good src rc ops {} _ (start_good src) hl
  rw [hm] at h1
  cases h1
  have t1 := g.text h
  have t2 := g.text k
  have f1 := g.found h
  have f2 := g.found k
  unfold view at t1 t2
  rw [hc] at t1 f1
  rw [hd] at t2 f2
  have t1 : deref src m c = texts src rc ops h := t1
  have t2 : deref src m d = texts src rc ops k := t2
  have f1 : true = (texts src rc ops h).isSome := f1
  have f2 : true = (texts src rc ops k).isSome := f2
  obtain ⟨x, hx⟩ := Option.isSome_iff_exists.1 f1.symm
  obtain ⟨y, hy⟩ := Option.isSome_iff_exists.1 f2.symm
  unfold eq
  rw [t1, t2, hx, hy]
  simp only [Option.some.injEq]
  rfl

/-- A legal history: a borrowed and an owned string, clones, a conversion, and drops in another order. -/
def sample : List (Op Nat) := [.fromStr 0 100 5, .fromString 1 7 42, .clone 1 2, .clone 0 3, .intoOwned 3 8, .drop 1, .drop 0, .fromRc 4 9 maxLen 10, .drop 2]

example : LegalRun (fun p l => p + l) (fun p => p) {} (fun _ => none) sample ∧ (texts (fun p l => p + l) (fun p => p) sample 3 = some 105 ∧ texts (fun p l => p + l) (fun p => p) sample 2 = none) := by
  refine ⟨?_, by decide, by decide⟩
  simp [sample, LegalRun, Legal, step, newStr, newString, maxLen, find, forget, CowStr.owned, deref, incr, decr, dropCow, apply]

end Verif.Cow
