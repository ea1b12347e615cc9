import Verif.Animation.Handler
import Verif.Transition.HandlerProps
/-! # C135–C137: the animation handler -/
namespace Verif.Animation.Hd
open Verif.Targets Verif.Animation.Hd.Spec
open Verif.Transition (contains inter remove orNone ne_empty_iff inter_has union_has)

/-! ### Prefixes -/

/-- The same browser for the lemmas about prefixes. -/
def agent (b : Agent) : Transition.Spec.Agent := ⟨b.knows, fun _ _ => false⟩

/-- A held set of prefixes, when the browser knows all prefixes of the source. -/
abbrev PrefOk (b : Agent) (p : PrefixSet) : Prop := Transition.PrefOk (agent b) p

theorem takes_of {b : Agent} {p : PrefixSet} (h : PrefOk b p) : b.takes p = true := h.takes

theorem prefOk_inter {b : Agent} {p q : PrefixSet} (hp : PrefOk b p) (hq : p ≠ .empty → PrefOk b q) (h : inter p q ≠ .empty) : PrefOk b (inter p q) :=
  Transition.PrefOk.inter hp (hq hp.ne) h

theorem inter_ne_left {p q : PrefixSet} (h : inter p q ≠ .empty) : p ≠ .empty := by
  obtain ⟨r, hr⟩ := (ne_empty_iff _).1 h
  rw [inter_has, Bool.and_eq_true] at hr
  exact (ne_empty_iff _).2 ⟨r, hr.1⟩

theorem interAll_ok {b : Agent} {p : Field → PrefixSet} (hp : ∀ k, PrefOk b (p k)) (h : interAll p ≠ .empty) : PrefOk b (interAll p) := by
  unfold interAll at *
  have h7 := inter_ne_left h
  have h6 := inter_ne_left h7
  have h5 := inter_ne_left h6
  have h4 := inter_ne_left h5
  have h3 := inter_ne_left h4
  have h2 := inter_ne_left h3
  exact (((((((hp _).inter (hp _) h2).inter (hp _) h3).inter (hp _) h4).inter (hp _) h5).inter (hp _) h6).inter (hp _) h7).inter (hp _) h

theorem interAll_has (p : Field → PrefixSet) (q : Prefix) (h : (interAll p).has q = true) (k : Field) : (p k).has q = true := by
  unfold interAll at h
  simp only [inter_has, Bool.and_eq_true] at h
  obtain ⟨⟨⟨⟨⟨⟨⟨h1, h2⟩, h3⟩, h4⟩, h5⟩, h6⟩, h7⟩, h8⟩ := h
  cases k <;> assumption

/-! ### Rows -/

section
variable {V W R : Type}

theorem mem_order (k : Field) : k ∈ order := by cases k <;> decide

theorem zipRows_cols [Inhabited V] : ∀ (t : List W) (cols : Field → List V), (∀ k, (cols k).length = t.length) →
    (∀ k, (zipRows t cols).map (·.f k) = cols k) ∧ (zipRows t cols).map (·.tl) = t
  | [], cols, h => ⟨fun k => by simp [zipRows, List.length_eq_zero_iff.1 (h k)], rfl⟩
  | t :: ts, cols, h => by
    have hne : ∀ k, cols k ≠ [] := by intro k hk; have := h k; simp [hk] at this
    have hall : (order.all fun k => !(cols k).isEmpty) = true := by
      rw [List.all_eq_true]; intro k _; simp [hne k]
    obtain ⟨ih1, ih2⟩ := zipRows_cols ts (fun k => (cols k).tail) (by intro k; simp [h k])
    simp only [zipRows, hall, if_true, List.map_cons]
    refine ⟨fun k => ?_, by rw [ih2]⟩
    rw [ih1]
    cases hk : cols k with
    | nil => exact absurd hk (hne k)
    | cons a l => rfl

/-! ### The effect of a flush -/

/-- The computed values with what the handler holds. -/
def over (h : Handler V W R) (c : Field → Value V) : Field → Value V := fun k => match h.f k with
  | some (v, _) => .list v
  | none => c k

/-- The computed timeline with what the handler holds. -/
def overTl (h : Handler V W R) (c : Value W) : Value W := match h.tl with
  | some t => .list t
  | none => c

/-- What the handler holds, when the browser knows all prefixes of the source and all lists have items. -/
structure Held (b : Agent) (h : Handler V W R) : Prop where
  f : ∀ k v p, h.f k = some (v, p) → v ≠ [] ∧ PrefOk b p
  tl : ∀ t, h.tl = some t → t ≠ []

theorem computed_append (b : Agent) (c : Computed V W R) (l m : List (Decl V W R)) : computed b c (l ++ m) = computed b (computed b c l) m :=
  List.foldl_append

/-- Longhands in any list. -/
theorem computed_rest (b : Agent) (env : Env W) (f : Field → Option (List V × PrefixSet))
    (ok : ∀ k v p, f k = some (v, p) → v ≠ [] → p ≠ .empty → PrefOk b p) : ∀ (ks : List Field) (c : Computed V W R),
    (∀ k, (computed b c (ks.flatMap (pushRest env f))).f k =
      if k ∈ ks then (match f k with
        | some (v, p) => if p = .empty ∨ v = [] then c.f k else .list v
        | none => c.f k) else c.f k) ∧
    (computed b c (ks.flatMap (pushRest env f))).tl = c.tl ∧ (computed b c (ks.flatMap (pushRest env f))).rs = c.rs ∧
    (computed b c (ks.flatMap (pushRest env f))).re = c.re ∧ (computed b c (ks.flatMap (pushRest env f))).comp = c.comp
  | [], c => by simp [computed]
  | k :: ks, c => by
    rw [List.flatMap_cons, computed_append]
    have one : (computed b c (pushRest env f k)).tl = c.tl ∧ (computed b c (pushRest env f k)).rs = c.rs ∧
        (computed b c (pushRest env f k)).re = c.re ∧ (computed b c (pushRest env f k)).comp = c.comp ∧
        ∀ j, (computed b c (pushRest env f k)).f j = if j = k then (match f k with
          | some (v, p) => if p = .empty ∨ v = [] then c.f k else .list v
          | none => c.f k) else c.f j := by
      unfold pushRest
      cases hf : f k with
      | none => refine ⟨by trivial, by trivial, by trivial, by trivial, fun j => ?_⟩; simp [computed]; intro h; rw [h]
      | some x =>
        obtain ⟨v, p⟩ := x
        by_cases hp : p = .empty
        · simp only [hp, if_true, computed, List.foldl_nil, true_or]
          refine ⟨by trivial, by trivial, by trivial, by trivial, fun j => ?_⟩
          split
          · rename_i h; rw [h]
          · rfl
        · by_cases hv : v = []
          · simp only [hp, if_false, computed, List.foldl_cons, List.foldl_nil, apply, hv, ne_eq, not_true_eq_false, and_false, or_true, if_true]
            refine ⟨by trivial, by trivial, by trivial, by trivial, fun j => ?_⟩
            split
            · rename_i h; rw [h]
            · rfl
          · have ht := takes_of (Transition.PrefOk.prefixes (ok k v p hf hv hp) env.targets k.feature)
            simp [hp, hv, computed, apply, ht]
    obtain ⟨o1, o2, o3, o4, o5⟩ := one
    obtain ⟨r1, r2, r3, r4, r5⟩ := computed_rest b env f ok ks (computed b c (pushRest env f k))
    refine ⟨fun j => ?_, r2.trans o1, r3.trans o2, r4.trans o3, r5.trans o4⟩
    rw [r1 j]
    by_cases hj : j = k
    · subst hj
      have := o5 j
      rw [if_pos rfl] at this
      rw [if_pos (List.mem_cons_self (a := j) (l := ks))]
      by_cases hm : j ∈ ks
      · rw [if_pos hm]
        cases hfj : f j with
        | none => rw [hfj] at this; exact this
        | some x =>
          obtain ⟨v, p⟩ := x
          rw [hfj] at this
          simp only [this]
          split <;> rfl
      · rw [if_neg hm]; exact this
    · rw [o5 j, if_neg hj]
      by_cases hm : j ∈ ks <;> simp [hm, hj]

theorem computed_ranges (b : Agent) (c : Computed V W R) (rs re : Option (List R)) :
    (computed b c (pushRanges rs re)).f = c.f ∧ (computed b c (pushRanges rs re)).tl = c.tl ∧ (computed b c (pushRanges rs re)).comp = c.comp := by
  unfold pushRanges
  split
  · split
    · simp only [computed, List.foldl_cons, List.foldl_nil, apply]; split <;> exact ⟨rfl, rfl, rfl⟩
    · simp only [computed, List.foldl_cons, List.foldl_nil, apply]; split <;> split <;> exact ⟨rfl, rfl, rfl⟩
  · simp only [computed, List.foldl_cons, List.foldl_nil, apply]; split <;> exact ⟨rfl, rfl, rfl⟩
  · simp only [computed, List.foldl_cons, List.foldl_nil, apply]; split <;> exact ⟨rfl, rfl, rfl⟩
  · exact ⟨rfl, rfl, rfl⟩

variable [Inhabited V] [DecidableEq W]

/-- What the shorthand needs. -/
theorem shorthand_some (env : Env W) (h : Handler V W R) (ds : List (Decl V W R)) (i : PrefixSet) (hs : shorthand env h = some (ds, i)) :
    ∃ (cols : Field → List V) (ps : Field → PrefixSet), (∀ k, h.f k = some (cols k, ps k)) ∧ i = interAll ps ∧ i ≠ .empty ∧
      (∀ k, (cols k).length = (timelines env h.tl i (cols .name).length).length) ∧
      ds = .animation ((zipRows (timelines env h.tl i (cols .name).length) cols).map fun r =>
          { r with tl := if separate env (timelines env h.tl i (cols .name).length) i then env.auto else r.tl }) (env.targets.prefixes i .animation) ::
        (if separate env (timelines env h.tl i (cols .name).length) i then [.timeline (timelines env h.tl i (cols .name).length)] else []) := by
  unfold shorthand at hs
  split at hs
  · rename_i hall
    extract_lets cols i' len t sep rows at hs
    split at hs
    · rename_i hc
      obtain ⟨hi, hl, ht⟩ := hc
      simp only [Option.some.injEq, Prod.mk.injEq] at hs
      obtain ⟨h1, h2⟩ := hs
      have h3 : i = i' := h2.symm
      subst h3
      refine ⟨cols, fun k => ((h.f k).getD ([], .empty)).2, ?_, rfl, hi, ?_, h1.symm⟩
      · intro k
        have := (List.all_eq_true.1 hall) k (mem_order k)
        obtain ⟨x, hx⟩ := Option.isSome_iff_exists.1 this
        simp [cols, hx]
      · intro k
        have := (List.all_eq_true.1 hl) k (mem_order k)
        have h2 : (cols k).length = len := by simpa using this
        rw [h2]; exact ht.symm
    · cases hs
  · cases hs

theorem computed_shorthand (b : Agent) (env : Env W) (h : Handler V W R) (hh : Held b h) (ds : List (Decl V W R)) (i : PrefixSet)
    (hs : shorthand env h = some (ds, i)) (c : Computed V W R) :
    (∀ k, (computed b c ds).f k = over h c.f k) ∧
    ((computed b c ds).tl = .list (timelines env h.tl i ((over h (fun _ => (.initial : Value V)) .name |> fun | .list l => l.length | _ => 0)))) ∧
    (computed b c ds).rs = .initial ∧ (computed b c ds).re = .initial ∧ (computed b c ds).comp = .initial := by
  obtain ⟨cols, ps, hf, hi, hne, hlen, rfl⟩ := shorthand_some env h ds i hs
  have hn : (over h (fun _ => (.initial : Value V)) .name |> fun | .list l => l.length | _ => 0) = (cols .name).length := by
    simp [over, hf]
  rw [hn]
  generalize ht : timelines env h.tl i (cols .name).length = t at *
  obtain ⟨z1, z2⟩ := zipRows_cols t cols hlen
  have hpi : PrefOk b i := by rw [hi]; exact interAll_ok (fun k => (hh.f k _ _ (hf k)).2) (by rw [← hi]; exact hne)
  have htk := takes_of (hpi.prefixes env.targets .animation)
  have hcn : cols .name ≠ [] := (hh.f _ _ _ (hf .name)).1
  have htne : t ≠ [] := by
    intro hh; have := hlen .name; rw [hh] at this; exact hcn (List.length_eq_zero_iff.1 this)
  generalize hrows : (zipRows t cols).map (fun r => ({ r with tl := if separate env t i = true then env.auto else r.tl } : Row V W)) = rows
  have hrf : ∀ k, rows.map (·.f k) = cols k := by
    intro k; rw [← hrows, List.map_map]; exact z1 k
  have hrt : rows.map (·.tl) = if separate env t i = true then t.map fun _ => env.auto else t := by
    rw [← hrows, List.map_map]
    split
    · have : (t.map fun _ => env.auto) = ((zipRows t cols).map (·.tl)).map fun _ => env.auto := by rw [z2]
      rw [this, List.map_map]
      rfl
    · exact z2
  have hr : rows ≠ [] := by
    intro hh; have := hrf .name; rw [hh] at this; exact hcn this.symm
  cases hsep : separate env t i with
  | true =>
    simp only [hsep, if_true] at *
    simp only [computed, List.foldl_cons, List.foldl_nil, apply, htk, hr, ne_eq, not_false_eq_true, and_self, if_true, htne, hrf]
    refine ⟨fun k => by simp [over, hf], trivial⟩
  | false =>
    simp only [hsep, Bool.false_eq_true, if_false] at *
    simp only [computed, List.foldl_cons, List.foldl_nil, apply, htk, hr, ne_eq, not_false_eq_true, and_self, if_true, hrf, hrt]
    refine ⟨fun k => by simp [over, hf], trivial⟩

/-- C135, one flush: the eight longhands have the values that are held. -/
theorem flush_f (b : Agent) (env : Env W) (h : Handler V W R) (hh : Held b h) (c : Computed V W R) (k : Field) :
    (computed b c (flush env h)).f k = over h c.f k := by
  unfold flush
  cases hs : shorthand env h with
  | some x =>
    obtain ⟨ds, i⟩ := x
    simp only
    rw [computed_append, computed_append, (computed_ranges b _ h.rs h.re).1]
    rw [(computed_rest b env _ ?_ order _).1 k, if_pos (mem_order k)]
    · have := (computed_shorthand b env h hh ds i hs c).1 k
      cases hk : h.f k with
      | none => simpa using this
      | some y => simpa using this
    · intro k v p hk hv
      exfalso
      cases hf : h.f k with
      | none => rw [hf] at hk; cases hk
      | some y => rw [hf] at hk; cases hk; exact hv rfl
  | none =>
    simp only
    rw [computed_append, computed_append, (computed_ranges b _ h.rs h.re).1]
    have ht : ∀ c : Computed V W R, (computed b c (pushTl h.tl)).f = c.f := by
      intro c
      unfold pushTl
      cases h.tl with
      | none => rfl
      | some t => simp only [computed, List.foldl_cons, List.foldl_nil, apply]; split <;> rfl
    rw [ht, (computed_rest b env h.f (fun k v p hk _ _ => (hh.f k v p hk).2) order c).1 k, if_pos (mem_order k)]
    unfold over
    cases hk : h.f k with
    | none => rfl
    | some y =>
      obtain ⟨v, p⟩ := y
      have := hh.f k v p hk
      simp [this.1, this.2.ne]

/-- The handler would not write a shorthand without a timeline of the source. -/
def TlOk (h : Handler V W R) (k0 : Field) : Prop := h.tl = none → ∀ v p, h.f k0 = some (v, p) → p = Prefix.none.set

/-- One flush: the timeline has the value that is held. -/
theorem flush_tl (b : Agent) (env : Env W) (h : Handler V W R) (hh : Held b h) (k0 : Field) (hk : TlOk h k0) (c : Computed V W R) :
    (computed b c (flush env h)).tl = overTl h c.tl := by
  unfold flush
  cases hs : shorthand env h with
  | some x =>
    obtain ⟨ds, i⟩ := x
    simp only
    rw [computed_append, computed_append, (computed_ranges b _ h.rs h.re).2.1]
    rw [(computed_rest b env _ ?_ order _).2.1]
    · rw [(computed_shorthand b env h hh ds i hs c).2.1]
      unfold overTl
      cases ht : h.tl with
      | some t => rfl
      | none =>
        exfalso
        obtain ⟨cols, ps, hf, hi, hne, hlen, _⟩ := shorthand_some env h ds i hs
        have hp := hk ht _ _ (hf k0)
        have hn : i.none = true := by
          obtain ⟨q, hq⟩ := (ne_empty_iff _).1 hne
          have := interAll_has ps q (by rw [← hi]; exact hq) k0
          rw [hp] at this
          cases q <;> first | exact hq | cases this
        have := hlen .name
        rw [ht] at this
        simp only [timelines, hn, if_true, List.length_nil] at this
        exact (hh.f _ _ _ (hf .name)).1 (List.length_eq_zero_iff.1 this)
    · intro k v p hk hv
      exfalso
      cases hf : h.f k with
      | none => rw [hf] at hk; cases hk
      | some y => rw [hf] at hk; cases hk; exact hv rfl
  | none =>
    simp only
    rw [computed_append, computed_append, (computed_ranges b _ h.rs h.re).2.1]
    have hr := (computed_rest b env h.f (fun k v p hk _ _ => (hh.f k v p hk).2) order c).2.1
    unfold overTl
    cases ht : h.tl with
    | none => exact hr
    | some t => simp [computed, pushTl, apply, hh.tl t ht]

/-! ### All declarations -/

variable [DecidableEq V]

/-- A declaration of the source: one prefix, which the browser knows, and at least one item. -/
def Source (b : Agent) : Decl V W R → Prop
  | .lh _ v p => v ≠ [] ∧ ∃ q, p = Prefix.set q ∧ b.knows q = true
  | .timeline v => v ≠ []
  | .animation v p => v ≠ [] ∧ ∃ q, p = Prefix.set q ∧ b.knows q = true
  | .unparsed .animation _ p => ∃ q, p = Prefix.set q ∧ b.knows q = true
  | .unparsed (.lh _) _ p => ∃ q, p = Prefix.set q ∧ b.knows q = true
  | _ => True

omit [Inhabited V] [DecidableEq W] [DecidableEq V] in
theorem held_empty (b : Agent) : Held b ({} : Handler V W R) := ⟨(by intro k v p h; cases h), (by intro t h; cases h)⟩

/-- The state of the handler stands for the declarations so far, for the eight longhands. -/
def Inv (b : Agent) (s : Handler V W R × List (Decl V W R)) (g : Computed V W R → Field → Value V) : Prop :=
  Held b s.1 ∧ ∀ c, over s.1 (computed b c s.2).f = g c

theorem Inv.maybeFlush {b : Agent} {s : Handler V W R × List (Decl V W R)} {g} (hs : Inv b s g) (env : Env W) (k : Field) (val : List V) (vp : PrefixSet) :
    Inv b (maybeFlush env s k val vp) g := by
  unfold Hd.maybeFlush
  split
  · refine ⟨held_empty b, fun c => ?_⟩
    rw [← hs.2 c]
    funext j
    show (computed b c (s.2 ++ flush env s.1)).f j = _
    rw [computed_append, flush_f b env s.1 hs.1]
  · exact hs

omit [Inhabited V] [DecidableEq W] [DecidableEq V] in
theorem Held.update {b : Agent} {h : Handler V W R} (hh : Held b h) (k : Field) (v : List V) (p : PrefixSet) (hv : v ≠ []) (hp : PrefOk b p) :
    Held b (update h k v p) := by
  refine ⟨?_, hh.tl⟩
  intro j v' p' hj
  simp only [Hd.update] at hj
  split at hj
  · cases hk : h.f k with
    | none => rw [hk] at hj; cases hj; exact ⟨hv, hp⟩
    | some y =>
      obtain ⟨v'', p''⟩ := y
      rw [hk] at hj
      cases hj
      exact ⟨hv, (hh.f k _ _ hk).2.union hp⟩
  · exact hh.f j v' p' hj

omit [Inhabited V] [DecidableEq W] [DecidableEq V] in
theorem over_update (h : Handler V W R) (k : Field) (v : List V) (p : PrefixSet) (c : Field → Value V) :
    over (update h k v p) c = fun j => if j = k then .list v else over h c j := by
  funext j
  simp only [over, Hd.update]
  by_cases hj : j = k
  · simp only [hj, if_true]
    cases h.f k <;> rfl
  · simp only [hj, if_false]

omit [Inhabited V] [DecidableEq W] [DecidableEq V] in
theorem foldl_update (b : Agent) (col : Field → List V) (vp : PrefixSet) (hv : ∀ k, col k ≠ []) (hp : PrefOk b vp) : ∀ (ks : List Field) (h : Handler V W R), Held b h →
    Held b (ks.foldl (fun h k => update h k (col k) vp) h) ∧ (ks.foldl (fun h k => update h k (col k) vp) h).tl = h.tl ∧
    (∀ c j, over (ks.foldl (fun h k => update h k (col k) vp) h) c j = if j ∈ ks then .list (col j) else over h c j)
  | [], h, hh => ⟨hh, rfl, fun c j => by simp⟩
  | k :: ks, h, hh => by
    obtain ⟨h1, h2, h3⟩ := foldl_update b col vp hv hp ks (update h k (col k) vp) (hh.update k _ _ (hv k) hp)
    refine ⟨h1, h2, fun c j => ?_⟩
    rw [List.foldl_cons, h3, over_update]
    by_cases hj : j ∈ ks
    · simp [hj]
    · by_cases hk : j = k
      · simp [hk]
      · simp [hj, hk]

theorem Inv.foldFlush {b : Agent} {g} (env : Env W) (col : Field → List V) (vp : PrefixSet) : ∀ (ks : List Field) (s : Handler V W R × List (Decl V W R)), Inv b s g →
    Inv b (ks.foldl (fun s k => Hd.maybeFlush env s k (col k) vp) s) g
  | [], _, hs => hs
  | k :: ks, _, hs => Inv.foldFlush env col vp ks _ (hs.maybeFlush env k (col k) vp)

theorem set_takes {b : Agent} {q : Prefix} (h : b.knows q = true) : b.takes q.set = true := takes_of (Transition.PrefOk.single (b := agent b) h)

theorem Inv.handle {b : Agent} {s : Handler V W R × List (Decl V W R)} {g : Computed V W R → Computed V W R} (env : Env W) (hs : Inv b s fun c => (g c).f)
    (d : Decl V W R) (hd : Source b d) : Inv b (handle env s d) fun c => (apply b (g c) d).f := by
  cases d with
  | lh k v p =>
    obtain ⟨hv, q, rfl, hq⟩ := hd
    have hm := hs.maybeFlush env k v q.set
    refine ⟨hm.1.update k v _ hv (.single hq), fun c => ?_⟩
    simp only [Hd.handle, over_update, apply, set_takes hq, hv, ne_eq, not_false_eq_true, and_self, if_true]
    have := hm.2 c
    simp only [this]
  | timeline v =>
    refine ⟨⟨hs.1.f, by intro t ht; cases ht; exact hd⟩, fun c => ?_⟩
    simp only [apply]
    split <;> exact hs.2 c
  | rangeStart v =>
    refine ⟨⟨hs.1.f, hs.1.tl⟩, fun c => ?_⟩
    simp only [apply]
    split <;> exact hs.2 c
  | rangeEnd v =>
    refine ⟨⟨hs.1.f, hs.1.tl⟩, fun c => ?_⟩
    simp only [apply]
    split <;> exact hs.2 c
  | range v =>
    refine ⟨⟨hs.1.f, hs.1.tl⟩, fun c => ?_⟩
    simp only [apply]
    split <;> exact hs.2 c
  | composition v =>
    refine ⟨hs.1, fun c => ?_⟩
    simp only [Hd.handle, computed_append]
    exact hs.2 c
  | animation v p =>
    obtain ⟨hv, q, rfl, hq⟩ := hd
    have hm := Inv.foldFlush env (fun k => v.map (·.f k)) q.set order s hs
    simp only [Hd.handle]
    generalize order.foldl (fun s k => Hd.maybeFlush env s k (v.map (·.f k)) q.set) s = s1 at *
    obtain ⟨u1, u2, u3⟩ := foldl_update b (fun k => v.map (·.f k)) q.set (by simp [hv]) (.single hq) order
      ({ s1.1 with tl := some (v.map (·.tl)) } : Handler V W R) ⟨hm.1.f, by intro t ht; cases ht; simp [hv]⟩
    refine ⟨⟨u1.f, u1.tl⟩, fun c => ?_⟩
    simp only [apply, set_takes hq, hv, ne_eq, not_false_eq_true, and_self, if_true]
    funext j
    have := u3 (computed b c s1.2).f j
    rw [if_pos (mem_order j)] at this
    exact this
  | unparsed id t p =>
    have hfl : ∀ h : Handler V W R, h.f = s.1.f → h.tl = s.1.tl → ∀ c k, (computed b c (s.2 ++ flush env h)).f k = (g c).f k := by
      intro h h1 h2 c k
      rw [computed_append, flush_f b env h ⟨by rw [h1]; exact hs.1.f, by rw [h2]; exact hs.1.tl⟩]
      have := congrFun (hs.2 c) k
      simp only [over, h1] at this ⊢
      exact this
    refine ⟨held_empty b, fun c => ?_⟩
    funext j
    cases id with
    | animation =>
      obtain ⟨q, rfl, hq⟩ := hd
      have ht := takes_of (Transition.PrefOk.prefixes (t := env.targets) (f := .animation) (Transition.PrefOk.single (b := agent b) hq))
      have ho : orNone q.set = q.set := by cases q <;> rfl
      simp only [Hd.handle, apply, computed_append _ _ (s.2 ++ _), ho, set_takes hq, if_true]
      simp [over, computed, apply, ht]
    | lh k =>
      obtain ⟨q, rfl, hq⟩ := hd
      have ht := takes_of (Transition.PrefOk.prefixes (t := env.targets) (f := .animation) (Transition.PrefOk.single (b := agent b) hq))
      have ho : orNone q.set = q.set := by cases q <;> rfl
      have := hfl s.1 rfl rfl c j
      simp only [Hd.handle, apply, computed_append _ _ (s.2 ++ _), ho, set_takes hq, if_true]
      rw [← this]
      simp [over, computed, apply, ht]
    | timeline => exact (by simp only [Hd.handle, computed_append _ _ (s.2 ++ _)]; exact hfl s.1 rfl rfl c j)
    | range => exact (by simp only [Hd.handle, computed_append _ _ (s.2 ++ _)]; exact hfl s.1 rfl rfl c j)
    | rangeStart => exact (by simp only [Hd.handle, computed_append _ _ (s.2 ++ _)]; exact hfl s.1 rfl rfl c j)
    | rangeEnd => exact (by simp only [Hd.handle, computed_append _ _ (s.2 ++ _)]; exact hfl s.1 rfl rfl c j)
    | composition => exact (by simp only [Hd.handle, computed_append _ _ (s.2 ++ _)]; exact hfl s.1 rfl rfl c j)

/-- C135 (part): whatever animation shorthands, longhands and unresolved values a block has, in whatever order and with whatever prefixes, the eight longhands have the same computed values before and after, in every browser that knows the prefixes of the source. Missing: browsers that know only some of the prefixes. -/
theorem C135_longhands_partial (env : Env W) (b : Agent) (ds : List (Decl V W R)) (hd : ∀ d ∈ ds, Source b d) (c : Computed V W R) (k : Field) :
    (computed b c (run env ds)).f k = (computed b c ds).f k := by
  have key : ∀ (ds : List (Decl V W R)) (s : Handler V W R × List (Decl V W R)) (g : Computed V W R → Computed V W R), (∀ d ∈ ds, Source b d) →
      (Inv b s fun c => (g c).f) → Inv b (ds.foldl (handle env) s) fun c => (computed b (g c) ds).f := by
    intro ds
    induction ds with
    | nil => intro s g _ hs; exact hs
    | cons d ds ih =>
      intro s g hd hs
      exact ih _ (fun c => apply b (g c) d) (fun d' h' => hd d' (by simp [h'])) (hs.handle env d (hd d (by simp)))
  have := key ds ({}, []) id hd ⟨held_empty b, fun c => rfl⟩
  unfold run
  rw [computed_append, flush_f b env _ this.1, this.2 c]
  rfl

end
end Verif.Animation.Hd
