import Verif.Animation.HandlerProps
/-! # C135–C139: timelines, ranges, composition, and where it fails -/
namespace Verif.Animation.Hd
open Verif.Targets Verif.Animation.Hd.Spec
open Verif.Transition (contains inter remove orNone ne_empty_iff inter_has union_has)

section
variable {V W R : Type} [Inhabited V] [DecidableEq W] [DecidableEq V]

/-! ### Timelines -/

/-- The longhand `k0` is declared only without a prefix. -/
def Plain (k0 : Field) : Decl V W R → Prop
  | .lh k _ p => k = k0 → p = Prefix.none.set
  | _ => True

/-- The state of the handler stands for the declarations so far, for the timeline. -/
structure InvT (b : Agent) (k0 : Field) (s : Handler V W R × List (Decl V W R)) (g : Computed V W R → Value W) : Prop where
  held : Held b s.1
  ok : TlOk s.1 k0
  val : ∀ c, overTl s.1 (computed b c s.2).tl = g c

omit [Inhabited V] [DecidableEq W] [DecidableEq V] in
theorem tlOk_empty (k0 : Field) : TlOk ({} : Handler V W R) k0 := by intro _ v p h; cases h

theorem InvT.maybeFlush {b : Agent} {k0 : Field} {s : Handler V W R × List (Decl V W R)} {g} (hs : InvT b k0 s g) (env : Env W) (k : Field) (val : List V)
    (vp : PrefixSet) : InvT b k0 (Hd.maybeFlush env s k val vp) g := by
  unfold Hd.maybeFlush
  split
  · refine ⟨held_empty b, tlOk_empty k0, fun c => ?_⟩
    rw [← hs.val c]
    show (computed b c (s.2 ++ flush env s.1)).tl = _
    rw [computed_append, flush_tl b env s.1 hs.held k0 hs.ok]
  · exact hs

theorem InvT.foldFlush {b : Agent} {k0 : Field} {g} (env : Env W) (col : Field → List V) (vp : PrefixSet) : ∀ (ks : List Field) (s : Handler V W R × List (Decl V W R)),
    InvT b k0 s g → InvT b k0 (ks.foldl (fun s k => Hd.maybeFlush env s k (col k) vp) s) g
  | [], _, hs => hs
  | k :: ks, _, hs => InvT.foldFlush env col vp ks _ (hs.maybeFlush env k (col k) vp)

omit [Inhabited V] [DecidableEq W] [DecidableEq V] in
theorem TlOk.update {h : Handler V W R} {k0 : Field} (hk : TlOk h k0) (k : Field) (v : List V) (p : PrefixSet) (hp : k = k0 → p = Prefix.none.set) :
    TlOk (Hd.update h k v p) k0 := by
  intro ht v' p' hj
  simp only [Hd.update] at hj ht
  split at hj
  · rename_i hkk
    cases hf : h.f k with
    | none => rw [hf] at hj; cases hj; exact hp hkk.symm
    | some y =>
      obtain ⟨v'', p''⟩ := y
      rw [hf] at hj
      cases hj
      rw [hk ht v'' p'' (by rw [hkk]; exact hf), hp hkk.symm]
      rfl
  · exact hk ht v' p' hj

theorem InvT.handle {b : Agent} {k0 : Field} {s : Handler V W R × List (Decl V W R)} {g : Computed V W R → Computed V W R} (env : Env W)
    (hs : InvT b k0 s fun c => (g c).tl) (d : Decl V W R) (hd : Source b d) (hp : Plain k0 d) :
    InvT b k0 (handle env s d) fun c => (apply b (g c) d).tl := by
  cases d with
  | lh k v p =>
    have hpl := hp
    obtain ⟨hv, q, rfl, hq⟩ := hd
    have hm := hs.maybeFlush env k v q.set
    refine ⟨hm.held.update k v _ hv (.single hq), hm.ok.update k v _ hpl, fun c => ?_⟩
    simp only [Hd.handle, apply, set_takes hq, hv, ne_eq, not_false_eq_true, and_self, if_true]
    exact hm.val c
  | timeline v =>
    have hv : v ≠ [] := hd
    refine ⟨⟨hs.held.f, (by intro t ht; cases ht; exact hd)⟩, (by intro ht; cases ht), fun c => ?_⟩
    simp only [apply, if_pos hv]
    rfl
  | rangeStart v =>
    refine ⟨⟨hs.held.f, hs.held.tl⟩, hs.ok, fun c => ?_⟩
    simp only [apply]
    split <;> exact hs.val c
  | rangeEnd v =>
    refine ⟨⟨hs.held.f, hs.held.tl⟩, hs.ok, fun c => ?_⟩
    simp only [apply]
    split <;> exact hs.val c
  | range v =>
    refine ⟨⟨hs.held.f, hs.held.tl⟩, hs.ok, fun c => ?_⟩
    simp only [apply]
    split <;> exact hs.val c
  | composition v =>
    refine ⟨hs.held, hs.ok, fun c => ?_⟩
    simp only [Hd.handle, computed_append]
    exact hs.val c
  | animation v p =>
    obtain ⟨hv, q, rfl, hq⟩ := hd
    have hm := InvT.foldFlush env (fun k => v.map (·.f k)) q.set order s hs
    simp only [Hd.handle]
    generalize order.foldl (fun s k => Hd.maybeFlush env s k (v.map (·.f k)) q.set) s = s1 at *
    obtain ⟨u1, u2, u3⟩ := foldl_update b (fun k => v.map (·.f k)) q.set (by simp [hv]) (.single hq) order
      ({ s1.1 with tl := some (v.map (·.tl)) } : Handler V W R) ⟨hm.held.f, (by intro t ht; cases ht; simp [hv])⟩
    refine ⟨⟨u1.f, u1.tl⟩, (by intro ht; simp only [u2] at ht; cases ht), fun c => ?_⟩
    simp only [apply, set_takes hq, hv, ne_eq, not_false_eq_true, and_self, if_true]
    simp only [overTl, u2]
  | unparsed id t p =>
    have hfl : ∀ h : Handler V W R, h.f = s.1.f → h.tl = s.1.tl → ∀ c, (computed b c (s.2 ++ flush env h)).tl = (g c).tl := by
      intro h h1 h2 c
      rw [computed_append, flush_tl b env h ⟨by rw [h1]; exact hs.held.f, by rw [h2]; exact hs.held.tl⟩ k0 (by unfold TlOk; rw [h1, h2]; exact hs.ok)]
      have := hs.val c
      simp only [overTl, h2] at this ⊢
      exact this
    refine ⟨held_empty b, tlOk_empty k0, fun c => ?_⟩
    cases id with
    | animation =>
      obtain ⟨q, rfl, hq⟩ := hd
      have ht := takes_of (Transition.PrefOk.prefixes (t := env.targets) (f := .animation) (Transition.PrefOk.single (b := agent b) hq))
      have ho : orNone q.set = q.set := by cases q <;> rfl
      simp only [Hd.handle, apply, computed_append _ _ (s.2 ++ _), ho, set_takes hq, if_true]
      simp [overTl, computed, apply, ht]
    | lh k =>
      obtain ⟨q, rfl, hq⟩ := hd
      have ht := takes_of (Transition.PrefOk.prefixes (t := env.targets) (f := .animation) (Transition.PrefOk.single (b := agent b) hq))
      have ho : orNone q.set = q.set := by cases q <;> rfl
      have := hfl s.1 rfl rfl c
      simp only [Hd.handle, apply, computed_append _ _ (s.2 ++ _), ho, set_takes hq, if_true]
      rw [← this]
      simp [overTl, computed, apply, ht]
    | timeline => simp only [Hd.handle, computed_append _ _ (s.2 ++ _)]; rfl
    | range => simp only [Hd.handle, computed_append _ _ (s.2 ++ _)]; exact hfl s.1 rfl rfl c
    | rangeStart => simp only [Hd.handle, computed_append _ _ (s.2 ++ _)]; exact hfl s.1 rfl rfl c
    | rangeEnd => simp only [Hd.handle, computed_append _ _ (s.2 ++ _)]; exact hfl s.1 rfl rfl c
    | composition => simp only [Hd.handle, computed_append _ _ (s.2 ++ _)]; exact hfl s.1 rfl rfl c

/-- C136 (part): the timeline has the same computed value before and after, in every browser that knows the prefixes of the source. Missing: blocks in which every one of the eight longhands is declared with a vendor prefix (`C136_prefixed_fails`), and browsers that know only some of the prefixes. -/
theorem C136_timeline_partial (env : Env W) (b : Agent) (ds : List (Decl V W R)) (hd : ∀ d ∈ ds, Source b d) (k0 : Field) (hk : ∀ d ∈ ds, Plain k0 d)
    (c : Computed V W R) : (computed b c (run env ds)).tl = (computed b c ds).tl := by
  have key : ∀ (ds : List (Decl V W R)) (s : Handler V W R × List (Decl V W R)) (g : Computed V W R → Computed V W R), (∀ d ∈ ds, Source b d) →
      (∀ d ∈ ds, Plain k0 d) → (InvT b k0 s fun c => (g c).tl) → InvT b k0 (ds.foldl (handle env) s) fun c => (computed b (g c) ds).tl := by
    intro ds
    induction ds with
    | nil => intro s g _ _ hs; exact hs
    | cons d ds ih =>
      intro s g hd hk hs
      exact ih _ (fun c => apply b (g c) d) (fun d' h' => hd d' (by simp [h'])) (fun d' h' => hk d' (by simp [h'])) (hs.handle env d (hd d (by simp)) (hk d (by simp)))
  have := key ds ({}, []) id hd hk ⟨held_empty b, tlOk_empty k0, fun c => rfl⟩
  unfold run
  rw [computed_append, flush_tl b env _ this.held k0 this.ok, this.val c]
  rfl

/-! ### Ranges and composition -/

/-- A parsed declaration with the prefix `q`. -/
def Uniform (q : Prefix) : Decl V W R → Prop
  | .lh _ v p => v ≠ [] ∧ p = Prefix.set q
  | .timeline v => v ≠ []
  | .rangeStart v => v ≠ []
  | .rangeEnd v => v ≠ []
  | .range v => v ≠ []
  | .composition _ => True
  | .animation v p => v ≠ [] ∧ p = Prefix.set q
  | .unparsed _ _ _ => False

/-- The value of a held range. -/
def overR (r : Option (List R)) (d : Value R) : Value R := match r with
  | some v => .list v
  | none => d

omit [Inhabited V] [DecidableEq W] [DecidableEq V] in
theorem computed_ranges_val (b : Agent) (c : Computed V W R) (rs re : Option (List R)) (h1 : ∀ v, rs = some v → v ≠ []) (h2 : ∀ v, re = some v → v ≠ []) :
    (computed b c (pushRanges rs re)).rs = overR rs c.rs ∧
    (computed b c (pushRanges rs re)).re = overR re c.re := by
  unfold pushRanges
  cases rs with
  | none => cases re with
    | none => exact ⟨rfl, rfl⟩
    | some e => simp [computed, apply, h2 e rfl, overR]
  | some s => cases re with
    | none => simp [computed, apply, h1 s rfl, overR]
    | some e =>
      simp only
      split
      · rename_i hl
        have hz : s.zip e ≠ [] := by
          have h1' := h1 s rfl
          intro hz
          have := congrArg List.length hz
          rw [List.length_zip, ← hl, Nat.min_self] at this
          exact h1' (List.length_eq_zero_iff.1 this)
        simp only [computed, List.foldl_cons, List.foldl_nil, apply, if_pos hz]
        refine ⟨?_, ?_⟩
        · rw [show (s.zip e).map (·.1) = s from by rw [List.map_fst_zip]; omega]; rfl
        · rw [show (s.zip e).map (·.2) = e from by rw [List.map_snd_zip]; omega]; rfl
      · simp [computed, apply, h1 s rfl, h2 e rfl, overR]


/-- All longhands that are held have the prefix `q`, and all ranges have items. -/
structure UHeld (q : Prefix) (h : Handler V W R) : Prop where
  f : ∀ k v p, h.f k = some (v, p) → v ≠ [] ∧ p = q.set
  tl : ∀ t, h.tl = some t → t ≠ []
  rs : ∀ v, h.rs = some v → v ≠ []
  re : ∀ v, h.re = some v → v ≠ []

theorem maybeFlush_uniform {q : Prefix} {s : Handler V W R × List (Decl V W R)} (hs : UHeld q s.1) (env : Env W) (k : Field) (v : List V) :
    maybeFlush env s k v q.set = s := by
  unfold maybeFlush conflict
  cases hf : s.1.f k with
  | none => rfl
  | some y =>
    obtain ⟨v', p'⟩ := y
    have := (hs.f k v' p' hf).2
    subst this
    have hc : contains q.set q.set = true := by cases q <;> rfl
    simp [hc]

theorem foldFlush_uniform {q : Prefix} (env : Env W) (col : Field → List V) : ∀ (ks : List Field) (s : Handler V W R × List (Decl V W R)), UHeld q s.1 →
    ks.foldl (fun s k => maybeFlush env s k (col k) q.set) s = s
  | [], _, _ => rfl
  | k :: ks, s, hs => by rw [List.foldl_cons, maybeFlush_uniform hs]; exact foldFlush_uniform env col ks s hs

omit [Inhabited V] [DecidableEq W] [DecidableEq V] in
theorem UHeld.update {q : Prefix} {h : Handler V W R} (hh : UHeld q h) (k : Field) (v : List V) (hv : v ≠ []) : UHeld q (Hd.update h k v q.set) := by
  refine ⟨?_, hh.tl, hh.rs, hh.re⟩
  intro j v' p' hj
  simp only [Hd.update] at hj
  split at hj
  · cases hk : h.f k with
    | none => rw [hk] at hj; cases hj; exact ⟨hv, rfl⟩
    | some y =>
      obtain ⟨v'', p''⟩ := y
      rw [hk] at hj
      cases hj
      rw [(hh.f k _ _ hk).2]
      exact ⟨hv, by cases q <;> rfl⟩
  · exact hh.f j v' p' hj

omit [Inhabited V] [DecidableEq W] [DecidableEq V] in
theorem UHeld.fold {q : Prefix} (col : Field → List V) (hv : ∀ k, col k ≠ []) : ∀ (ks : List Field) (h : Handler V W R), UHeld q h →
    UHeld q (ks.foldl (fun h k => Hd.update h k (col k) q.set) h) ∧ (ks.foldl (fun h k => Hd.update h k (col k) q.set) h).tl = h.tl
  | [], _, hh => ⟨hh, rfl⟩
  | k :: ks, _, hh => UHeld.fold col hv ks _ (hh.update k (col k) (hv k))

/-- The state of the handler stands for the declarations so far, for the ranges. -/
structure InvR (b : Agent) (q : Prefix) (s : Handler V W R × List (Decl V W R)) (g : Computed V W R → Computed V W R) : Prop where
  held : UHeld q s.1
  out : ∀ c, (computed b c s.2).rs = c.rs ∧ (computed b c s.2).re = c.re
  val : ∀ c, c.rs = .initial → c.re = .initial → (g c).rs = overR s.1.rs .initial ∧ (g c).re = overR s.1.re .initial

theorem InvR.handle {b : Agent} {q : Prefix} (hq : b.knows q = true) {s : Handler V W R × List (Decl V W R)} {g : Computed V W R → Computed V W R} (env : Env W)
    (hs : InvR b q s g) (d : Decl V W R) (hd : Uniform q d) : InvR b q (handle env s d) fun c => apply b (g c) d := by
  cases d with
  | lh k v p =>
    obtain ⟨hv, rfl⟩ := hd
    simp only [Hd.handle, maybeFlush_uniform hs.held]
    refine ⟨hs.held.update k v hv, hs.out, fun c h1 h2 => ?_⟩
    simp only [apply, set_takes hq, hv, ne_eq, not_false_eq_true, and_self, if_true]
    exact hs.val c h1 h2
  | timeline v =>
    have hv : v ≠ [] := hd
    refine ⟨⟨hs.held.f, (by intro t ht; cases ht; exact hv), hs.held.rs, hs.held.re⟩, hs.out, fun c h1 h2 => ?_⟩
    simp only [apply, if_pos hv]
    exact hs.val c h1 h2
  | rangeStart v =>
    have hv : v ≠ [] := hd
    refine ⟨⟨hs.held.f, hs.held.tl, (by intro t ht; cases ht; exact hv), hs.held.re⟩, hs.out, fun c h1 h2 => ?_⟩
    simp only [apply, if_pos hv]
    exact ⟨rfl, (hs.val c h1 h2).2⟩
  | rangeEnd v =>
    have hv : v ≠ [] := hd
    refine ⟨⟨hs.held.f, hs.held.tl, hs.held.rs, (by intro t ht; cases ht; exact hv)⟩, hs.out, fun c h1 h2 => ?_⟩
    simp only [apply, if_pos hv]
    exact ⟨(hs.val c h1 h2).1, rfl⟩
  | range v =>
    have hv : v ≠ [] := hd
    refine ⟨⟨hs.held.f, hs.held.tl, (by intro t ht; cases ht; simp [hv]), (by intro t ht; cases ht; simp [hv])⟩, hs.out, fun c h1 h2 => ?_⟩
    simp only [apply, if_pos hv]
    exact ⟨rfl, rfl⟩
  | composition v =>
    refine ⟨hs.held, fun c => ?_, hs.val⟩
    simp only [Hd.handle, computed_append]
    exact hs.out c
  | animation v p =>
    obtain ⟨hv, rfl⟩ := hd
    simp only [Hd.handle]
    rw [foldFlush_uniform env (fun k => v.map (·.f k)) order s hs.held]
    obtain ⟨u1, _⟩ := UHeld.fold (q := q) (fun k => v.map (·.f k)) (by simp [hv]) order ({ s.1 with tl := some (v.map (·.tl)) } : Handler V W R)
      ⟨hs.held.f, (by intro t ht; cases ht; simp [hv]), hs.held.rs, hs.held.re⟩
    refine ⟨⟨u1.f, u1.tl, (by intro t ht; cases ht), (by intro t ht; cases ht)⟩, hs.out, fun c h1 h2 => ?_⟩
    simp only [apply, set_takes hq, hv, ne_eq, not_false_eq_true, and_self, if_true]
    rfl
  | unparsed id t p => exact absurd hd (by intro h; exact h)

/-- C137 (part): if all declarations of the block are parsed and written with the same prefix, and no other rule sets the ranges, the ranges have the same computed values before and after. Missing: ranges of other rules, and blocks that mix prefixes or have `var()` (`C137_lost_reset_fails`, `C137_new_reset_fails`). -/
theorem C137_ranges_partial (env : Env W) (b : Agent) (q : Prefix) (hq : b.knows q = true) (ds : List (Decl V W R)) (hd : ∀ d ∈ ds, Uniform q d)
    (c : Computed V W R) (h1 : c.rs = .initial) (h2 : c.re = .initial) :
    (computed b c (run env ds)).rs = (computed b c ds).rs ∧ (computed b c (run env ds)).re = (computed b c ds).re := by
  have key : ∀ (ds : List (Decl V W R)) (s : Handler V W R × List (Decl V W R)) (g : Computed V W R → Computed V W R), (∀ d ∈ ds, Uniform q d) →
      InvR b q s g → InvR b q (ds.foldl (handle env) s) fun c => computed b (g c) ds := by
    intro ds
    induction ds with
    | nil => intro s g _ hs; exact hs
    | cons d ds ih =>
      intro s g hd hs
      exact ih _ (fun c => apply b (g c) d) (fun d' h' => hd d' (by simp [h'])) (hs.handle hq env d (hd d (by simp)))
  have hs := key ds ({}, []) id hd ⟨⟨(by intro k v p h; cases h), (by intro t h; cases h), (by intro t h; cases h), (by intro t h; cases h)⟩,
    fun c => ⟨rfl, rfl⟩, fun c h1 h2 => ⟨h1, h2⟩⟩
  unfold run
  simp only
  generalize ds.foldl (handle env) ({}, []) = s at *
  have hh : Held b s.1 := ⟨fun k v p hk => ⟨(hs.held.f k v p hk).1, by rw [(hs.held.f k v p hk).2]; exact .single hq⟩, hs.held.tl⟩
  have hv := hs.val c h1 h2
  simp only [id] at hv
  rw [hv.1, hv.2, computed_append]
  obtain ⟨o1, o2⟩ := hs.out c
  rw [h1] at o1
  rw [h2] at o2
  generalize computed b c s.2 = c' at *
  unfold flush
  cases hsh : shorthand env s.1 with
  | some x =>
    obtain ⟨dd, i⟩ := x
    simp only
    rw [computed_append, computed_append]
    obtain ⟨_, _, k3, k4, _⟩ := computed_shorthand b env s.1 hh dd i hsh c'
    obtain ⟨_, _, r3, r4, _⟩ := computed_rest b env (fun k => (s.1.f k).map fun x => (([] : List V), remove x.2 i)) (by
      intro k v p hk hv
      exfalso
      cases hf : s.1.f k with
      | none => rw [hf] at hk; cases hk
      | some y => rw [hf] at hk; cases hk; exact hv rfl) order (computed b c' dd)
    obtain ⟨t1, t2⟩ := computed_ranges_val b (computed b (computed b c' dd) (order.flatMap (pushRest env fun k => (s.1.f k).map fun x => (([] : List V), remove x.2 i))))
      s.1.rs s.1.re hs.held.rs hs.held.re
    rw [t1, t2, r3, r4, k3, k4]
    exact ⟨rfl, rfl⟩
  | none =>
    simp only
    rw [computed_append, computed_append]
    obtain ⟨_, _, r3, r4, _⟩ := computed_rest b env s.1.f (fun k v p hk _ _ => (hh.f k v p hk).2) order c'
    have ht : ∀ c : Computed V W R, (computed b c (pushTl s.1.tl)).rs = c.rs ∧ (computed b c (pushTl s.1.tl)).re = c.re := by
      intro c
      unfold pushTl
      cases s.1.tl with
      | none => exact ⟨rfl, rfl⟩
      | some t => simp only [computed, List.foldl_cons, List.foldl_nil, apply]; split <;> exact ⟨rfl, rfl⟩
    obtain ⟨t1, t2⟩ := computed_ranges_val b (computed b (computed b c' (order.flatMap (pushRest env s.1.f))) (pushTl s.1.tl)) s.1.rs s.1.re hs.held.rs hs.held.re
    rw [t1, t2, (ht _).1, (ht _).2, r3, r4, o1, o2]
    exact ⟨rfl, rfl⟩

/-! ### Composition -/

/-- The block has no `animation` shorthand and no `k0`. -/
def NoShort (k0 : Field) : Decl V W R → Prop
  | .animation _ _ => False
  | .unparsed .animation _ _ => False
  | .lh k _ _ => k ≠ k0
  | _ => True

/-- A declaration that leaves the composition alone. -/
def KeepsComp : Decl V W R → Prop
  | .lh _ _ _ => True
  | .timeline _ => True
  | .rangeStart _ => True
  | .rangeEnd _ => True
  | .range _ => True
  | _ => False

omit [Inhabited V] [DecidableEq W] [DecidableEq V] in
theorem computed_comp (b : Agent) : ∀ (l : List (Decl V W R)) (c : Computed V W R), (∀ d ∈ l, KeepsComp d) → (computed b c l).comp = c.comp
  | [], _, _ => rfl
  | d :: l, c, h => by
    have hd := h d (by simp)
    have := computed_comp b l (apply b c d) (fun d' h' => h d' (by simp [h']))
    show (computed b (apply b c d) l).comp = c.comp
    rw [this]
    cases d with
    | lh k v p => simp only [apply]; split <;> rfl
    | timeline v => simp only [apply]; split <;> rfl
    | rangeStart v => simp only [apply]; split <;> rfl
    | rangeEnd v => simp only [apply]; split <;> rfl
    | range v => simp only [apply]; split <;> rfl
    | composition v => exact absurd hd (by intro h; exact h)
    | animation v p => exact absurd hd (by intro h; exact h)
    | unparsed id t p => exact absurd hd (by intro h; exact h)

omit [DecidableEq V] in
theorem flush_keeps (env : Env W) (h : Handler V W R) (k0 : Field) (h0 : h.f k0 = none) : ∀ d ∈ flush env h, KeepsComp d := by
  have hs : shorthand env h = none := by
    unfold shorthand
    rw [if_neg]
    intro hall
    have := (List.all_eq_true.1 hall) k0 (mem_order k0)
    rw [h0] at this
    cases this
  intro d hd
  unfold flush at hd
  rw [hs] at hd
  simp only [List.mem_append, List.mem_flatMap] at hd
  rcases hd with (⟨k, _, hk⟩ | hd) | hd
  · unfold pushRest at hk
    split at hk
    · split at hk
      · cases hk
      · simp at hk; subst hk; trivial
    · cases hk
  · unfold pushTl at hd
    split at hd
    · simp at hd; subst hd; trivial
    · cases hd
  · unfold pushRanges at hd
    split at hd
    · split at hd
      · simp at hd; subst hd; trivial
      · simp at hd; rcases hd with rfl | rfl <;> trivial
    · simp at hd; subst hd; trivial
    · simp at hd; subst hd; trivial
    · cases hd

/-- C138 (part): `animation-composition` keeps its value in every browser, if the block has neither the `animation` shorthand nor all of its eight longhands. Missing: otherwise the shorthand that is written after it resets it (`C138_shorthand_fails`). -/
theorem C138_composition_partial (env : Env W) (b : Agent) (ds : List (Decl V W R)) (k0 : Field) (hd : ∀ d ∈ ds, NoShort k0 d) (c : Computed V W R) :
    (computed b c (run env ds)).comp = (computed b c ds).comp := by
  have fl : ∀ (h : Handler V W R), h.f k0 = none → ∀ c : Computed V W R, (computed b c (flush env h)).comp = c.comp :=
    fun h h0 c => computed_comp b _ c (flush_keeps env h k0 h0)
  have key : ∀ (ds : List (Decl V W R)) (s : Handler V W R × List (Decl V W R)) (c1 : Computed V W R), (∀ d ∈ ds, NoShort k0 d) →
      s.1.f k0 = none → (computed b c s.2).comp = c1.comp →
      (ds.foldl (handle env) s).1.f k0 = none ∧ (computed b c (ds.foldl (handle env) s).2).comp = (computed b c1 ds).comp := by
    intro ds
    induction ds with
    | nil => intro s c1 _ h0 hs; exact ⟨h0, hs⟩
    | cons d ds ih =>
      intro s c1 hd h0 hs
      have step : (handle env s d).1.f k0 = none ∧ (computed b c (handle env s d).2).comp = (apply b c1 d).comp := by
        have h1 := hd d (by simp)
        cases d with
        | lh k v p =>
          have hk : k ≠ k0 := h1
          have ha : (apply b c1 (.lh k v p)).comp = c1.comp := by simp only [apply]; split <;> rfl
          rw [ha]
          simp only [Hd.handle, Hd.maybeFlush, Hd.update]
          rw [if_neg (fun h => hk h.symm)]
          split
          · refine ⟨rfl, ?_⟩
            rw [computed_append, fl s.1 h0, hs]
          · exact ⟨h0, hs⟩
        | timeline v => refine ⟨h0, hs.trans ?_⟩; simp only [apply]; split <;> rfl
        | rangeStart v => refine ⟨h0, hs.trans ?_⟩; simp only [apply]; split <;> rfl
        | rangeEnd v => refine ⟨h0, hs.trans ?_⟩; simp only [apply]; split <;> rfl
        | range v => refine ⟨h0, hs.trans ?_⟩; simp only [apply]; split <;> rfl
        | composition v =>
          refine ⟨h0, ?_⟩
          simp only [Hd.handle, computed_append]
          rfl
        | animation v p => exact absurd h1 (by intro h; exact h)
        | unparsed id t p =>
          refine ⟨rfl, ?_⟩
          cases id with
          | animation => exact absurd h1 (by intro h; exact h)
          | lh k =>
            simp only [Hd.handle, apply]
            rw [computed_append _ _ (s.2 ++ _)]
            have h2 : (computed b c (s.2 ++ flush env s.1)).comp = c1.comp := by rw [computed_append, fl s.1 h0, hs]
            have h3 : ∀ c2 : Computed V W R, (computed b c2 [.unparsed (.lh k) t (env.targets.prefixes (orNone p) .animation)]).comp = c2.comp := by
              intro c2; simp only [computed, List.foldl_cons, List.foldl_nil, apply]; split <;> rfl
            rw [h3, h2]
            split <;> rfl
          | composition =>
            simp only [Hd.handle, apply]
            rw [computed_append _ _ (s.2 ++ _)]
            rfl
          | timeline =>
            simp only [Hd.handle, apply]
            rw [computed_append _ _ (s.2 ++ _)]
            have h2 : (computed b c (s.2 ++ flush env s.1)).comp = c1.comp := by rw [computed_append, fl s.1 h0, hs]
            exact h2
          | range =>
            simp only [Hd.handle, apply]
            rw [computed_append _ _ (s.2 ++ _)]
            have h2 : (computed b c (s.2 ++ flush env s.1)).comp = c1.comp := by rw [computed_append, fl s.1 h0, hs]
            exact h2
          | rangeStart =>
            simp only [Hd.handle, apply]
            rw [computed_append _ _ (s.2 ++ _)]
            have h2 : (computed b c (s.2 ++ flush env s.1)).comp = c1.comp := by rw [computed_append, fl s.1 h0, hs]
            exact h2
          | rangeEnd =>
            simp only [Hd.handle, apply]
            rw [computed_append _ _ (s.2 ++ _)]
            have h2 : (computed b c (s.2 ++ flush env s.1)).comp = c1.comp := by rw [computed_append, fl s.1 h0, hs]
            exact h2
      exact ih _ _ (fun d' h' => hd d' (by simp [h'])) step.1 step.2
  obtain ⟨h1, h2⟩ := key ds ({}, []) c hd rfl rfl
  unfold run
  rw [computed_append, fl _ h1, h2]

end
end Verif.Animation.Hd
