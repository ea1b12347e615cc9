import Verif.Animation.HandlerProps2
/-! # C135–C139: which browsers read the result, and what fails -/
namespace Verif.Animation.Hd
open Verif.Targets Verif.Animation.Hd.Spec
open Verif.Transition (contains inter remove orNone ne_empty_iff inter_has union_has)

section
variable {V W R : Type} [Inhabited V] [DecidableEq W] [DecidableEq V]

/-! ### Timelines in the shorthand -/

/-- If the declaration is an `animation` shorthand with a timeline, all targets support that. -/
def Supported (env : Env W) : Decl V W R → Prop
  | .animation rows _ => (∃ r ∈ rows, r.tl ≠ env.auto) → env.targets.isCompatible .animationTimelineShorthand = true
  | _ => True

omit [DecidableEq V] in
theorem flush_supported (env : Env W) (h : Handler V W R) : ∀ d ∈ flush env h, Supported env d := by
  have hr : ∀ (f : Field → Option (List V × PrefixSet)), ∀ d ∈ order.flatMap (pushRest (R := R) env f), Supported env d := by
    intro f d hd
    obtain ⟨k, _, hk⟩ := List.mem_flatMap.1 hd
    unfold pushRest at hk
    split at hk
    · split at hk
      · cases hk
      · simp at hk; subst hk; trivial
    · cases hk
  have hg : ∀ d ∈ pushRanges (V := V) (W := W) h.rs h.re, Supported env d := by
    intro d hd
    unfold pushRanges at hd
    split at hd
    · split at hd
      · simp at hd; subst hd; trivial
      · simp at hd; rcases hd with rfl | rfl <;> trivial
    · simp at hd; subst hd; trivial
    · simp at hd; subst hd; trivial
    · cases hd
  intro d hd
  unfold flush at hd
  cases hs : shorthand env h with
  | none =>
    rw [hs] at hd
    simp only [List.mem_append] at hd
    rcases hd with (hd | hd) | hd
    · exact hr _ d hd
    · unfold pushTl at hd
      split at hd
      · simp at hd; subst hd; trivial
      · cases hd
    · exact hg d hd
  | some x =>
    obtain ⟨ds, i⟩ := x
    rw [hs] at hd
    simp only [List.mem_append] at hd
    rcases hd with (hd | hd) | hd
    · obtain ⟨cols, ps, _, _, _, hlen, rfl⟩ := shorthand_some env h ds i hs
      generalize timelines env h.tl i (cols .name).length = t at *
      rcases List.mem_cons.1 hd with rfl | hd
      · rintro ⟨r, hr, hne⟩
        obtain ⟨r', hr', rfl⟩ := List.mem_map.1 hr
        simp only at hne
        by_cases hsep : separate env t i = true
        · rw [if_pos hsep] at hne; exact absurd rfl hne
        · rw [if_neg hsep] at hne
          have hany : t.any (· ≠ env.auto) = true := by
            rw [List.any_eq_true]
            refine ⟨r'.tl, ?_, by simpa using hne⟩
            have := (zipRows_cols t cols hlen).2
            rw [← this]
            exact List.mem_map.2 ⟨r', hr', rfl⟩
          unfold separate at hsep
          rw [hany, Bool.true_and, Bool.or_eq_true] at hsep
          cases hc : env.targets.isCompatible .animationTimelineShorthand with
          | true => rfl
          | false => exact absurd (.inr (by rw [hc]; rfl)) hsep
      · split at hd
        · simp at hd; subst hd; trivial
        · cases hd
    · exact hr _ d hd
    · exact hg d hd

/-- C139: an `animation` shorthand in the output has a timeline only if all targets read timelines in the shorthand. -/
theorem C139_supported (env : Env W) (ds : List (Decl V W R)) : ∀ d ∈ run env ds, Supported env d := by
  have hm : ∀ (s : Handler V W R × List (Decl V W R)) k v p, (∀ d ∈ s.2, Supported env d) → ∀ d ∈ (maybeFlush env s k v p).2, Supported env d := by
    intro s k v p h d hd
    unfold maybeFlush at hd
    split at hd
    · rcases List.mem_append.1 hd with hd | hd
      · exact h d hd
      · exact flush_supported env _ d hd
    · exact h d hd
  have hf : ∀ (ks : List Field) (col : Field → List V) p (s : Handler V W R × List (Decl V W R)), (∀ d ∈ s.2, Supported env d) →
      ∀ d ∈ (ks.foldl (fun s k => maybeFlush env s k (col k) p) s).2, Supported env d := by
    intro ks col p
    induction ks with
    | nil => intro s h; exact h
    | cons k ks ih => intro s h; exact ih _ (hm s k (col k) p h)
  have key : ∀ (ds : List (Decl V W R)) (s : Handler V W R × List (Decl V W R)), (∀ d ∈ s.2, Supported env d) → ∀ d ∈ (ds.foldl (handle env) s).2, Supported env d := by
    intro ds
    induction ds with
    | nil => intro s h; exact h
    | cons d ds ih =>
      intro s h
      refine ih _ ?_
      cases d with
      | lh k v p => exact hm s k v p h
      | timeline v => exact h
      | rangeStart v => exact h
      | rangeEnd v => exact h
      | range v => exact h
      | composition v =>
        intro d hd
        rcases List.mem_append.1 hd with hd | hd
        · exact h d hd
        · simp at hd; subst hd; trivial
      | animation v p => exact hf order _ p s h
      | unparsed id t p =>
        intro d hd
        rcases List.mem_append.1 hd with hd | hd
        · rcases List.mem_append.1 hd with hd | hd
          · exact h d hd
          · exact flush_supported env _ d hd
        · simp at hd; subst hd; trivial
  intro d hd
  unfold run at hd
  rcases List.mem_append.1 hd with hd | hd
  · exact key ds ({}, []) (by intro d hd; cases hd) d hd
  · exact flush_supported env _ d hd

end

/-! ### The hypotheses hold for blocks with shorthands, prefixes and `var()` -/

/-- No targets. -/
def env0 : Env Nat := ⟨⟨none, ⟨0⟩, ⟨0⟩⟩, 0⟩

/-- A browser that knows the listed prefixes. -/
def knows (l : List Prefix) : Agent := ⟨fun p => decide (p ∈ l)⟩

/-- A row with the same value in all fields. -/
def row (n t : Nat) : Row Nat Nat := ⟨fun _ => n, t⟩

example : ∀ d ∈ ([.animation [row 1 0] Prefix.webkit.set, .lh .name [2, 3] Prefix.none.set, .timeline [4], .range [(1, 2)], .unparsed .animation cs!"var(--x)" Prefix.none.set,
    .lh .delay [5] Prefix.webkit.set] : List (Decl Nat Nat Nat)), Source (knows [.none, .webkit]) d ∧ Plain .name d := by
  intro d hd
  simp only [List.mem_cons, List.not_mem_nil, or_false] at hd
  rcases hd with rfl | rfl | rfl | rfl | rfl | rfl
  · exact ⟨⟨by decide, .webkit, rfl, by decide⟩, trivial⟩
  · exact ⟨⟨by decide, .none, rfl, by decide⟩, fun _ => rfl⟩
  · exact ⟨by simp [Source], trivial⟩
  · exact ⟨trivial, trivial⟩
  · exact ⟨⟨.none, rfl, by decide⟩, trivial⟩
  · exact ⟨⟨by decide, .webkit, rfl, by decide⟩, by intro h; cases h⟩

example : ∀ d ∈ ([.range [(1, 2)], .animation [row 1 0, row 2 3] Prefix.none.set, .rangeStart [4], .lh .name [2, 3] Prefix.none.set] : List (Decl Nat Nat Nat)),
    Uniform .none d := by
  intro d hd
  simp only [List.mem_cons, List.not_mem_nil, or_false] at hd
  rcases hd with rfl | rfl | rfl | rfl
  · simp [Uniform]
  · exact ⟨by decide, rfl⟩
  · simp [Uniform]
  · exact ⟨by decide, rfl⟩

example : ∀ d ∈ ([.lh .name [1] Prefix.none.set, .composition cs!"add", .unparsed .composition cs!"var(--x)" .empty] : List (Decl Nat Nat Nat)), NoShort .delay d := by
  intro d hd
  simp only [List.mem_cons, List.not_mem_nil, or_false] at hd
  rcases hd with rfl | rfl | rfl
  · show Field.name ≠ Field.delay; decide
  · exact trivial
  · exact trivial

/-! ### Where it fails -/

/-- C135 fails for a browser that knows one of two prefixes: the handler holds one value for all prefixes, and a later value of one prefix replaces it for the other. -/
theorem C135_other_prefix_fails : ∃ ds : List (Decl Nat Nat Nat), ∀ c,
    (computed (knows [.none]) c ds).f .name = .list [1] ∧ (computed (knows [.none]) c (run env0 ds)).f .name = .list [2] :=
  ⟨[.lh .name [1] Prefix.none.set, .lh .name [1] Prefix.webkit.set, .lh .name [2] Prefix.webkit.set], fun _ => ⟨rfl, rfl⟩⟩

/-- C135 fails for a browser that knows only the prefixed property: after the shorthand was written the prefixed longhand has no value. -/
theorem C135_drained_fails : ∃ ds : List (Decl Nat Nat Nat), ∀ c,
    (computed (knows [.webkit]) c ds).f .name = .list [1] ∧ (computed (knows [.webkit]) c (run env0 ds)).f .name = c.f .name :=
  ⟨[.lh .name [1] Prefix.webkit.set, .animation [row 1 0] Prefix.none.set], fun _ => ⟨rfl, rfl⟩⟩

/-- C136 fails if all eight longhands are prefixed: they become a shorthand, which resets a timeline of another rule. -/
theorem C136_prefixed_fails : ∃ ds : List (Decl Nat Nat Nat), ∀ c,
    (computed (knows [.none, .webkit]) c ds).tl = c.tl ∧ (computed (knows [.none, .webkit]) c (run env0 ds)).tl = .list [0] :=
  ⟨order.map fun k => .lh k [1] Prefix.webkit.set, fun _ => ⟨rfl, rfl⟩⟩

/-- C137 fails if the shorthand cannot be written as one: it does not reset a range of another rule any more. -/
theorem C137_lost_reset_fails : ∃ ds : List (Decl Nat Nat Nat), ∀ c,
    (computed (knows [.none]) c ds).rs = .initial ∧ (computed (knows [.none]) c (run env0 ds)).rs = c.rs :=
  ⟨[.animation [row 1 0] Prefix.none.set, .lh .duration [1, 2] Prefix.none.set], fun _ => ⟨rfl, rfl⟩⟩

/-- C137 fails if longhands become a shorthand: it resets a range of another rule. -/
theorem C137_new_reset_fails : ∃ ds : List (Decl Nat Nat Nat), ∀ c,
    (computed (knows [.none]) c ds).rs = c.rs ∧ (computed (knows [.none]) c (run env0 ds)).rs = .initial :=
  ⟨(order.map fun k => .lh k [1] Prefix.none.set) ++ [.timeline [0]], fun _ => ⟨rfl, rfl⟩⟩

/-- C138 fails with the shorthand: `animation: a; animation-composition: add` is written in the other order, and the shorthand resets the composition. -/
theorem C138_shorthand_fails : ∃ ds : List (Decl Nat Nat Nat), ∀ c,
    (computed (knows [.none]) c ds).comp = .list [cs!"add"] ∧ (computed (knows [.none]) c (run env0 ds)).comp = .initial :=
  ⟨[.animation [row 1 0] Prefix.none.set, .composition cs!"add"], fun _ => ⟨rfl, rfl⟩⟩

/-- C139: the timeline is kept in the shorthand without targets. -/
example : (run (V := Nat) (R := Nat) env0 [.animation [row 1 3] Prefix.none.set]).map (fun
    | .animation rows p => (rows.map (·.tl), p)
    | _ => ([], .empty)) = [([3], Prefix.none.set)] := rfl

end Verif.Animation.Hd
