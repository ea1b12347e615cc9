import Verif.Media.CustomLemmas
import Mathlib.Data.List.Forall2
/-! # C07: custom media expansion.

The specification is in CustomModel.lean: `expand` (replace references by the disjunction of the
definition's conditions, to a nesting depth), `BadReference` (a reachable name is undefined or circular).
`process` and everything built on it is a total function, so "terminates" is part of the model being accepted by
Lean; its recursion is the one of the code and its measure is the set of names not being expanded. -/
namespace Verif.Media

/-- `c'` is what is left of the condition of query `q` after full expansion: it mentions no custom media and is true
on exactly the devices on which the fully substituted condition is. -/
def FullyExpanded (env : CmEnv) (c c' : Cond) : Prop :=
  c'.names = [] ∧ ∃ k full, expand env k c = some full ∧ ∀ d, c'.eval d = full.eval d

/-- C07, for definitions without media types (see `C07_counterexample_*` for the others): expansion of a query
reports an error exactly when a reachable reference is undefined or circular; otherwise the media type and
qualifier are kept and the condition is replaced by an equivalent one without references.
Missing for the full property: definitions with media types or `not`/`only` (the code is wrong there). -/
theorem C07_expand_partial (env : CmEnv) (hp : Plain env) (q : Query) :
    match q.cond with
    | none => q.transformCustomMedia env = .ok q
    | some c =>
      (BadReference env c → ∃ e, q.transformCustomMedia env = .error e) ∧
      (¬ BadReference env c →
        ∃ c', q.transformCustomMedia env = .ok ⟨q.qualifier, q.type, some c'⟩ ∧ FullyExpanded env c c') := by
  cases hc : q.cond with
  | none => simp [Query.transformCustomMedia, hc]
  | some c =>
    dsimp only
    obtain ⟨h1, h2, h3⟩ := process_spec env hp [] ⟨q.type, q.qualifier⟩ c
    unfold Query.transformCustomMedia
    simp only [hc]
    generalize process env [] ⟨q.type, q.qualifier⟩ c = x at *
    obtain ⟨res, st, c'⟩ := x
    dsimp only at h1 h2 h3
    subst h1
    match res with
    | .error e =>
      refine ⟨fun _ => ⟨e, rfl⟩, fun hb => absurd ?_ hb⟩
      obtain ⟨r, hr, n, hn, hbad⟩ := h3 e rfl
      exact ⟨r, hr, n, hn, by simpa using hbad⟩
    | .ok u =>
      obtain ⟨rfl, ⟨k, full, hf, he⟩, hn⟩ := h2 u rfl
      exact ⟨fun hb => absurd hb (expand_no_bad env k c full hf), fun _ => ⟨c', rfl, hn, k, full, hf, he⟩⟩

/-- C07 for lists: the whole list is an error as soon as one query is, otherwise every query is replaced by its
expansion, in order. -/
theorem C07_list_partial (env : CmEnv) (hp : Plain env) (qs : List Query) :
    ((∃ q ∈ qs, ∃ c, q.cond = some c ∧ BadReference env c) → ∃ e, transformList env qs = .error e) ∧
    ((∀ q ∈ qs, ∀ c, q.cond = some c → ¬ BadReference env c) →
      ∃ qs', transformList env qs = .ok qs' ∧
        List.Forall₂ (fun q q' => q'.type = q.type ∧ q'.qualifier = q.qualifier ∧
          match q.cond, q'.cond with
          | none, none => True
          | some c, some c' => FullyExpanded env c c'
          | _, _ => False) qs qs') := by
  induction qs with
  | nil => exact ⟨by simp, fun _ => ⟨[], rfl, .nil⟩⟩
  | cons q qs ih =>
    have hq := C07_expand_partial env hp q
    unfold transformList
    constructor
    · rintro ⟨x, hx, c, hc, hb⟩
      rcases List.mem_cons.1 hx with rfl | hx
      · rw [hc] at hq
        obtain ⟨e, he⟩ := hq.1 hb
        exact ⟨e, by rw [he]⟩
      · obtain ⟨e, he⟩ := ih.1 ⟨x, hx, c, hc, hb⟩
        rw [he]
        cases q.transformCustomMedia env with
        | error e' => exact ⟨e', rfl⟩
        | ok q' => exact ⟨e, rfl⟩
    · intro h
      obtain ⟨qs', hqs', hall⟩ := ih.2 (fun x hx => h x (by simp [hx]))
      rw [hqs']
      cases hc : q.cond with
      | none =>
        rw [hc] at hq
        simp only [hq]
        exact ⟨_, rfl, .cons ⟨rfl, rfl, by simp [hc]⟩ hall⟩
      | some c =>
        rw [hc] at hq
        obtain ⟨c', he, hf⟩ := hq.2 (h q (by simp) c hc)
        simp only [he]
        exact ⟨_, rfl, .cons ⟨rfl, rfl, by simpa [hc] using hf⟩ hall⟩

/-- Example definitions: `--a: (--b), (not (--b))`, `--b: (color)`. -/
def exEnv : CmEnv := [(cs!"--a", [⟨none, .all, some (.feature (.boolean (.custom cs!"--b")))⟩,
    ⟨none, .all, some (.not (.feature (.boolean (.custom cs!"--b"))))⟩]),
  (cs!"--b", [⟨none, .all, some (.feature (.boolean (.standard .color)))⟩])]

/-- Hypotheses are satisfiable: nested definitions, no bad reference, and the expansion is what one expects. -/
example : Plain exEnv := by
  intro n qs h
  simp only [exEnv, CmEnv.get, List.find?_cons, List.find?_nil] at h
  split at h
  · simp at h; subst h; simp
  · split at h
    · simp at h; subst h; simp
    · simp at h
example : Query.transformCustomMedia exEnv ⟨none, .screen, some (.feature (.boolean (.custom cs!"--a")))⟩ =
    .ok ⟨none, .screen, some (.op .or [.feature (.boolean (.standard .color)),
      .not (.feature (.boolean (.standard .color)))])⟩ := by
  simp [Query.transformCustomMedia, process, process_ref, processQueries, processQuery, CmEnv.get, exEnv]
/-- A circular definition meets `BadReference`. -/
example : BadReference [(cs!"--a", [⟨none, .all, some (.not (.feature (.boolean (.custom cs!"--a"))))⟩])]
    (.feature (.boolean (.custom cs!"--a"))) :=
  ⟨cs!"--a", by simp [Cond.names], cs!"--a", .inl rfl, .inr (.one ⟨_, rfl, _, List.mem_singleton.2 rfl, _, rfl, by simp [Cond.names]⟩)⟩

/-- A device for the counterexamples: of type `print`, with colour. -/
def colorPrinter : Device :=
  { type := .print, compare := fun _ _ => none, discrete := fun _ _ => .u, truthy := fun _ => .t }

/-- The code is wrong for definitions that are lists with a media type: `@custom-media --x screen, (color);`
`@media (--x)` becomes `@media screen and (color)`, and `@custom-media --x screen and (color)`; `@media (not (--x))`
becomes `@media screen and (not (color))`, neither of which matches what the definition says. -/
theorem C07_counterexample_media_type :
    (∃ q', Query.transformCustomMedia
        [(cs!"--x", [⟨none, .screen, none⟩, ⟨none, .all, some (.feature (.boolean (.standard .color)))⟩])]
        ⟨none, .all, some (.feature (.boolean (.custom cs!"--x")))⟩ = .ok q' ∧
      ListMatches colorPrinter [⟨none, .screen, none⟩, ⟨none, .all, some (.feature (.boolean (.standard .color)))⟩] ∧
      ¬ q'.matches colorPrinter) ∧
    (∃ q', Query.transformCustomMedia
        [(cs!"--x", [⟨none, .screen, some (.feature (.boolean (.standard .color)))⟩])]
        ⟨none, .all, some (.not (.feature (.boolean (.custom cs!"--x"))))⟩ = .ok q' ∧
      Query.eval colorPrinter ⟨none, .screen, some (.feature (.boolean (.standard .color)))⟩ = .f ∧
      ¬ q'.matches colorPrinter) := by
  refine ⟨⟨⟨none, .screen, some (.feature (.boolean (.standard .color)))⟩, ?_, ?_, ?_⟩,
    ⟨⟨none, .screen, some (.not (.feature (.boolean (.standard .color))))⟩, ?_, ?_, ?_⟩⟩
  · simp [Query.transformCustomMedia, process, process_ref, processQueries, processQuery, CmEnv.get]
  · exact .inr ⟨_, List.mem_cons_of_mem _ (List.mem_singleton.2 rfl), rfl⟩
  · decide
  · simp [Query.transformCustomMedia, process, process_ref, processQueries, processQuery, CmEnv.get]
  · rfl
  · decide

/-- Errors and references are lost for definitions with media types: with `--a: (--undefined), screen` the query
`not all and (--a)` is accepted although `--undefined` is not defined, and with `--b: (--a)`, `--a: screen` the query
`(--b)` succeeds but still contains a reference `(--a)`, which no browser knows. -/
theorem C07_counterexample_errors :
    (∃ q', Query.transformCustomMedia
        [(cs!"--a", [⟨none, .all, some (.feature (.boolean (.custom cs!"--undefined")))⟩, ⟨none, .screen, none⟩])]
        ⟨some .not, .all, some (.feature (.boolean (.custom cs!"--a")))⟩ = .ok q') ∧
    (∃ q' c, Query.transformCustomMedia
        [(cs!"--b", [⟨none, .all, some (.feature (.boolean (.custom cs!"--a")))⟩]), (cs!"--a", [⟨none, .screen, none⟩])]
        ⟨none, .all, some (.feature (.boolean (.custom cs!"--b")))⟩ = .ok q' ∧ q'.cond = some c ∧ c.names ≠ []) := by
  refine ⟨⟨⟨some .not, .all, some (.feature (.boolean (.custom cs!"--undefined")))⟩, ?_⟩, ⟨⟨none, .screen, some (.feature (.boolean (.custom cs!"--a")))⟩, _, ?_, rfl, by simp [Cond.names]⟩⟩
  · simp [Query.transformCustomMedia, process, process_ref, processQueries, processQuery, CmEnv.get]
  · simp [Query.transformCustomMedia, process, process_ref, processQueries, processQuery, CmEnv.get]

end Verif.Media
