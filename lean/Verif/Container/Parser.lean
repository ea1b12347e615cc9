import Verif.Container.Props
/-! The parser of container conditions (src/media_query.rs:696-811, src/rules/container.rs:199-346), and C217 from text to text. -/

namespace Verif.Container
open Verif.Media (K3)

/-- `parse_feature` of style and scroll state queries (src/rules/container.rs:261-267, 289-304) on a whole block. -/
def Sub.feature : List Tok → Option Sub
  | [.atom n] => some (.leaf n)
  | _ => none

mutual
/-- `parse_query_condition` (src/media_query.rs:696-767) for style and scroll state queries, on all the tokens of a block: what is left
over makes the block an error, so that the fallback to a feature is never taken for it. -/
def Sub.parse : List Tok → Option Sub
  | [.not, t] => (Sub.parens t).map .not
  | [t] => Sub.parens t
  | t :: .op o :: ts => do
    let a ← Sub.parens t
    let b ← Sub.rest o ts
    some (.op o (a :: b))
  | _ => none
/-- The loop of src/media_query.rs:751-766. -/
def Sub.rest (o : Op) : List Tok → Option (List Sub)
  | [t] => (Sub.parens t).map (fun a => [a])
  | t :: .op o' :: ts => do
    let a ← Sub.parens t
    if o' = o then
      let b ← Sub.rest o ts
      some (a :: b)
    else none
  | _ => none
/-- `parse_parens_or_function` and `parse_paren_block` (src/media_query.rs:770-811), where functions are not allowed. -/
def Sub.parens : Tok → Option Sub
  | .paren ts => (Sub.parse ts).or (Sub.feature ts)
  | _ => none
end

/-- `parse_style_query` and `parse_scroll_state_query` (src/rules/container.rs:218-246). -/
def Sub.body (ts : List Tok) : Option Sub := (Sub.parse ts).or (Sub.feature ts)

/-- `parse_feature` of size features (src/rules/container.rs:200-206) on a whole block. -/
def Con.size : List Tok → Option Con
  | [.atom n] => some (.feature n)
  | _ => none

mutual
/-- `parse_query_condition` (src/media_query.rs:696-767) for container conditions, on all the tokens. -/
def Con.parse : List Tok → Option Con
  | [.not, t] => (Con.parens t).map .not
  | [t] => Con.parens t
  | t :: .op o :: ts => do
    let a ← Con.parens t
    let b ← Con.rest o ts
    some (.op o (a :: b))
  | _ => none
/-- The loop of src/media_query.rs:751-766. -/
def Con.rest (o : Op) : List Tok → Option (List Con)
  | [t] => (Con.parens t).map (fun a => [a])
  | t :: .op o' :: ts => do
    let a ← Con.parens t
    if o' = o then
      let b ← Con.rest o ts
      some (a :: b)
    else none
  | _ => none
/-- `parse_parens_or_function` and `parse_paren_block` (src/media_query.rs:770-811), with `style()` and `scroll-state()`. -/
def Con.parens : Tok → Option Con
  | .paren ts => (Con.parse ts).or (Con.size ts)
  | .style ts => (Sub.body ts).map .style
  | .scroll ts => (Sub.body ts).map .scroll
  | _ => none
end

theorem sub_feature (ts : List Tok) (q : Sub) (h : Sub.feature ts = some q) : ∃ n, ts = [.atom n] ∧ q = .leaf n := by
  unfold Sub.feature at h
  split at h
  · cases h; exact ⟨_, rfl, rfl⟩
  · cases h

theorem con_size (ts : List Tok) (c : Con) (h : Con.size ts = some c) : ∃ n, ts = [.atom n] ∧ c = .feature n := by
  unfold Con.size at h
  split at h
  · cases h; exact ⟨_, rfl, rfl⟩
  · cases h

theorem sub_evalOp_cons (v : Nat → K3) (o : Op) (a : Sub) (b : List Sub) (hb : b ≠ []) :
    Sub.evalOp v o (a :: b) = o.eval (a.eval v) (Sub.evalOp v o b) := by
  cases b with
  | nil => exact absurd rfl hb
  | cons => rw [Sub.evalOp]; simp

theorem con_evalOp_cons (v : Nat → K3) (o : Op) (a : Con) (b : List Con) (hb : b ≠ []) :
    Con.evalOp v o (a :: b) = o.eval (a.eval v) (Con.evalOp v o b) := by
  cases b with
  | nil => exact absurd rfl hb
  | cons => rw [Con.evalOp]; simp

mutual
theorem sub_parse_ok (v : Nat → K3) (ts : List Tok) (q : Sub) (h : Sub.parse ts = some q) :
    q.WF ∧ Means v .sub ts (q.eval v) := by
  unfold Sub.parse at h
  split at h
  · rename_i t
    obtain ⟨a, h1, rfl⟩ := Option.map_eq_some_iff.1 h
    obtain ⟨w, m⟩ := sub_parens_ok v t a h1
    exact ⟨w, .not m⟩
  · rename_i t
    obtain ⟨w, m⟩ := sub_parens_ok v t q h
    exact ⟨w, .ops (o := .and) (.one m)⟩
  · rename_i t o ts _
    obtain ⟨a, h1, h⟩ := Option.bind_eq_some_iff.1 h
    obtain ⟨b, h2, h⟩ := Option.bind_eq_some_iff.1 h
    cases h
    obtain ⟨w, m⟩ := sub_parens_ok v t a h1
    obtain ⟨w1, w2, m2⟩ := sub_rest_ok v o ts b h2
    refine ⟨⟨by simp, w, w2⟩, .ops (o := o) ?_⟩
    show Joined v o .sub _ (Sub.evalOp v o (a :: b))
    rw [sub_evalOp_cons v o a b w1]
    exact .more m m2
  · cases h
termination_by sizeOf ts
theorem sub_rest_ok (v : Nat → K3) (o : Op) (ts : List Tok) (qs : List Sub) (h : Sub.rest o ts = some qs) :
    qs ≠ [] ∧ Sub.WFs qs ∧ Joined v o .sub ts (Sub.evalOp v o qs) := by
  unfold Sub.rest at h
  split at h
  · rename_i t
    obtain ⟨a, h1, rfl⟩ := Option.map_eq_some_iff.1 h
    obtain ⟨w, m⟩ := sub_parens_ok v t a h1
    exact ⟨by simp, ⟨w, trivial⟩, by rw [Sub.evalOp]; exact .one m⟩
  · rename_i t o' ts
    obtain ⟨a, h1, h⟩ := Option.bind_eq_some_iff.1 h
    split at h
    · rename_i e
      subst e
      obtain ⟨b, h2, h⟩ := Option.bind_eq_some_iff.1 h
      cases h
      obtain ⟨w, m⟩ := sub_parens_ok v t a h1
      obtain ⟨w1, w2, m2⟩ := sub_rest_ok v o' ts b h2
      refine ⟨by simp, ⟨w, w2⟩, ?_⟩
      rw [sub_evalOp_cons v o' a b w1]
      exact .more m m2
    · cases h
  · cases h
termination_by sizeOf ts
theorem sub_parens_ok (v : Nat → K3) (t : Tok) (q : Sub) (h : Sub.parens t = some q) :
    q.WF ∧ InParens v .sub t (q.eval v) := by
  unfold Sub.parens at h
  split at h
  · rename_i ts
    rcases Option.or_eq_some_iff.1 h with h | ⟨_, h⟩
    · obtain ⟨w, m⟩ := sub_parse_ok v ts q h
      exact ⟨w, .cond m⟩
    · obtain ⟨n, rfl, rfl⟩ := sub_feature ts q h
      exact ⟨trivial, .feature⟩
  · cases h
termination_by sizeOf t
end

theorem sub_body_ok (v : Nat → K3) (ts : List Tok) (q : Sub) (h : Sub.body ts = some q) :
    q.WF ∧ (Means v .sub ts (q.eval v) ∨ ∃ n, ts = [.atom n] ∧ q = .leaf n) := by
  rcases Option.or_eq_some_iff.1 h with h | ⟨_, h⟩
  · obtain ⟨w, m⟩ := sub_parse_ok v ts q h
    exact ⟨w, Or.inl m⟩
  · obtain ⟨n, rfl, rfl⟩ := sub_feature ts q h
    exact ⟨trivial, Or.inr ⟨n, rfl, rfl⟩⟩

mutual
theorem con_parse_ok (v : Nat → K3) (ts : List Tok) (c : Con) (h : Con.parse ts = some c) :
    c.WF ∧ Means v .container ts (c.eval v) := by
  unfold Con.parse at h
  split at h
  · rename_i t
    obtain ⟨a, h1, rfl⟩ := Option.map_eq_some_iff.1 h
    obtain ⟨w, m⟩ := con_parens_ok v t a h1
    exact ⟨w, .not m⟩
  · rename_i t
    obtain ⟨w, m⟩ := con_parens_ok v t c h
    exact ⟨w, .ops (o := .and) (.one m)⟩
  · rename_i t o ts _
    obtain ⟨a, h1, h⟩ := Option.bind_eq_some_iff.1 h
    obtain ⟨b, h2, h⟩ := Option.bind_eq_some_iff.1 h
    cases h
    obtain ⟨w, m⟩ := con_parens_ok v t a h1
    obtain ⟨w1, w2, m2⟩ := con_rest_ok v o ts b h2
    refine ⟨⟨by simp, w, w2⟩, .ops (o := o) ?_⟩
    show Joined v o .container _ (Con.evalOp v o (a :: b))
    rw [con_evalOp_cons v o a b w1]
    exact .more m m2
  · cases h
termination_by sizeOf ts
theorem con_rest_ok (v : Nat → K3) (o : Op) (ts : List Tok) (qs : List Con) (h : Con.rest o ts = some qs) :
    qs ≠ [] ∧ Con.WFs qs ∧ Joined v o .container ts (Con.evalOp v o qs) := by
  unfold Con.rest at h
  split at h
  · rename_i t
    obtain ⟨a, h1, rfl⟩ := Option.map_eq_some_iff.1 h
    obtain ⟨w, m⟩ := con_parens_ok v t a h1
    exact ⟨by simp, ⟨w, trivial⟩, by rw [Con.evalOp]; exact .one m⟩
  · rename_i t o' ts
    obtain ⟨a, h1, h⟩ := Option.bind_eq_some_iff.1 h
    split at h
    · rename_i e
      subst e
      obtain ⟨b, h2, h⟩ := Option.bind_eq_some_iff.1 h
      cases h
      obtain ⟨w, m⟩ := con_parens_ok v t a h1
      obtain ⟨w1, w2, m2⟩ := con_rest_ok v o' ts b h2
      refine ⟨by simp, ⟨w, w2⟩, ?_⟩
      rw [con_evalOp_cons v o' a b w1]
      exact .more m m2
    · cases h
  · cases h
termination_by sizeOf ts
theorem con_parens_ok (v : Nat → K3) (t : Tok) (c : Con) (h : Con.parens t = some c) :
    c.WF ∧ InParens v .container t (c.eval v) := by
  unfold Con.parens at h
  split at h
  · rename_i ts
    rcases Option.or_eq_some_iff.1 h with h | ⟨_, h⟩
    · obtain ⟨w, m⟩ := con_parse_ok v ts c h
      exact ⟨w, .cond m⟩
    · obtain ⟨n, rfl, rfl⟩ := con_size ts c h
      exact ⟨trivial, .feature⟩
  · rename_i ts
    obtain ⟨q, h1, rfl⟩ := Option.map_eq_some_iff.1 h
    obtain ⟨w, m | ⟨n, rfl, rfl⟩⟩ := sub_body_ok v ts q h1
    · exact ⟨w, .style m⟩
    · exact ⟨w, .style1⟩
  · rename_i ts
    obtain ⟨q, h1, rfl⟩ := Option.map_eq_some_iff.1 h
    obtain ⟨w, m | ⟨n, rfl, rfl⟩⟩ := sub_body_ok v ts q h1
    · exact ⟨w, .scroll m⟩
    · exact ⟨w, .scroll1⟩
  · cases h
termination_by sizeOf t
end

/-- C217 from text to text: when a container condition is read and printed, the printed text means the same as the source. -/
theorem C217_read_print (v : Nat → K3) (ts : List Tok) (c : Con) (h : Con.parse ts = some c) (m : K3) :
    Means v .container c.toks m ↔ Means v .container ts m := by
  obtain ⟨w, h1⟩ := con_parse_ok v ts c h
  rw [C217_container_condition v c w]
  exact ⟨by rintro rfl; exact h1, fun h2 => means_unique h2 _ h1⟩

/-- `((width > 1px)) and (not style((--a: b)))` loses a pair of parentheses twice. -/
example : ∃ c, Con.parse [.paren [.paren [.atom 0]], .op .and, .paren [.not, .style [.paren [.atom 1]]]] = some c ∧
    c.toks = [.paren [.atom 0], .op .and, .paren [.not, .style [.atom 1]]] := by
  refine ⟨.op .and [.feature 0, .not (.style (.leaf 1))], ?_, ?_⟩
  · simp [Con.parse, Con.rest, Con.parens, Con.size, Sub.body, Sub.parse, Sub.parens, Sub.feature]
  · simp [Con.toks, Con.opToks, Sub.toks, wrap, Con.needs]

end Verif.Container
