import Verif.Container.Spec
/-! C217: container conditions are printed with the same meaning. -/

namespace Verif.Container
open Verif.Media (K3)

theorem op_assoc (o : Op) (a b c : K3) : o.eval (o.eval a b) c = o.eval a (o.eval b c) := by
  cases o <;> cases a <;> cases b <;> cases c <;> rfl

theorem joined_append {v : Nat → K3} {o : Op} {k : Place} {ts us : List Tok} {m n : K3} (h1 : Joined v o k ts m)
    (h2 : Joined v o k us n) : Joined v o k (ts ++ .op o :: us) (o.eval m n) := by
  match h1 with
  | .one h => exact .more h h2
  | .more h h' =>
    rw [op_assoc]
    exact .more h (joined_append h' h2)
termination_by ts.length
decreasing_by all_goals (subst_vars; simp; try omega)

/-- What is shown of the text of a query: as a condition, and as an operand. -/
def SubOk (v : Nat → K3) (own : Bool) (q : Sub) : Prop :=
  (Means v .sub (q.toks own) (q.eval v) ∨ (own = false ∧ ∃ n, q = .leaf n)) ∧
    ∀ o, Joined v o .sub (wrap (q.needs own (some o)) (q.toks own)) (q.eval v)

mutual
theorem sub_ok (v : Nat → K3) (own : Bool) : ∀ q : Sub, q.WF → SubOk v own q
  | .leaf n, _ => by
    cases own
    · exact ⟨Or.inr ⟨rfl, n, rfl⟩, fun o => .one .feature⟩
    · exact ⟨Or.inl (.ops (o := .and) (.one .feature)), fun o => .one .feature⟩
  | .not q, h => by
    have ih := sub_ok v own q h
    have h1 : Means v .sub (Sub.toks own (.not q)) (Sub.eval v (.not q)) := by
      show Means v .sub (.not :: wrap (q.needs own none) (q.toks own)) (q.eval v).not
      match q, ih with
      | .leaf n, _ => cases own <;> exact .not .feature
      | .not q, ih =>
        rcases ih.1 with ih | ⟨_, _, e⟩
        · exact .not (.cond ih)
        · cases e
      | .op o qs, ih =>
        rcases ih.1 with ih | ⟨_, _, e⟩
        · exact .not (.cond ih)
        · cases e
    exact ⟨Or.inl h1, fun o => .one (.cond h1)⟩
  | .op o qs, h => by
    have ih := subs_ok v own o qs h.1 h.2
    refine ⟨Or.inl (.ops ih), fun o' => ?_⟩
    by_cases e : o = o'
    · subst e
      have : Sub.needs own (some o) (.op o qs) = false := by simp [Sub.needs]
      rw [this]
      exact ih
    · have : Sub.needs own (some o') (.op o qs) = true := by simp [Sub.needs, e]
      rw [this]
      exact .one (.cond (.ops ih))
theorem subs_ok (v : Nat → K3) (own : Bool) (o : Op) : ∀ qs : List Sub, qs ≠ [] → Sub.WFs qs →
    Joined v o .sub (Sub.opToks own o qs) (Sub.evalOp v o qs)
  | [], h, _ => absurd rfl h
  | [q], _, h => by
    have := (sub_ok v own q h.1).2 o
    simpa [Sub.opToks, Sub.evalOp] using this
  | q :: r :: qs, _, h => by
    have h1 := (sub_ok v own q h.1).2 o
    have h2 := subs_ok v own o (r :: qs) (by simp) h.2
    have := joined_append h1 h2
    simpa [Sub.opToks, Sub.evalOp] using this
end

theorem style_ok (v : Nat → K3) (q : Sub) (h : q.WF) : InParens v .container (.style (q.toks false)) (q.eval v) := by
  rcases (sub_ok v false q h).1 with h | ⟨_, n, rfl⟩
  · exact .style h
  · exact .style1

theorem scroll_ok (v : Nat → K3) (q : Sub) (h : q.WF) : ∃ t, scrollToks q = [t] ∧ InParens v .container t (q.eval v) := by
  match q, h with
  | .leaf n, _ => exact ⟨_, rfl, .scroll1⟩
  | .not q, h =>
    rcases (sub_ok v true (.not q) h).1 with h | ⟨e, _⟩
    · exact ⟨_, rfl, .scroll h⟩
    · cases e
  | .op o qs, h =>
    rcases (sub_ok v true (.op o qs) h).1 with h | ⟨e, _⟩
    · exact ⟨_, rfl, .scroll h⟩
    · cases e

/-- An operand in parentheses where needed is one block, when no operator is around it. -/
theorem operand_of {v : Nat → K3} {c : Con} (h : Means v .container c.toks (c.eval v))
    (hs : c.needs none = false → ∃ t, c.toks = [t] ∧ InParens v .container t (c.eval v)) :
    ∃ t, wrap (c.needs none) c.toks = [t] ∧ InParens v .container t (c.eval v) := by
  cases hn : c.needs none with
  | true => exact ⟨_, rfl, .cond h⟩
  | false => exact hs hn

/-- What is shown of the text of a condition: as such, as the operand of `not` and as an operand of an operation. -/
structure ConOk (v : Nat → K3) (c : Con) : Prop where
  means : Means v .container c.toks (c.eval v)
  operand : ∃ t, wrap (c.needs none) c.toks = [t] ∧ InParens v .container t (c.eval v)
  joined : ∀ o, Joined v o .container (wrap (c.needs (some o)) c.toks) (c.eval v)

theorem conOk_single {v : Nat → K3} {c : Con} {t : Tok} (hc : c.toks = [t]) (hn : ∀ p, c.needs p = false)
    (h : InParens v .container t (c.eval v)) : ConOk v c := by
  refine ⟨?_, ⟨t, ?_, h⟩, fun o => ?_⟩
  · rw [hc]; exact .ops (o := .and) (.one h)
  · rw [hn, hc]; rfl
  · rw [hn, hc]; exact .one h

mutual
theorem con_ok (v : Nat → K3) : ∀ c : Con, c.WF → ConOk v c
  | .feature n, _ => conOk_single rfl (fun _ => rfl) .feature
  | .style q, h => conOk_single rfl (fun _ => rfl) (style_ok v q h)
  | .scroll q, h => by
    obtain ⟨t, h1, h2⟩ := scroll_ok v q h
    exact conOk_single h1 (fun _ => rfl) h2
  | .not c, h => by
    obtain ⟨t, h1, h2⟩ := (con_ok v c h).operand
    have h3 : Means v .container (Con.toks (.not c)) (Con.eval v (.not c)) := by
      show Means v .container (.not :: wrap (c.needs none) c.toks) _
      rw [h1]
      exact .not h2
    exact ⟨h3, ⟨_, rfl, .cond h3⟩, fun o => .one (.cond h3)⟩
  | .op o cs, h => by
    have ih := cons_ok v o cs h.1 h.2
    refine ⟨.ops ih, ⟨_, rfl, .cond (.ops ih)⟩, fun o' => ?_⟩
    by_cases e : o = o'
    · subst e
      have : Con.needs (some o) (.op o cs) = false := by simp [Con.needs]
      rw [this]
      exact ih
    · have : Con.needs (some o') (.op o cs) = true := by simp [Con.needs, e]
      rw [this]
      exact .one (.cond (.ops ih))
theorem cons_ok (v : Nat → K3) (o : Op) : ∀ cs : List Con, cs ≠ [] → Con.WFs cs →
    Joined v o .container (Con.opToks o cs) (Con.evalOp v o cs)
  | [], h, _ => absurd rfl h
  | [c], _, h => by
    have := (con_ok v c h.1).joined o
    simpa [Con.opToks, Con.evalOp] using this
  | c :: d :: cs, _, h => by
    have h1 := (con_ok v c h.1).joined o
    have h2 := cons_ok v o (d :: cs) (by simp) h.2
    have := joined_append h1 h2
    simpa [Con.opToks, Con.evalOp] using this
end

theorem atom_not_means {v : Nat → K3} {k : Place} {n : Nat} {m : K3} (h : Means v k [.atom n] m) : False := by
  cases h with
  | ops h => cases h with
    | one h => cases h

mutual
theorem means_unique {v : Nat → K3} {k : Place} {ts : List Tok} {m : K3} (h : Means v k ts m) (m' : K3)
    (h' : Means v k ts m') : m = m' := by
  match h with
  | .not h1 =>
    cases h' with
    | not h2 => rw [inParens_unique h1 _ h2]
    | ops h2 => cases h2 with
      | more h3 _ => cases h3
  | .ops h1 =>
    cases h' with
    | not h2 => cases h1 with
      | more h3 _ => cases h3
    | ops h2 => exact joined_unique h1 _ _ h2
theorem joined_unique {v : Nat → K3} {o : Op} {k : Place} {ts : List Tok} {m : K3} (h : Joined v o k ts m) (o' : Op) (m' : K3)
    (h' : Joined v o' k ts m') : m = m' := by
  match h with
  | .one h1 =>
    cases h' with
    | one h2 => exact inParens_unique h1 _ h2
  | .more h1 h2 =>
    cases h' with
    | more h3 h4 => rw [inParens_unique h1 _ h3, joined_unique h2 _ _ h4]
theorem inParens_unique {v : Nat → K3} {k : Place} {t : Tok} {m : K3} (h : InParens v k t m) (m' : K3)
    (h' : InParens v k t m') : m = m' := by
  match h with
  | .cond h1 =>
    cases h' with
    | cond h2 => exact means_unique h1 _ h2
    | feature => exact absurd h1 atom_not_means
  | .feature =>
    cases h' with
    | cond h2 => exact absurd h2 atom_not_means
    | feature => rfl
  | .style h1 =>
    cases h' with
    | style h2 => exact means_unique h1 _ h2
    | style1 => exact absurd h1 atom_not_means
  | .style1 =>
    cases h' with
    | style h2 => exact absurd h2 atom_not_means
    | style1 => rfl
  | .scroll h1 =>
    cases h' with
    | scroll h2 => exact means_unique h1 _ h2
    | scroll1 => exact absurd h1 atom_not_means
  | .scroll1 =>
    cases h' with
    | scroll h2 => exact absurd h2 atom_not_means
    | scroll1 => rfl
end

/-- C217: the text of a container condition is a condition by the grammar, and means what the condition does and nothing else,
whatever the values of the features. -/
theorem C217_container_condition (v : Nat → K3) (c : Con) (h : c.WF) (m : K3) :
    Means v .container c.toks m ↔ m = c.eval v :=
  ⟨fun h' => means_unique h' _ (con_ok v c h).means, by rintro rfl; exact (con_ok v c h).means⟩

/-- `style(…)` is an operand of the grammar only in a container condition, and the text of a query in it is one by itself. -/
theorem C217_style_query (v : Nat → K3) (q : Sub) (h : q.WF) (m : K3) :
    InParens v .container (.style (q.toks false)) m ↔ m = q.eval v :=
  ⟨fun h' => inParens_unique h' _ (style_ok v q h), by rintro rfl; exact style_ok v q h⟩

/-- `(width > 1px) and (height > 1px) and not …` and so on: a nested condition with the same operator, one with another, a negated
style query and a scroll state. -/
example : (Con.op .and [.op .and [.feature 0, .feature 1], .not (.op .or [.feature 2, .style (.not (.leaf 3))]), .scroll (.leaf 4)]).WF ∧
    (Con.op .and [.op .and [.feature 0, .feature 1], .not (.op .or [.feature 2, .style (.not (.leaf 3))]), .scroll (.leaf 4)]).toks =
      [.paren [.atom 0], .op .and, .paren [.atom 1], .op .and,
        .paren [.not, .paren [.paren [.atom 2], .op .or, .style [.not, .paren [.atom 3]]]], .op .and, .scroll [.atom 4]] := by
  refine ⟨?_, ?_⟩
  · simp [Con.WF, Con.WFs, Sub.WF]
  · simp [Con.toks, Con.opToks, Sub.toks, wrap, Con.needs, Sub.needs, scrollToks]

end Verif.Container
