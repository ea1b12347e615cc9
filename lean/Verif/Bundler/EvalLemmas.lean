import Verif.Bundler.Props
/-! Lemmas for C28: the evaluation of imports as a tree, and the import that `order` keeps of each file. -/
namespace Verif.Bundler
variable {P U M S B : Type}

/-- The tree of imports. -/
inductive Tree (P : Type)
  | node (p : P) (ts : List (Tree P))

/-- The file at the root. -/
def Tree.root : Tree P → P
  | .node p _ => p

/-- The roots of a list of trees. -/
def roots : List (Tree P) → List P
  | [] => []
  | t :: ts => t.root :: roots ts

mutual
/-- The order in which the files are evaluated. -/
def post : Tree P → List P
  | .node p ts => postAll ts ++ [p]
/-- The same for a list of trees. -/
def postAll : List (Tree P) → List P
  | [] => []
  | t :: ts => post t ++ postAll ts
end

mutual
/-- The children are the imports. -/
def IsTree (fs : P → File P U M S B) : Tree P → Prop
  | .node p ts => roots ts = (fs p).files ∧ AreTrees fs ts
/-- The same for a list of trees. -/
def AreTrees (fs : P → File P U M S B) : List (Tree P) → Prop
  | [] => True
  | t :: ts => IsTree fs t ∧ AreTrees fs ts
end

/-- An import: the importing file and the index of the import, and the imported file. -/
abbrev Edge (P : Type) := (P × Nat) × P

mutual
/-- All imports, in the order in which they are evaluated. -/
def edges : Tree P → List (Edge P)
  | .node p ts => edgesAll p 0 ts
/-- The same for a list of children, beginning at an index. -/
def edgesAll (p : P) (i : Nat) : List (Tree P) → List (Edge P)
  | [] => []
  | t :: ts => ((p, i), t.root) :: (edges t ++ edgesAll p (i + 1) ts)
end

mutual
/-- The number of nodes. -/
def Tree.size : Tree P → Nat
  | .node _ ts => sizeAll ts + 1
/-- The same for a list of trees. -/
def sizeAll : List (Tree P) → Nat
  | [] => 0
  | t :: ts => t.size + sizeAll ts
end

mutual
theorem tree_of_evaluates {fs : P → File P U M S B} {p : P} {l : List P} : Evaluates fs p l → ∃ t, IsTree fs t ∧ t.root = p ∧ post t = l
  | .mk p l h => by
    obtain ⟨ts, h1, h2, h3⟩ := trees_of_evaluates h
    exact ⟨.node p ts, ⟨h2, h1⟩, rfl, by simp [post, h3]⟩
theorem trees_of_evaluates {fs : P → File P U M S B} {ps : List P} {l : List P} : EvaluatesAll fs ps l → ∃ ts, AreTrees fs ts ∧ roots ts = ps ∧ postAll ts = l
  | .nil => ⟨[], trivial, rfl, rfl⟩
  | .cons p ps l m h h' => by
    obtain ⟨t, h1, h2, h3⟩ := tree_of_evaluates h
    obtain ⟨ts, h4, h5, h6⟩ := trees_of_evaluates h'
    exact ⟨t :: ts, ⟨h1, h4⟩, by simp [roots, h2, h5], by simp [postAll, h3, h6]⟩
end

mutual
theorem tree_unique {fs : P → File P U M S B} : ∀ t t' : Tree P, IsTree fs t → IsTree fs t' → t.root = t'.root → t = t'
  | .node p ts, .node q ts', h, h', e => by
    simp only [Tree.root] at e
    subst e
    rw [trees_unique ts ts' h.2 h'.2 (h.1.trans h'.1.symm)]
theorem trees_unique {fs : P → File P U M S B} : ∀ ts ts' : List (Tree P), AreTrees fs ts → AreTrees fs ts' → roots ts = roots ts' → ts = ts'
  | [], [], _, _, _ => rfl
  | [], _ :: _, _, _, e => by simp [roots] at e
  | _ :: _, [], _, _, e => by simp [roots] at e
  | t :: ts, t' :: ts', h, h', e => by
    simp only [roots, List.cons.injEq] at e
    rw [tree_unique t t' h.1 h'.1 e.1, trees_unique ts ts' h.2 h'.2 e.2]
end

mutual
/-- Every node is the root of a subtree. -/
theorem subtree {fs : P → File P U M S B} : ∀ (t : Tree P) (x : P), IsTree fs t → x ∈ post t → ∃ t', IsTree fs t' ∧ t'.root = x ∧ t'.size ≤ t.size ∧ post t' ⊆ post t
  | .node p ts, x, h, hx => by
    simp only [post, List.mem_append, List.mem_singleton] at hx
    rcases hx with hx | rfl
    · obtain ⟨t', h1, h2, h3, h4⟩ := subtrees ts x h.2 hx
      exact ⟨t', h1, h2, by simp only [Tree.size]; omega, fun y hy => by simp only [post, List.mem_append]; exact .inl (h4 hy)⟩
    · exact ⟨.node x ts, h, rfl, Nat.le_refl _, fun _ => id⟩
/-- The same for a list of trees. -/
theorem subtrees {fs : P → File P U M S B} : ∀ (ts : List (Tree P)) (x : P), AreTrees fs ts → x ∈ postAll ts → ∃ t', IsTree fs t' ∧ t'.root = x ∧ t'.size ≤ sizeAll ts ∧ post t' ⊆ postAll ts
  | [], x, _, hx => by simp [postAll] at hx
  | t :: ts, x, h, hx => by
    simp only [postAll, List.mem_append] at hx
    rcases hx with hx | hx
    · obtain ⟨t', h1, h2, h3, h4⟩ := subtree t x h.1 hx
      exact ⟨t', h1, h2, by simp only [sizeAll]; omega, fun y hy => by simp only [postAll, List.mem_append]; exact .inl (h4 hy)⟩
    · obtain ⟨t', h1, h2, h3, h4⟩ := subtrees ts x h.2 hx
      exact ⟨t', h1, h2, by simp only [sizeAll]; omega, fun y hy => by simp only [postAll, List.mem_append]; exact .inr (h4 hy)⟩
end

/-- A file does not occur below itself. -/
theorem acyclic {fs : P → File P U M S B} {p : P} {ts : List (Tree P)} (h : IsTree fs (.node p ts)) : p ∉ postAll ts := by
  intro hp
  obtain ⟨t', h1, h2, h3, -⟩ := subtrees ts p h.2 hp
  have := tree_unique t' (.node p ts) h1 h h2
  subst this
  simp only [Tree.size] at h3
  omega

theorem root_mem (t : Tree P) : t.root ∈ post t := by cases t; simp [post, Tree.root]

theorem roots_subset : ∀ ts : List (Tree P), roots ts ⊆ postAll ts
  | [] => by simp [roots]
  | t :: ts => by
    intro x hx
    simp only [roots, List.mem_cons] at hx
    simp only [postAll, List.mem_append]
    rcases hx with rfl | hx
    · exact .inl (root_mem t)
    · exact .inr (roots_subset ts hx)

mutual
theorem edges_target : ∀ (t : Tree P) (v : P), (∃ e, (e, v) ∈ edges t) ∨ v = t.root ↔ v ∈ post t
  | .node p ts, v => by
    simp only [edges, Tree.root, post, List.mem_append, List.mem_singleton]
    rw [edgesAll_target ts v]
theorem edgesAll_target {p : P} {i : Nat} : ∀ (ts : List (Tree P)) (v : P), (∃ e, (e, v) ∈ edgesAll p i ts) ↔ v ∈ postAll ts
  | [], v => by simp [edgesAll, postAll]
  | t :: ts, v => by
    simp only [edgesAll, postAll, List.mem_cons, List.mem_append, Prod.mk.injEq]
    rw [← edges_target t v, ← edgesAll_target (p := p) (i := i + 1) ts v]
    constructor
    · rintro ⟨e, ⟨-, rfl⟩ | h | h⟩
      · exact .inl (.inr rfl)
      · exact .inl (.inl ⟨e, h⟩)
      · exact .inr ⟨e, h⟩
    · rintro ((⟨e, h⟩ | rfl) | ⟨e, h⟩)
      · exact ⟨e, .inr (.inl h)⟩
      · exact ⟨_, .inl ⟨rfl, rfl⟩⟩
      · exact ⟨e, .inr (.inr h)⟩
end

mutual
theorem edges_source : ∀ (t : Tree P) (e : P × Nat) (v : P), (e, v) ∈ edges t → e.1 ∈ post t
  | .node p ts, e, v, h => by
    simp only [edges] at h
    simp only [post, List.mem_append, List.mem_singleton]
    rcases edgesAll_source ts e v h with h | ⟨h, -⟩
    · exact .inl h
    · exact .inr h
theorem edgesAll_source {p : P} {i : Nat} : ∀ (ts : List (Tree P)) (e : P × Nat) (v : P), (e, v) ∈ edgesAll p i ts → e.1 ∈ postAll ts ∨ (e.1 = p ∧ i ≤ e.2)
  | [], e, v, h => by simp [edgesAll] at h
  | t :: ts, e, v, h => by
    simp only [edgesAll, List.mem_cons, List.mem_append, Prod.mk.injEq] at h
    simp only [postAll, List.mem_append]
    rcases h with ⟨rfl, -⟩ | h | h
    · exact .inr ⟨rfl, Nat.le_refl _⟩
    · exact .inl (.inl (edges_source t e v h))
    · rcases edgesAll_source ts e v h with h | ⟨h, h'⟩
      · exact .inl (.inr h)
      · exact .inr ⟨h, by omega⟩
end

variable [DecidableEq P]

/-- The last import of a file in a list. -/
def lastInto (v : P) : List (Edge P) → Option (P × Nat)
  | [] => none
  | (e, w) :: es => (lastInto v es).or (if w = v then some e else none)

theorem lastInto_append (v : P) (a b : List (Edge P)) : lastInto v (a ++ b) = (lastInto v b).or (lastInto v a) := by
  induction a with
  | nil => simp [lastInto]
  | cons x a ih => obtain ⟨e, w⟩ := x; simp only [List.cons_append, lastInto, ih, Option.or_assoc]

theorem lastInto_none {v : P} {es : List (Edge P)} : lastInto v es = none ↔ ∀ e, (e, v) ∉ es := by
  induction es with
  | nil => simp [lastInto]
  | cons x es ih =>
    obtain ⟨e, w⟩ := x
    simp only [lastInto, Option.or_eq_none_iff, ih, List.mem_cons, Prod.mk.injEq, not_or, not_and]
    constructor
    · rintro ⟨h1, h2⟩ e'
      refine ⟨?_, h1 e'⟩
      rintro - rfl
      simp at h2
    · intro h
      refine ⟨fun e' => (h e').2, ?_⟩
      split
      · rename_i hw; exact absurd hw.symm ((h e).1 rfl)
      · rfl

theorem lastInto_split {v : P} {es : List (Edge P)} {e : P × Nat} (h : lastInto v es = some e) : ∃ a b, es = a ++ (e, v) :: b ∧ lastInto v b = none := by
  induction es with
  | nil => simp [lastInto] at h
  | cons x es ih =>
    obtain ⟨e', w⟩ := x
    simp only [lastInto] at h
    cases hl : lastInto v es with
    | none =>
      rw [hl] at h
      simp only [Option.none_or] at h
      split at h
      · rename_i hw
        simp only [Option.some.injEq] at h
        subst hw; subst h
        exact ⟨[], es, rfl, hl⟩
      · simp at h
    | some e'' =>
      rw [hl] at h
      simp only [Option.some_or, Option.some.injEq] at h
      subst h
      obtain ⟨a, b, h1, h2⟩ := ih hl
      exact ⟨(e', w) :: a, b, by simp [h1], h2⟩

theorem lastInto_mem {v : P} {es : List (Edge P)} {e : P × Nat} (h : lastInto v es = some e) : (e, v) ∈ es := by
  obtain ⟨a, b, h1, -⟩ := lastInto_split h
  rw [h1]; simp

theorem lastInto_filter {v u : P} {es : List (Edge P)} (h : ∀ e, (e, v) ∈ es → e.1 = u) : lastInto v es = lastInto v (es.filter fun x => x.1.1 = u) := by
  induction es with
  | nil => rfl
  | cons x es ih =>
    obtain ⟨e, w⟩ := x
    have ih := ih fun e he => h e (List.mem_cons_of_mem _ he)
    simp only [lastInto]
    by_cases hu : e.1 = u
    · simp only [List.filter_cons, hu, decide_true, if_true, lastInto, ih]
    · have hw : w ≠ v := by rintro rfl; exact hu (h e (List.mem_cons_self ..))
      simp [hu, ih, hw]

/-- The imports of one file. -/
def edgesFrom (u : P) (i : Nat) : List P → List (Edge P)
  | [] => []
  | d :: ds => ((u, i), d) :: edgesFrom u (i + 1) ds

omit [DecidableEq P] in
theorem mem_edgesFrom {u : P} {e : P × Nat} {v : P} (ds : List P) : ∀ i, (e, v) ∈ edgesFrom u i ds → i ≤ e.2 ∧ e.1 = u ∧ v ∈ ds := by
  induction ds with
  | nil => intro i h; simp [edgesFrom] at h
  | cons d ds ih =>
    intro i h
    simp only [edgesFrom, List.mem_cons, Prod.mk.injEq] at h
    rcases h with ⟨rfl, rfl⟩ | h
    · exact ⟨Nat.le_refl _, rfl, List.mem_cons_self ..⟩
    · obtain ⟨h1, h2, h3⟩ := ih (i + 1) h
      exact ⟨by omega, h2, List.mem_cons_of_mem _ h3⟩

omit [DecidableEq P] in
theorem edgesFrom_nodup (u : P) (ds : List P) : ∀ i, (edgesFrom u i ds).Nodup := by
  induction ds with
  | nil => intro i; exact .nil
  | cons d ds ih =>
    intro i
    refine List.nodup_cons.2 ⟨fun h => ?_, ih _⟩
    have := (mem_edgesFrom ds _ h).1
    simp only at this
    omega

omit [DecidableEq P] in
theorem edgesFrom_complete {u v : P} (ds : List P) : ∀ i, v ∈ ds → ∃ e, (e, v) ∈ edgesFrom u i ds := by
  induction ds with
  | nil => intro i h; exact absurd h List.not_mem_nil
  | cons d ds ih =>
    intro i h
    rcases List.mem_cons.1 h with rfl | h
    · exact ⟨_, List.mem_cons_self ..⟩
    · obtain ⟨e, he⟩ := ih (i + 1) h
      exact ⟨e, List.mem_cons_of_mem _ he⟩

/-! ### The imports seen by the order phase -/

mutual
/-- The stylesheets visited and the imports seen when a tree is visited. -/
def trace : Tree P → List P → List P × List (Edge P)
  | .node p ts, v => if p ∈ v then (v, []) else traceAll p 0 ts (p :: v)
/-- The same for a list of children. -/
def traceAll (p : P) (i : Nat) : List (Tree P) → List P → List P × List (Edge P)
  | [], v => (v, [])
  | t :: ts, v =>
    let r := trace t v
    let r' := traceAll p (i + 1) ts r.1
    (r'.1, ((p, i), t.root) :: (r.2 ++ r'.2))
end

/-- The parents after some imports have been seen. -/
def setAll (par : P → P × Nat) (es : List (Edge P)) : P → P × Nat := fun v => (lastInto v es).getD (par v)

theorem setAll_append (par : P → P × Nat) (a b : List (Edge P)) : setAll (setAll par a) b = setAll par (a ++ b) := by
  funext v
  simp only [setAll, lastInto_append]
  cases lastInto v b <;> cases lastInto v a <;> rfl

mutual
theorem order_trace {fs : P → File P U M S B} (hcss : ∀ p, (fs p).css = []) : ∀ (t : Tree P) (fuel : Nat) (st : OSt P), IsTree fs t → t.size ≤ fuel →
    order fs fuel t.root st = ⟨(trace t st.visited).1, setAll st.parent (trace t st.visited).2⟩
  | .node p ts, 0, st, h, hf => by simp [Tree.size] at hf
  | .node p ts, fuel + 1, st, h, hf => by
    simp only [order, Tree.root, trace]
    by_cases hp : p ∈ st.visited
    · simp only [hp, if_true]; rfl
    · simp only [hp, if_false, hcss, orderCss, List.length_nil]
      rw [← h.1]
      exact orderImports_trace hcss ts p 0 fuel { st with visited := p :: st.visited } h.2 (by simp only [Tree.size] at hf; omega)
theorem orderImports_trace {fs : P → File P U M S B} (hcss : ∀ p, (fs p).css = []) : ∀ (ts : List (Tree P)) (p : P) (i fuel : Nat) (st : OSt P), AreTrees fs ts → sizeAll ts ≤ fuel →
    orderImports (order fs fuel) p i (roots ts) st = ⟨(traceAll p i ts st.visited).1, setAll st.parent (traceAll p i ts st.visited).2⟩
  | [], p, i, fuel, st, h, hf => rfl
  | t :: ts, p, i, fuel, st, h, hf => by
    simp only [roots, orderImports, traceAll]
    simp only [sizeAll] at hf
    rw [order_trace hcss t fuel (st.setParent t.root (p, i)) h.1 (by omega)]
    rw [orderImports_trace hcss ts p (i + 1) fuel _ h.2 (by omega)]
    simp only [OSt.setParent]
    congr 1
    have hset : (fun x => if x = t.root then (p, i) else st.parent x) = setAll st.parent [((p, i), t.root)] := by
      funext x
      simp only [setAll, lastInto, Option.none_or]
      by_cases hx : x = t.root
      · simp [hx]
      · simp [hx, Ne.symm hx]
    rw [hset, setAll_append, setAll_append]
    simp
end

mutual
theorem trace_sublist : ∀ (t : Tree P) (v : List P), (trace t v).2.Sublist (edges t)
  | .node p ts, v => by
    simp only [trace, edges]
    split
    · exact List.nil_sublist _
    · exact traceAll_sublist p 0 ts _
theorem traceAll_sublist (p : P) (i : Nat) : ∀ (ts : List (Tree P)) (v : List P), (traceAll p i ts v).2.Sublist (edgesAll p i ts)
  | [], v => List.Sublist.refl _
  | t :: ts, v => by
    simp only [traceAll, edgesAll]
    exact ((trace_sublist t v).append (traceAll_sublist p (i + 1) ts _)).cons₂ _
end

/-- What was visited is closed under imports, except below the ancestors. -/
def ClosedV (fs : P → File P U M S B) (A v : List P) : Prop := ∀ x ∈ v, x ∉ A → ∀ y ∈ (fs x).files, y ∈ v

mutual
theorem closed_post {fs : P → File P U M S B} {A v : List P} (hv : ClosedV fs A v) : ∀ t : Tree P, IsTree fs t → (∀ x ∈ post t, x ∉ A) → t.root ∈ v → post t ⊆ v
  | .node p ts, h, hA, hr => by
    have hp : p ∉ A := hA p (by simp [post])
    have := closed_postAll hv ts h.2 (fun x hx => hA x (by simp [post, hx])) (fun x hx => hv p hr hp x (by rw [← h.1]; exact hx))
    intro x hx
    simp only [post, List.mem_append, List.mem_singleton] at hx
    rcases hx with hx | rfl
    · exact this hx
    · exact hr
theorem closed_postAll {fs : P → File P U M S B} {A v : List P} (hv : ClosedV fs A v) : ∀ ts : List (Tree P), AreTrees fs ts → (∀ x ∈ postAll ts, x ∉ A) → roots ts ⊆ v → postAll ts ⊆ v
  | [], _, _, _ => by simp [postAll]
  | t :: ts, h, hA, hr => by
    intro x hx
    simp only [postAll, List.mem_append] at hx
    rcases hx with hx | hx
    · exact closed_post hv t h.1 (fun x hx => hA x (by simp [postAll, hx])) (hr (by simp [roots])) hx
    · exact closed_postAll hv ts h.2 (fun x hx => hA x (by simp [postAll, hx])) (fun x hx => hr (by simp [roots, hx])) hx
end

mutual
/-- What is visited, and that the imports of each file are seen once. -/
theorem trace_spec {fs : P → File P U M S B} : ∀ (t : Tree P) (A v : List P), IsTree fs t → ClosedV fs A v → (∀ x ∈ post t, x ∉ A) →
    ClosedV fs A (trace t v).1 ∧ (∀ x, x ∈ (trace t v).1 ↔ x ∈ v ∨ x ∈ post t) ∧
    ∀ u, ((trace t v).2.filter fun x => x.1.1 = u) = if u ∈ post t ∧ u ∉ v then edgesFrom u 0 (fs u).files else []
  | .node p ts, A, v, h, hv, hA => by
    have hac := acyclic h
    by_cases hp : p ∈ v
    · have hsub := closed_post hv (.node p ts) h hA hp
      simp only [trace, hp, if_true]
      refine ⟨hv, fun x => ⟨.inl, fun hx => hx.elim id fun h => hsub h⟩, fun u => ?_⟩
      rw [if_neg (fun hu => hu.2 (hsub hu.1))]
      rfl
    · simp only [trace, hp, if_false]
      have hv' : ClosedV fs (p :: A) (p :: v) := by
        intro x hx hxA y hy
        simp only [List.mem_cons, not_or] at hxA
        exact List.mem_cons_of_mem _ (hv x ((List.mem_cons.1 hx).resolve_left hxA.1) hxA.2 y hy)
      obtain ⟨h1, h2, h3⟩ := traceAll_spec ts p 0 (p :: A) (p :: v) h.2 hv' (fun x hx => by
        simp only [List.mem_cons, not_or]
        exact ⟨fun e => hac (e ▸ hx), hA x (by simp [post, hx])⟩)
      refine ⟨?_, ?_, ?_⟩
      · intro x hx hxA y hy
        by_cases hxp : x = p
        · subst hxp
          rw [← h.1] at hy
          exact (h2 y).2 (.inr (roots_subset ts hy))
        · exact h1 x hx (by simp [hxp, hxA]) y hy
      · intro x
        rw [h2]
        simp only [List.mem_cons, post, List.mem_append, List.not_mem_nil, or_false]
        constructor
        · rintro ((rfl | h) | h)
          · exact .inr (.inr rfl)
          · exact .inl h
          · exact .inr (.inl h)
        · rintro (h | h | rfl)
          · exact .inl (.inr h)
          · exact .inr h
          · exact .inl (.inl rfl)
      · intro u
        by_cases hup : u = p
        · subst hup
          rw [(h3 u (List.mem_cons_self ..)).2 rfl, if_pos ⟨by simp [post], hp⟩, h.1]
        · rw [(h3 p (List.mem_cons_self ..)).1 u hup]
          simp only [post, List.mem_append, List.mem_cons, List.not_mem_nil, hup, or_false, false_or]
/-- The same for a list of children. -/
theorem traceAll_spec {fs : P → File P U M S B} : ∀ (ts : List (Tree P)) (p : P) (i : Nat) (A v : List P), AreTrees fs ts → ClosedV fs A v → (∀ x ∈ postAll ts, x ∉ A) →
    ClosedV fs A (traceAll p i ts v).1 ∧ (∀ x, x ∈ (traceAll p i ts v).1 ↔ x ∈ v ∨ x ∈ postAll ts) ∧
    ∀ w ∈ A, (∀ u, u ≠ p → ((traceAll p i ts v).2.filter fun x => x.1.1 = u) = if u ∈ postAll ts ∧ u ∉ v then edgesFrom u 0 (fs u).files else []) ∧
      (w = p → ((traceAll p i ts v).2.filter fun x => x.1.1 = p) = edgesFrom p i (roots ts))
  | [], p, i, A, v, _, hv, _ => ⟨hv, by simp [traceAll, postAll], fun w hw => ⟨by simp [traceAll, postAll], by simp [traceAll, roots, edgesFrom]⟩⟩
  | t :: ts, p, i, A, v, h, hv, hA => by
    obtain ⟨a1, a2, a3⟩ := trace_spec t A v h.1 hv (fun x hx => hA x (by simp [postAll, hx]))
    obtain ⟨b1, b2, b3⟩ := traceAll_spec ts p (i + 1) A (trace t v).1 h.2 a1 (fun x hx => hA x (by simp [postAll, hx]))
    simp only [traceAll]
    refine ⟨b1, fun x => ?_, fun w hw => ⟨fun u hu => ?_, ?_⟩⟩
    · rw [b2, a2]; simp only [postAll, List.mem_append, or_assoc]
    · rw [List.filter_cons]
      simp only [Ne.symm hu, decide_false, Bool.false_eq_true, if_false, List.filter_append, a3, (b3 w hw).1 u hu, a2, postAll, List.mem_append]
      by_cases h1 : u ∈ post t <;> by_cases h2 : u ∈ postAll ts <;> by_cases h3 : u ∈ v <;> simp [h1, h2, h3]
    · rintro rfl
      rw [List.filter_cons]
      have hw' : w ∉ post t := fun hx => hA w (by simp [postAll, hx]) hw
      simp only [decide_true, if_true, List.filter_append, a3, (b3 w hw).2 rfl, hw', false_and, if_false, List.nil_append, roots, edgesFrom]
end

/-- Copies of a list. -/
def copies (n : Nat) (l : List (Edge P)) : List (Edge P) :=
  match n with
  | 0 => []
  | n + 1 => l ++ copies n l

omit [DecidableEq P] in
theorem copies_add (n m : Nat) (l : List (Edge P)) : copies (n + m) l = copies n l ++ copies m l := by
  induction n with
  | zero => simp [copies]
  | succ n ih => rw [Nat.add_right_comm]; simp [copies, ih]

mutual
/-- All imports of one file: as often as it is evaluated. -/
theorem edges_filter {fs : P → File P U M S B} : ∀ (t : Tree P) (u : P), IsTree fs t →
    ((edges t).filter fun x => x.1.1 = u) = copies ((post t).count u) (edgesFrom u 0 (fs u).files)
  | .node p ts, u, h => by
    have hac := acyclic h
    simp only [edges, post, List.count_append]
    by_cases hu : u = p
    · subst hu
      rw [edgesAll_filter_self ts u 0 h.2 hac, h.1, List.count_eq_zero_of_not_mem hac]
      simp [copies]
    · rw [edgesAll_filter ts p u 0 h.2 hu]
      simp [Ne.symm hu]
theorem edgesAll_filter {fs : P → File P U M S B} : ∀ (ts : List (Tree P)) (p u : P) (i : Nat), AreTrees fs ts → u ≠ p →
    ((edgesAll p i ts).filter fun x => x.1.1 = u) = copies ((postAll ts).count u) (edgesFrom u 0 (fs u).files)
  | [], p, u, i, _, _ => by simp [edgesAll, postAll, copies]
  | t :: ts, p, u, i, h, hu => by
    simp only [edgesAll, postAll, List.count_append, copies_add]
    rw [List.filter_cons]
    simp only [Ne.symm hu, decide_false, Bool.false_eq_true, if_false, List.filter_append]
    rw [edges_filter t u h.1, edgesAll_filter ts p u (i + 1) h.2 hu]
theorem edgesAll_filter_self {fs : P → File P U M S B} : ∀ (ts : List (Tree P)) (p : P) (i : Nat), AreTrees fs ts → p ∉ postAll ts →
    ((edgesAll p i ts).filter fun x => x.1.1 = p) = edgesFrom p i (roots ts)
  | [], p, i, _, _ => rfl
  | t :: ts, p, i, h, hp => by
    simp only [postAll, List.mem_append, not_or] at hp
    simp only [edgesAll, roots, edgesFrom]
    rw [List.filter_cons]
    simp only [decide_true, if_true, List.filter_append]
    rw [edges_filter t p h.1, edgesAll_filter_self ts p (i + 1) h.2 hp.2, List.count_eq_zero_of_not_mem hp.1]
    simp [copies]
end

theorem lastInto_copies {v : P} {l : List (Edge P)} (n : Nat) : lastInto v (copies (n + 1) l) = lastInto v l := by
  induction n with
  | zero => simp [copies]
  | succ n ih =>
    rw [copies, lastInto_append, ih]
    cases lastInto v l <;> rfl

theorem lastInto_sublist {v : P} {F T X Y : List (Edge P)} {e : P × Nat} (hs : T.Sublist F) (hF : F = X ++ (e, v) :: Y) (hY : lastInto v Y = none) (hx : (e, v) ∉ X)
    (hT : (e, v) ∈ T) : lastInto v T = some e := by
  subst hF
  obtain ⟨T1, T2, rfl, h1, h2⟩ := List.sublist_append_iff.1 hs
  have hY' := lastInto_none.1 hY
  rcases List.mem_append.1 hT with hT | hT
  · exact absurd (h1.subset hT) hx
  · cases h2 with
    | cons _ h => exact absurd (h.subset hT) (hY' e)
    | @cons_cons T2' _ _ h =>
      have : lastInto v T2' = none := lastInto_none.2 fun e' he => hY' e' (h.subset he)
      simp [lastInto_append, lastInto, this]

/-- A file that two files import is imported only by files that are evaluated once. -/
def Shared (fs : P → File P U M S B) (l : List P) : Prop :=
  ∀ v u u', u ∈ l → u' ∈ l → u ≠ u' → v ∈ (fs u).files → v ∈ (fs u').files → l.count u = 1

/-- The order phase keeps the last import of each file. -/
theorem trace_last {fs : P → File P U M S B} {t : Tree P} (h : IsTree fs t) (hs : Shared fs (post t)) (v : P) :
    lastInto v (trace t []).2 = lastInto v (edges t) := by
  obtain ⟨-, -, h3⟩ := trace_spec t [] [] h (fun x hx => absurd hx List.not_mem_nil) (fun _ _ => List.not_mem_nil)
  have hsub := trace_sublist t []
  cases hl : lastInto v (edges t) with
  | none => exact lastInto_none.2 fun e he => lastInto_none.1 hl e (hsub.subset he)
  | some e =>
    have hm := lastInto_mem hl
    have hu := edges_source t e v hm
    have hf : ((e, v) : Edge P) ∈ (edges t).filter fun x => x.1.1 = e.1 := List.mem_filter.2 ⟨hm, by simp⟩
    have hcount : 0 < (post t).count e.1 := List.count_pos_iff.2 hu
    have hmem : (e, v) ∈ edgesFrom e.1 0 (fs e.1).files := by
      rw [edges_filter t e.1 h] at hf
      revert hf
      generalize (post t).count e.1 = n
      induction n with
      | zero => intro hf; simp [copies] at hf
      | succ n ih =>
        intro hf
        rcases List.mem_append.1 hf with hf | hf
        · exact hf
        · exact ih hf
    have hT : (e, v) ∈ (trace t []).2 := by
      have := h3 e.1
      rw [if_pos ⟨hu, List.not_mem_nil⟩] at this
      rw [← this] at hmem
      exact (List.mem_filter.1 hmem).1
    by_cases hone : ∀ e', (e', v) ∈ edges t → e'.1 = e.1
    · rw [lastInto_filter (u := e.1) fun e' he => hone e' (hsub.subset he), h3, if_pos ⟨hu, List.not_mem_nil⟩]
      rw [← hl, lastInto_filter (u := e.1) hone, edges_filter t e.1 h]
      obtain ⟨n, hn⟩ := Nat.exists_eq_add_of_lt hcount
      rw [hn, Nat.zero_add, lastInto_copies]
    · simp only [not_forall] at hone
      obtain ⟨e', he', hne⟩ := hone
      have hmem' : ∃ e'', (e'', v) ∈ edgesFrom e'.1 0 (fs e'.1).files := by
        have hf' : ((e', v) : Edge P) ∈ (edges t).filter fun x => x.1.1 = e'.1 := List.mem_filter.2 ⟨he', by simp⟩
        rw [edges_filter t e'.1 h] at hf'
        revert hf'
        generalize (post t).count e'.1 = n
        induction n with
        | zero => intro hf; simp [copies] at hf
        | succ n ih =>
          intro hf
          rcases List.mem_append.1 hf with hf | hf
          · exact ⟨_, hf⟩
          · exact ih hf
      obtain ⟨e'', he''⟩ := hmem'
      have hc := hs v e.1 e'.1 hu (edges_source t e' v he') (Ne.symm hne) (mem_edgesFrom _ _ hmem).2.2 (mem_edgesFrom _ _ he'').2.2
      obtain ⟨X, Y, hF, hY⟩ := lastInto_split hl
      refine lastInto_sublist hsub hF hY ?_ hT
      intro hX
      have h1 := edges_filter t e.1 h
      rw [hc, hF] at h1
      simp only [copies, List.append_nil, List.filter_append, List.filter_cons, decide_true, if_true] at h1
      have h2 := edgesFrom_nodup e.1 (fs e.1).files 0
      rw [← h1] at h2
      exact (List.nodup_append.1 h2).2.2 _ (List.mem_filter.2 ⟨hX, by simp⟩) _ (List.mem_cons_self ..) rfl
end Verif.Bundler
