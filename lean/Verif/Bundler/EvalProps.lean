import Verif.Bundler.EvalLemmas
/-! C28: the order of the files in a bundle is that of their last evaluation. -/
namespace Verif.Bundler
variable {P U M S B : Type} [DecidableEq P]

/-- The elements of the first list that are not repeated later, where the second list comes after the first. -/
def keepBefore : List P → List P → List P
  | [], _ => []
  | a :: l, R => if a ∈ l ∨ a ∈ R then keepBefore l R else a :: keepBefore l R

theorem keepBefore_append (a b R : List P) : keepBefore (a ++ b) R = keepBefore a (b ++ R) ++ keepBefore b R := by
  induction a with
  | nil => rfl
  | cons x a ih =>
    simp only [List.cons_append, keepBefore, List.mem_append, ih, or_assoc]
    split <;> rfl

theorem keepBefore_nil (a : List P) : keepBefore a [] = keepLast a := by
  induction a with
  | nil => rfl
  | cons x a ih => simp only [keepBefore, keepLast, ih, List.not_mem_nil, or_false]

theorem keepBefore_subset {a R : List P} (h : a ⊆ R) : keepBefore a R = [] := by
  induction a with
  | nil => rfl
  | cons x a ih =>
    simp only [keepBefore]
    rw [if_pos (.inr (h (List.mem_cons_self ..)))]
    exact ih fun y hy => h (List.mem_cons_of_mem _ hy)

mutual
/-- The parents say which imports are the last ones; `R` is what is evaluated later. -/
def Link (par : P → P × Nat) : Tree P → List P → Prop
  | .node u ts, R => LinkAll par u 0 ts R
/-- The same for a list of children. -/
def LinkAll (par : P → P × Nat) (u : P) (i : Nat) : List (Tree P) → List P → Prop
  | [], _ => True
  | t :: ts, R => (par t.root = (u, i) ↔ t.root ∉ postAll ts ++ u :: R) ∧ (t.root ∈ postAll ts ++ u :: R → post t ⊆ postAll ts ++ u :: R) ∧
    (t.root ∉ postAll ts ++ u :: R → Link par t (postAll ts ++ u :: R)) ∧ LinkAll par u (i + 1) ts R
end

mutual
theorem link {fs : P → File P U M S B} {par : P → P × Nat} {total : List (Edge P)} (hpar : ∀ v e, lastInto v total = some e → par v = e) :
    ∀ (t : Tree P) (A R : List P) (E0 E1 : List (Edge P)), IsTree fs t → (∀ x ∈ post t, x ∉ A) → t.root ∉ R →
    (∀ v, v ∉ A → (v ∈ R ↔ ∃ e, (e, v) ∈ E1)) → (∀ e v, (e, v) ∈ E1 → e.1 ∈ A ∨ e.1 ∈ R) →
    (∀ v ∈ R, v ∉ A → ∀ t', IsTree fs t' → t'.root = v → post t' ⊆ R) → total = E0 ++ edges t ++ E1 → Link par t R
  | .node u ts, A, R, E0, E1, h, hA, hR, h1, h3, hg, ht => by
    simp only [Link]
    exact linkAll hpar ts u 0 A R E0 E1 h.2 (acyclic h) (hA u (by simp [post])) (fun x hx => hA x (by simp [post, hx])) hR h1 h3 hg ht
theorem linkAll {fs : P → File P U M S B} {par : P → P × Nat} {total : List (Edge P)} (hpar : ∀ v e, lastInto v total = some e → par v = e) :
    ∀ (ts : List (Tree P)) (u : P) (i : Nat) (A R : List P) (E0 E1 : List (Edge P)), AreTrees fs ts → u ∉ postAll ts → u ∉ A → (∀ x ∈ postAll ts, x ∉ A) → u ∉ R →
    (∀ v, v ∉ A → (v ∈ R ↔ ∃ e, (e, v) ∈ E1)) → (∀ e v, (e, v) ∈ E1 → e.1 ∈ A ∨ e.1 ∈ R) →
    (∀ v ∈ R, v ∉ A → ∀ t', IsTree fs t' → t'.root = v → post t' ⊆ R) → total = E0 ++ edgesAll u i ts ++ E1 → LinkAll par u i ts R
  | [], _, _, _, _, _, _, _, _, _, _, _, _, _, _, _ => trivial
  | t :: ts, u, i, A, R, E0, E1, h, hu, huA, hA, huR, h1, h3, hg, ht => by
    simp only [postAll, List.mem_append, not_or] at hu
    have hA' : ∀ x ∈ post t, x ∉ u :: A := by
      intro x hx
      simp only [List.mem_cons, not_or]
      exact ⟨fun e => hu.1 (e ▸ hx), hA x (by simp [postAll, hx])⟩
    have h1' : ∀ v, v ∉ u :: A → (v ∈ postAll ts ++ u :: R ↔ ∃ e, (e, v) ∈ edgesAll u (i + 1) ts ++ E1) := by
      intro v hv
      simp only [List.mem_cons, not_or] at hv
      simp only [List.mem_append, List.mem_cons, hv.1, false_or, h1 v hv.2, ← edgesAll_target (p := u) (i := i + 1) ts v]
      constructor
      · rintro (⟨e, h⟩ | ⟨e, h⟩)
        · exact ⟨e, .inl h⟩
        · exact ⟨e, .inr h⟩
      · rintro ⟨e, h | h⟩
        · exact .inl ⟨e, h⟩
        · exact .inr ⟨e, h⟩
    have h3' : ∀ e v, (e, v) ∈ edgesAll u (i + 1) ts ++ E1 → e.1 ∈ u :: A ∨ e.1 ∈ postAll ts ++ u :: R := by
      intro e v he
      rcases List.mem_append.1 he with he | he
      · rcases edgesAll_source ts e v he with h | ⟨h, -⟩
        · exact .inr (List.mem_append_left _ h)
        · exact .inl (by simp [h])
      · rcases h3 e v he with h | h
        · exact .inl (List.mem_cons_of_mem _ h)
        · exact .inr (List.mem_append_right _ (List.mem_cons_of_mem _ h))
    have hg' : ∀ v ∈ postAll ts ++ u :: R, v ∉ u :: A → ∀ t', IsTree fs t' → t'.root = v → post t' ⊆ postAll ts ++ u :: R := by
      intro v hv hvA t' ht' hr
      simp only [List.mem_cons, not_or] at hvA
      rcases List.mem_append.1 hv with hv | hv
      · obtain ⟨t'', a, b, -, d⟩ := subtrees ts v h.2 hv
        rw [tree_unique t' t'' ht' a (hr.trans b.symm)]
        exact fun x hx => List.mem_append_left _ (d hx)
      · intro x hx
        exact List.mem_append_right _ (List.mem_cons_of_mem _ (hg v ((List.mem_cons.1 hv).resolve_left hvA.1) hvA.2 t' ht' hr hx))
    have hrA : t.root ∉ u :: A := hA' _ (root_mem t)
    have htot : total = (E0 ++ [((u, i), t.root)]) ++ edges t ++ (edgesAll u (i + 1) ts ++ E1) := by
      rw [ht]; simp [edgesAll]
    simp only [LinkAll]
    refine ⟨⟨?_, ?_⟩, fun hm => hg' _ hm hrA t h.1 rfl, fun hm => ?_, ?_⟩
    · intro hp hm
      obtain ⟨e, he⟩ := (h1' _ hrA).1 hm
      cases hl : lastInto t.root (edgesAll u (i + 1) ts ++ E1) with
      | none => exact lastInto_none.1 hl e he
      | some e' =>
        have := hpar t.root e' (by rw [htot, lastInto_append, hl]; rfl)
        rw [hp] at this
        subst this
        rcases List.mem_append.1 (lastInto_mem hl) with hm | hm
        · rcases edgesAll_source ts _ _ hm with h | ⟨-, h⟩
          · exact hu.2 h
          · simp only at h; omega
        · rcases h3 _ _ hm with h | h
          · exact huA h
          · exact huR h
    · intro hm
      apply hpar
      have hn : lastInto t.root (edgesAll u (i + 1) ts ++ E1) = none := lastInto_none.2 fun e he => hm ((h1' _ hrA).2 ⟨e, he⟩)
      have hn' : lastInto t.root (edges t) = none := by
        refine lastInto_none.2 fun e he => ?_
        cases t with
        | node p ts' =>
          simp only [edges, Tree.root] at he
          exact acyclic h.1 ((edgesAll_target ts' p).1 ⟨e, he⟩)
      rw [htot, lastInto_append, hn, lastInto_append, hn', lastInto_append]
      simp [lastInto]
    · exact link hpar t (u :: A) _ _ _ h.1 hA' hm h1' h3' hg' htot
    · exact linkAll hpar ts u (i + 1) A R (E0 ++ ((u, i), t.root) :: edges t) E1 h.2 hu.2 huA (fun x hx => hA x (by simp [postAll, hx])) huR h1 h3 hg
        (by rw [ht]; simp [edgesAll])
end

/-- The loop over the first rules, given what `inline` does for the children. -/
theorem inlinePre_keep {par : P → P × Nat} {rec : P → ISt P U M S → Except Err (ISt P U M S)} {layer : Layer} {u : P} {R : List P}
    (l : List (Pre P U M S)) : ∀ (ts : List (Tree P)), (∀ t ∈ ts, ∀ R' st st', Link par t R' → t.root ∉ R' → (∀ x ∈ post t, x ∉ R' → x ∉ st.taken) → rec t.root st = .ok st' →
      bodies st'.dest = bodies st.dest ++ keepBefore (post t) R' ∧ ∀ x, x ∈ st'.taken ↔ x ∈ st.taken ∨ (x ∈ post t ∧ x ∉ R')) →
    preFiles l = roots ts → ∀ i b st st', LinkAll par u i ts R → (∀ x ∈ postAll ts, x ∉ u :: R → x ∉ st.taken) →
    inlinePre rec par layer u i l b st = .ok st' →
    bodies st'.dest = bodies st.dest ++ keepBefore (postAll ts) (u :: R) ∧ ∀ x, x ∈ st'.taken ↔ x ∈ st.taken ∨ (x ∈ postAll ts ∧ x ∉ u :: R) := by
  induction l with
  | nil =>
    intro ts hrec hts i b st st' _ _ h
    cases ts with
    | cons t ts => simp [preFiles, roots] at hts
    | nil =>
      simp only [inlinePre, Except.ok.injEq] at h
      subst h
      simp [postAll, keepBefore]
  | cons r l ih =>
    intro ts hrec hts i b st st' hl hf h
    cases r with
    | layers names =>
      simp only [inlinePre] at h
      have := ih ts hrec hts i b _ _ hl (by exact hf) h
      simpa [bodies_append, bodies] using this
    | imp imp =>
      simp only [inlinePre] at h
      simp only [preFiles] at hts
      cases hd : imp.dep with
      | ext url =>
        rw [hd] at h hts
        simp only at h hts
        split at h
        · exact absurd h (by simp)
        · have := ih ts hrec hts i b _ _ hl (by exact hf) h
          simpa [bodies_append, bodies] using this
      | file d =>
        rw [hd] at h hts
        simp only at h hts
        cases ts with
        | nil => simp [roots] at hts
        | cons t ts =>
          simp only [roots, List.cons.injEq] at hts
          obtain ⟨rfl, hts⟩ := hts
          simp only [LinkAll] at hl
          obtain ⟨l1, l2, l3, l4⟩ := hl
          have hrec' : ∀ t ∈ ts, ∀ R' st st', Link par t R' → t.root ∉ R' → (∀ x ∈ post t, x ∉ R' → x ∉ st.taken) → rec t.root st = .ok st' →
            bodies st'.dest = bodies st.dest ++ keepBefore (post t) R' ∧ ∀ x, x ∈ st'.taken ↔ x ∈ st.taken ∨ (x ∈ post t ∧ x ∉ R') :=
            fun t ht => hrec t (List.mem_cons_of_mem _ ht)
          simp only [postAll, keepBefore_append]
          by_cases hp : par t.root = (u, i)
          · have hm := l1.1 hp
            simp only [hp, if_true] at h
            cases hr : rec t.root st with
            | error e => rw [hr] at h; simp at h
            | ok st1 =>
              rw [hr] at h
              simp only at h
              obtain ⟨a1, a2⟩ := hrec t (List.mem_cons_self ..) _ st st1 (l3 hm) hm (fun x hx hxR => hf x (by simp [postAll, hx])
                (fun hxu => hxR (List.mem_append_right _ hxu))) hr
              obtain ⟨b1, b2⟩ := ih ts hrec' hts (i + 1) true st1 st' l4 (fun x hx hxR hxt => by
                rcases (a2 x).1 hxt with hxt | ⟨-, hxt⟩
                · exact hf x (by simp [postAll, hx]) hxR hxt
                · exact hxt (List.mem_append_left _ hx)) h
              refine ⟨by rw [b1, a1]; simp, fun x => ?_⟩
              rw [b2, a2]
              simp only [List.mem_append, not_or]
              constructor
              · rintro ((h | ⟨h, h', h''⟩) | ⟨h, h'⟩)
                · exact .inl h
                · exact .inr ⟨.inl h, h''⟩
                · exact .inr ⟨.inr h, h'⟩
              · rintro (h | ⟨h | h, h'⟩)
                · exact .inl (.inl h)
                · by_cases hx : x ∈ postAll ts
                  · exact .inr ⟨hx, h'⟩
                  · exact .inl (.inr ⟨h, hx, h'⟩)
                · exact .inr ⟨h, h'⟩
          · simp only [hp, if_false] at h
            have hm : t.root ∈ postAll ts ++ u :: R := by
              by_contra hm; exact hp (l1.2 hm)
            have hsub := l2 hm
            obtain ⟨b1, b2⟩ := ih ts hrec' hts (i + 1) b st st' l4 (fun x hx => hf x (by simp [postAll, hx])) h
            refine ⟨by rw [b1, keepBefore_subset hsub]; simp, fun x => ?_⟩
            rw [b2]
            simp only [List.mem_append]
            constructor
            · rintro (h | ⟨h, h'⟩)
              · exact .inl h
              · exact .inr ⟨.inr h, h'⟩
            · rintro (h | ⟨h | h, h'⟩)
              · exact .inl h
              · rcases List.mem_append.1 (hsub h) with h | h
                · exact .inr ⟨h, h'⟩
                · exact absurd h h'
              · exact .inr ⟨h, h'⟩

theorem areTrees_mem {fs : P → File P U M S B} : ∀ (ts : List (Tree P)), AreTrees fs ts → ∀ t ∈ ts, IsTree fs t
  | [], _, _, ht => absurd ht List.not_mem_nil
  | t :: ts, h, t', ht => by
    rcases List.mem_cons.1 ht with rfl | ht
    · exact h.1
    · exact areTrees_mem ts h.2 t' ht

theorem inline_keep {fs : P → File P U M S B} (hcss : ∀ p, (fs p).css = []) (first : P → Layer) (cond : P → Cond M S) (par : P → P × Nat) (fuel : Nat) :
    ∀ (t : Tree P), IsTree fs t → ∀ R st st', Link par t R → t.root ∉ R → (∀ x ∈ post t, x ∉ R → x ∉ st.taken) → inline fs first cond par fuel t.root st = .ok st' →
      bodies st'.dest = bodies st.dest ++ keepBefore (post t) R ∧ ∀ x, x ∈ st'.taken ↔ x ∈ st.taken ∨ (x ∈ post t ∧ x ∉ R) := by
  induction fuel with
  | zero => intro t _ R st st' _ _ _ h; simp [inline] at h
  | succ fuel ih =>
    intro t ht R st st' hl hR hf h
    cases t with
    | node u ts =>
      simp only [Tree.root] at hR h
      have hfr : u ∉ st.taken := hf u (by simp [post]) hR
      simp only [inline, hcss, inlineCss, hfr, not_false_iff, decide_true, if_true, List.length_nil] at h
      split at h
      · exact absurd h (by simp)
      · rename_i st2 h2
        simp only [Except.ok.injEq] at h
        obtain ⟨a1, a2⟩ := inlinePre_keep (u := u) (R := R) (fs u).pre ts
          (fun t' ht' R' st st' => ih t' (areTrees_mem ts ht.2 t' ht') R' st st') (by rw [preFiles_eq, ht.1]) 0 false _ _ hl
          (fun x hx hxR => by
            simp only [List.mem_cons, not_or] at hxR ⊢
            exact ⟨hxR.1, hf x (by simp [post, hx]) hxR.2⟩) h2
        subst h
        refine ⟨?_, fun x => ?_⟩
        · simp only [wrap, if_true, bodies_append, a1, bodies, post, keepBefore_append, keepBefore, List.not_mem_nil, hR, or_self, if_false]
          simp
        · simp only [wrap, a2, post, List.mem_append, List.mem_cons, List.not_mem_nil, or_false, not_or]
          constructor
          · rintro ((rfl | h) | ⟨h, -, h'⟩)
            · exact .inr ⟨.inr rfl, hR⟩
            · exact .inl h
            · exact .inr ⟨.inl h, h'⟩
          · rintro (h | ⟨h | rfl, h'⟩)
            · exact .inl (.inr h)
            · by_cases hxu : x = u
              · exact .inl (.inl hxu)
              · exact .inr ⟨h, hxu, h'⟩
            · exact .inl (.inl rfl)

/-- **C28** The files of a bundle are in the order of their last evaluation by a browser, if files that two files import are imported only by
files that are evaluated once (and no file composes from another). -/
theorem C28_order_partial (fs : P → File P U M S B) (hcss : ∀ p, (fs p).css = []) (first : P → Layer) (cond : P → Cond M S) (entry : P) (all : List P)
    (hc : Closed fs entry all) (fuel₁ fuel₂ : Nat) (h₁ : all.length < fuel₁) (out : List (Out P U M S)) (l : List P) (hl : Evaluates fs entry l)
    (hs : ∀ v u u', u ∈ l → u' ∈ l → u ≠ u' → v ∈ (fs u).files → v ∈ (fs u').files → l.count u = 1)
    (h : bundle fs first cond entry fuel₁ fuel₂ = .ok out) : bodies out = keepLast l := by
  obtain ⟨st, hi, rfl⟩ := bundle_ok h
  obtain ⟨t, ht, rfl, rfl⟩ := tree_of_evaluates hl
  have hle : unseen all (initO t.root : OSt P).visited ≤ all.length := List.length_filter_le ..
  rw [order_fuel fs all hc.2 fuel₁ (fuel₁ + t.size) (initO t.root) t.root hc.1 (by omega) (by omega),
    order_trace hcss t _ _ ht (by omega)] at hi
  have hpar : ∀ v e, lastInto v (edges t) = some e → setAll (initO t.root : OSt P).parent (trace t (initO t.root : OSt P).visited).2 v = e := by
    intro v e he
    simp only [setAll, initO]
    rw [trace_last ht hs v, he]
    rfl
  have hlink := link hpar t [] [] [] [] ht (fun _ _ => List.not_mem_nil) List.not_mem_nil (fun v _ => by simp) (fun e v he => absurd he List.not_mem_nil)
    (fun v hv => absurd hv List.not_mem_nil) (by simp)
  obtain ⟨h1, -⟩ := inline_keep hcss first cond _ fuel₂ t ht [] _ st hlink List.not_mem_nil (fun _ _ _ => List.not_mem_nil) hi
  rw [h1, keepBefore_nil]
  simp [bodies]
end Verif.Bundler
