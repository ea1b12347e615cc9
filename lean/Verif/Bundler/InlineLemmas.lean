import Verif.Bundler.OrderLemmas
/-! Lemmas on the concatenation phase. -/
namespace Verif.Bundler
variable {P U M S B : Type} [DecidableEq P]

omit [DecidableEq P] in
theorem bodies_append (a b : List (Out P U M S)) : bodies (a ++ b) = bodies a ++ bodies b := by
  induction a with
  | nil => rfl
  | cons x a ih => cases x <;> simp [bodies, ih]

/-- What a call of `inline` does. -/
structure IRes (fs : P → File P U M S B) (parent : P → P × Nat) (R : P → Prop) (st st' : ISt P U M S) : Prop where
  mono : st.taken ⊆ st'.taken
  out : ∃ l, bodies st'.dest = bodies st.dest ++ l ∧ l.Nodup ∧ ∀ q, q ∈ l ↔ q ∈ st'.taken ∧ q ∉ st.taken
  closes : ∀ q ∈ st'.taken, q ∉ st.taken → ∀ d i, IsEdgeAt fs (q, i) d → parent d = (q, i) → d ∈ st'.taken
  reach : ∀ q ∈ st'.taken, q ∉ st.taken → R q

omit [DecidableEq P] in
theorem IRes.refl (fs : P → File P U M S B) (parent : P → P × Nat) (R : P → Prop) (st : ISt P U M S) : IRes fs parent R st st :=
  ⟨fun _ => id, ⟨[], by simp, .nil, by simp⟩, fun _ h h' => absurd h h', fun _ h h' => absurd h h'⟩

omit [DecidableEq P] in
/-- Output that is not a body does not matter. -/
theorem IRes.push {fs : P → File P U M S B} {parent : P → P × Nat} {R : P → Prop} {st : ISt P U M S} (o : Out P U M S)
    (ho : bodies [o] = []) : IRes fs parent R st { st with dest := st.dest ++ [o] } :=
  ⟨fun _ => id, ⟨[], by simp [bodies_append, ho], .nil, by simp⟩, fun _ h h' => absurd h h', fun _ h h' => absurd h h'⟩

theorem IRes.trans {fs : P → File P U M S B} {parent : P → P × Nat} {R : P → Prop} {a b c : ISt P U M S} (h : IRes fs parent R a b) (h' : IRes fs parent R b c) :
    IRes fs parent R a c := by
  obtain ⟨l, e, hn, hl⟩ := h.out
  obtain ⟨l', e', hn', hl'⟩ := h'.out
  refine ⟨fun x hx => h'.mono (h.mono hx), ⟨l ++ l', by simp [e', e], ?_, ?_⟩, ?_, ?_⟩
  · refine List.nodup_append.2 ⟨hn, hn', ?_⟩
    intro x hx y hy hxy
    subst hxy
    exact ((hl' x).1 hy).2 ((hl x).1 hx).1
  · intro q
    rw [List.mem_append, hl, hl']
    constructor
    · rintro (⟨h1, h2⟩ | ⟨h1, h2⟩)
      · exact ⟨h'.mono h1, h2⟩
      · exact ⟨h1, fun hx => h2 (h.mono hx)⟩
    · rintro ⟨h1, h2⟩
      by_cases hb : q ∈ b.taken
      · exact .inl ⟨hb, h2⟩
      · exact .inr ⟨h1, hb⟩
  · intro q hq hqn d i he hp
    by_cases hb : q ∈ b.taken
    · exact h'.mono (h.closes q hb hqn d i he hp)
    · exact h'.closes q hq hb d i he hp
  · intro q hq hqn
    by_cases hb : q ∈ b.taken
    · exact h.reach q hb hqn
    · exact h'.reach q hq hb

theorem inlineCss_res {fs : P → File P U M S B} {parent : P → P × Nat} {R : P → Prop} {rec : P → ISt P U M S → Except Err (ISt P U M S)} {s : P}
    (l : List P) (hrec : ∀ d ∈ l, ∀ st st', rec d st = .ok st' → IRes fs parent R st st' ∧ d ∈ st'.taken) :
    ∀ i st st', inlineCss rec parent s i l st = .ok st' →
    IRes fs parent R st st' ∧ ∀ j d, l[j]? = some d → parent d = (s, i + j) → d ∈ st'.taken := by
  induction l with
  | nil =>
    intro i st st' h
    simp only [inlineCss, Except.ok.injEq] at h
    subst h
    exact ⟨.refl .., by simp⟩
  | cons d l ih =>
    have ih := ih fun x hx => hrec x (List.mem_cons_of_mem _ hx)
    intro i st st' h
    simp only [inlineCss] at h
    split at h
    · split at h
      · rename_i st1 hr
        obtain ⟨h1, h2⟩ := hrec d (List.mem_cons_self ..) _ _ hr
        obtain ⟨h3, h4⟩ := ih _ _ _ h
        refine ⟨h1.trans h3, fun j x hj hp => ?_⟩
        cases j with
        | zero => simp only [List.getElem?_cons_zero, Option.some.injEq] at hj; subst hj; exact h3.mono h2
        | succ j => exact h4 j x (by simpa using hj) (by rw [hp]; congr 1; omega)
      · exact absurd h (by simp)
    · rename_i hne
      obtain ⟨h3, h4⟩ := ih _ _ _ h
      refine ⟨h3, fun j x hj hp => ?_⟩
      cases j with
      | zero => simp only [List.getElem?_cons_zero, Option.some.injEq] at hj; subst hj; exact absurd hp hne
      | succ j => exact h4 j x (by simpa using hj) (by rw [hp]; congr 1; omega)

/-- The imported files among the first rules. -/
def preFiles : List (Pre P U M S) → List P
  | [] => []
  | .layers _ :: rest => preFiles rest
  | .imp i :: rest => match i.dep with | .file d => d :: preFiles rest | .ext _ => preFiles rest

omit [DecidableEq P] in
theorem preFiles_eq (f : File P U M S B) : preFiles f.pre = f.files := by
  unfold File.files File.imports
  induction f.pre with
  | nil => rfl
  | cons r rest ih =>
    cases r with
    | layers n => simp [preFiles, ih]
    | imp i =>
      simp only [preFiles, List.filterMap_cons]
      cases i.dep <;> simp [ih]

theorem inlinePre_res {fs : P → File P U M S B} {parent : P → P × Nat} {R : P → Prop} {rec : P → ISt P U M S → Except Err (ISt P U M S)} {s : P} {layer : Layer}
    (l : List (Pre P U M S)) (hrec : ∀ d ∈ preFiles l, ∀ st st', rec d st = .ok st' → IRes fs parent R st st' ∧ d ∈ st'.taken) :
    ∀ i b st st', inlinePre rec parent layer s i l b st = .ok st' →
    IRes fs parent R st st' ∧ ∀ j d, (preFiles l)[j]? = some d → parent d = (s, i + j) → d ∈ st'.taken := by
  induction l with
  | nil =>
    intro i b st st' h
    simp only [inlinePre, Except.ok.injEq] at h
    subst h
    exact ⟨.refl .., by simp [preFiles]⟩
  | cons r l ih =>
    intro i b st st' h
    cases r with
    | layers names =>
      simp only [inlinePre] at h
      obtain ⟨h1, h2⟩ := ih hrec _ _ _ _ h
      exact ⟨(IRes.push _ rfl).trans h1, h2⟩
    | imp imp =>
      simp only [inlinePre] at h
      simp only [preFiles] at hrec ⊢
      cases hd : imp.dep with
      | ext u =>
        rw [hd] at hrec
        simp only [hd] at h hrec ⊢
        split at h
        · exact absurd h (by simp)
        · obtain ⟨h1, h2⟩ := ih hrec _ _ _ _ h
          exact ⟨(IRes.push _ rfl).trans h1, h2⟩
      | file d =>
        rw [hd] at hrec
        simp only [hd] at h hrec ⊢
        have ih := ih fun x hx => hrec x (List.mem_cons_of_mem _ hx)
        split at h
        · split at h
          · rename_i st1 hr
            obtain ⟨h1, h2⟩ := hrec d (List.mem_cons_self ..) _ _ hr
            obtain ⟨h3, h4⟩ := ih _ _ _ _ h
            refine ⟨h1.trans h3, fun j x hj hp => ?_⟩
            cases j with
            | zero => simp only [List.getElem?_cons_zero, Option.some.injEq] at hj; subst hj; exact h3.mono h2
            | succ j => exact h4 j x (by simpa using hj) (by rw [hp]; congr 1; omega)
          · exact absurd h (by simp)
        · rename_i hne
          obtain ⟨h3, h4⟩ := ih _ _ _ _ h
          refine ⟨h3, fun j x hj hp => ?_⟩
          cases j with
          | zero => simp only [List.getElem?_cons_zero, Option.some.injEq] at hj; subst hj; exact absurd hp hne
          | succ j => exact h4 j x (by simpa using hj) (by rw [hp]; congr 1; omega)

theorem inline_res (fs : P → File P U M S B) (first : P → Layer) (cond : P → Cond M S) (parent : P → P × Nat) (R : P → Prop)
    (hR : ∀ u v, R u → Uses fs u v → R v) (fuel : Nat) :
    ∀ s st st', R s → inline fs first cond parent fuel s st = .ok st' → IRes fs parent R st st' ∧ s ∈ st'.taken := by
  induction fuel with
  | zero => intro s st st' _ h; simp [inline] at h
  | succ fuel ih =>
    intro s st st' hs h
    simp only [inline] at h
    split at h
    · exact absurd h (by simp)
    · rename_i st1 h1
      split at h
      · exact absurd h (by simp)
      · rename_i st2 h2
        simp only [Except.ok.injEq] at h
        obtain ⟨a1, a2⟩ := inlineCss_res (R := R) (fs := fs) _ (fun d hd => fun st st' => ih d st st' (hR s d hs (.inl hd))) _ _ _ h1
        obtain ⟨b1, b2⟩ := inlinePre_res (R := R) (fs := fs) _ (fun d hd => fun st st' => ih d st st' (hR s d hs (by
          split at hd
          · rw [preFiles_eq] at hd; exact .inr hd
          · simp [preFiles] at hd))) _ _ _ _ h2
        have c := a1.trans b1
        have hst : s ∈ st2.taken := c.mono (List.mem_cons_self ..)
        have htk : st'.taken = st2.taken := by rw [← h]; rfl
        obtain ⟨l, e, hn, hl⟩ := c.out
        by_cases hf : s ∈ st.taken
        · have hd : bodies st'.dest = bodies st2.dest := by
            rw [← h]; simp [wrap, hf, bodies_append, bodies]
          refine ⟨⟨fun x hx => ?_, ⟨l, by rw [hd, e], hn, fun q => ?_⟩, fun q hq hqn => ?_, fun q hq hqn => ?_⟩, by rw [htk]; exact hst⟩
          · rw [htk]; exact c.mono (List.mem_cons_of_mem _ hx)
          · rw [hl, htk]
            constructor
            · rintro ⟨x, y⟩; exact ⟨x, fun hq => y (List.mem_cons_of_mem _ hq)⟩
            · rintro ⟨x, y⟩; exact ⟨x, fun hq => by rcases List.mem_cons.1 hq with rfl | hq; exacts [y hf, y hq]⟩
          · rw [htk] at hq ⊢
            exact c.closes q hq (fun hq => by rcases List.mem_cons.1 hq with rfl | hq; exacts [hqn hf, hqn hq])
          · rw [htk] at hq
            exact c.reach q hq (fun hq => by rcases List.mem_cons.1 hq with rfl | hq; exacts [hqn hf, hqn hq])
        · have hd : bodies st'.dest = bodies st2.dest ++ [s] := by
            rw [← h]; simp [wrap, hf, bodies_append, bodies]
          simp only [hf, not_false_iff, decide_true, if_true] at b2
          refine ⟨⟨fun x hx => ?_, ⟨l ++ [s], by rw [hd, e]; simp, ?_, fun q => ?_⟩, fun q hq hqn d i he hp => ?_, fun q hq hqn => ?_⟩, by rw [htk]; exact hst⟩
          · rw [htk]; exact c.mono (List.mem_cons_of_mem _ hx)
          · refine List.nodup_append.2 ⟨hn, by simp, ?_⟩
            intro x hx y hy hxy
            simp only [List.mem_singleton] at hy
            subst hxy; subst hy
            exact ((hl x).1 hx).2 (List.mem_cons_self ..)
          · rw [List.mem_append, hl, htk, List.mem_singleton]
            constructor
            · rintro (⟨x, y⟩ | rfl)
              · exact ⟨x, fun hq => y (List.mem_cons_of_mem _ hq)⟩
              · exact ⟨hst, hf⟩
            · rintro ⟨x, y⟩
              by_cases hqs : q = s
              · exact .inr hqs
              · exact .inl ⟨x, by simp [hqs, y]⟩
          · rw [htk] at hq ⊢
            by_cases hqs : q = s
            · subst hqs
              rcases he with he | ⟨hi, he⟩
              · exact b1.mono (a2 i d he (by simpa using hp))
              · refine b2 (i - (fs q).css.length) d (by rw [preFiles_eq]; exact he) ?_
                have hi : (fs q).css.length ≤ i := hi
                rw [hp]; simp only [Prod.mk.injEq, true_and]; omega
            · exact c.closes q hq (by simp [hqs, hqn]) d i he hp
          · rw [htk] at hq
            by_cases hqs : q = s
            · exact hqs ▸ hs
            · exact c.reach q hq (by simp [hqs, hqn])

/-! ### Termination -/

theorem inlineCss_ends {fs : P → File P U M S B} {parent : P → P × Nat} {R : P → Prop} {rec : P → ISt P U M S → Except Err (ISt P U M S)} {s : P} {all : List P} {n : Nat}
    (l : List P) : ∀ i st, (∀ j d, l[j]? = some d → parent d = (s, i + j) → ∀ st : ISt P U M S, unseen all st.taken ≤ n →
      rec d st ≠ .error .overflow ∧ ∀ st', rec d st = .ok st' → IRes fs parent R st st') →
    unseen all st.taken ≤ n → inlineCss rec parent s i l st ≠ .error .overflow := by
  induction l with
  | nil => intro i st _ _; simp [inlineCss]
  | cons d l ih =>
    intro i st hrec hn
    have hrec' : ∀ j x, l[j]? = some x → parent x = (s, i + 1 + j) → ∀ st : ISt P U M S, unseen all st.taken ≤ n →
        rec x st ≠ .error .overflow ∧ ∀ st', rec x st = .ok st' → IRes fs parent R st st' :=
      fun j x hj hp => hrec (j + 1) x (by simpa using hj) (by rw [hp]; congr 1; omega)
    simp only [inlineCss]
    split
    · rename_i hp
      obtain ⟨h1, h2⟩ := hrec 0 d (by simp) (by simpa using hp) st hn
      split
      · rename_i st1 hr
        exact ih _ _ hrec' (Nat.le_trans (unseen_mono (h2 _ hr).mono) hn)
      · rename_i e hr
        intro h; simp only [Except.error.injEq] at h; subst h; exact h1 hr
    · exact ih _ _ hrec' hn

theorem inlinePre_ends {fs : P → File P U M S B} {parent : P → P × Nat} {R : P → Prop} {rec : P → ISt P U M S → Except Err (ISt P U M S)} {s : P} {all : List P} {n : Nat} {layer : Layer}
    (l : List (Pre P U M S)) (hrec : ∀ d ∈ preFiles l, ∀ st : ISt P U M S, unseen all st.taken ≤ n →
      rec d st ≠ .error .overflow ∧ ∀ st', rec d st = .ok st' → IRes fs parent R st st') :
    ∀ i b st, unseen all st.taken ≤ n → inlinePre rec parent layer s i l b st ≠ .error .overflow := by
  induction l with
  | nil => intro i b st _; simp [inlinePre]
  | cons r l ih =>
    intro i b st hn
    cases r with
    | layers names => simp only [inlinePre]; exact ih hrec _ _ _ hn
    | imp imp =>
      simp only [inlinePre]
      simp only [preFiles] at hrec
      cases hd : imp.dep with
      | ext u =>
        rw [hd] at hrec
        simp only
        split
        · simp
        · exact ih hrec _ _ _ hn
      | file d =>
        rw [hd] at hrec
        simp only at hrec ⊢
        have ih := ih fun x hx => hrec x (List.mem_cons_of_mem _ hx)
        split
        · obtain ⟨h1, h2⟩ := hrec d (List.mem_cons_self ..) st hn
          split
          · rename_i st1 hr
            exact ih _ _ _ (Nat.le_trans (unseen_mono (h2 _ hr).mono) hn)
          · rename_i e hr
            intro h; simp only [Except.error.injEq] at h; subst h; exact h1 hr
        · exact ih _ _ _ hn

theorem inline_ends (fs : P → File P U M S B) (first : P → Layer) (cond : P → Cond M S) (parent : P → P × Nat) (all : List P) (N : Nat) (pos : P → Nat)
    (hall : ∀ u ∈ all, ∀ v, Uses fs u v → v ∈ all) (hN : ∀ p, pos p ≤ N)
    (hpos : ∀ s ∈ all, ∀ i d, (fs s).css[i]? = some d → parent d = (s, i) → pos d < pos s) (fuel : Nat) :
    ∀ s ∈ all, ∀ st : ISt P U M S, unseen all st.taken * (N + 1) + pos s < fuel →
      inline fs first cond parent fuel s st ≠ .error .overflow := by
  induction fuel with
  | zero => intro s _ st h; omega
  | succ fuel ih =>
    intro s hs st hn
    have hres := inline_res fs first cond parent (· ∈ all) (fun u v hu => hall u hu v) fuel
    simp only [inline]
    by_cases hf : s ∈ st.taken
    · have hcss := inlineCss_ends (fs := fs) (R := (· ∈ all)) (rec := inline fs first cond parent fuel) (parent := parent) (s := s) (all := all)
        (n := unseen all (s :: st.taken)) (fs s).css 0 { st with taken := s :: st.taken }
        (by
          intro j d hj hp st1 hn1
          have hd := hall s hs d (uses_css hj)
          refine ⟨ih d hd st1 ?_, fun st' h => (hres d st1 st' hd h).1⟩
          have := hpos s hs j d hj (by simpa using hp)
          have h2 := unseen_mono (all := all) (List.subset_cons_self s st.taken)
          have : unseen all st1.taken * (N + 1) ≤ unseen all st.taken * (N + 1) := Nat.mul_le_mul_right _ (by omega)
          omega) (Nat.le_refl _)
      split
      · rename_i e h; intro he; simp only [Except.error.injEq] at he; subst he; exact hcss h
      · simp [hf, inlinePre]
    · have hlt := unseen_cons hs hf
      have key : ∀ d ∈ all, ∀ st1 : ISt P U M S, unseen all st1.taken ≤ unseen all (s :: st.taken) →
          inline fs first cond parent fuel d st1 ≠ .error .overflow ∧
          ∀ st', inline fs first cond parent fuel d st1 = .ok st' → IRes fs parent (· ∈ all) st1 st' := by
        intro d hd st1 hn1
        refine ⟨ih d hd st1 ?_, fun st' h => (hres d st1 st' hd h).1⟩
        have h1 : (unseen all st1.taken + 1) * (N + 1) ≤ unseen all st.taken * (N + 1) := Nat.mul_le_mul_right _ (by omega)
        have h2 := hN d
        rw [Nat.add_mul] at h1
        omega
      have hcss := inlineCss_ends (fs := fs) (R := (· ∈ all)) (rec := inline fs first cond parent fuel) (parent := parent) (s := s) (all := all)
        (n := unseen all (s :: st.taken)) (fs s).css 0 { st with taken := s :: st.taken }
        (fun j d hj _ => key d (hall s hs d (uses_css hj))) (Nat.le_refl _)
      split
      · rename_i e h; intro he; simp only [Except.error.injEq] at he; subst he; exact hcss h
      · rename_i st1 h1
        have hm := (inlineCss_res (R := (· ∈ all)) (fs := fs) _ (fun d hd => fun a b => hres d a b (hall s hs d (.inl hd))) _ _ _ h1).1.mono
        have hpre := inlinePre_ends (fs := fs) (R := (· ∈ all)) (rec := inline fs first cond parent fuel) (parent := parent) (s := s) (all := all)
          (n := unseen all (s :: st.taken)) (layer := first s) (fs s).pre
          (fun d hd => key d (hall s hs d (.inr (by rw [← preFiles_eq]; exact hd)))) (fs s).css.length false st1 (unseen_mono hm)
        simp only [hf, not_false_iff, decide_true, if_true]
        split
        · rename_i e h; intro he; simp only [Except.error.injEq] at he; subst he; exact hpre h
        · simp
end Verif.Bundler
