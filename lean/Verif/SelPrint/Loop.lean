import Verif.SelPrint.Keep
/-!
# What is printed for a selector
-/
namespace Verif.SelPrint
open Verif.SelParse

variable {v : Opts} {p : Style}

theorem not_plain_or {g g' : Sig} (h : ¬ g.plain) : ¬ (g'.or g).plain := by
  simp only [Sig.plain, Sig.or, Bool.or_eq_false_iff] at h ⊢
  tauto

theorem not_plain_or_left {g g' : Sig} (h : ¬ g'.plain) : ¬ (g'.or g).plain := by
  simp only [Sig.plain, Sig.or, Bool.or_eq_false_iff] at h ⊢
  tauto

theorem after_elem {cx : Cx} (s : List Comp) : ∀ {g : Sig} {ph : Ph}, ¬ g.plain → WFS v cx g ph s → ∀ c ∈ s, c.isComb = false ∧ isType c = false := by
  induction s with
  | nil => simp
  | cons c s ih =>
    intro g ph hg h
    simp only [WFS] at h
    obtain ⟨h1, _, _, h4⟩ := h
    intro x hx
    simp at hx
    rcases hx with rfl | hx
    · cases x <;> simp_all [AllowG, Comp.isComb, isType]
    · exact ih (not_plain_or hg) h4 x hx

theorem break_not_plain {c : Comp} (h : (breakOf c).isSome = true) (g : Sig) : ¬ ((sig [c]).or g).plain := by
  refine not_plain_or_left ?_
  simp only [breakOf] at h
  simp only [sig, Sig.plain, List.any_cons, List.any_nil, Bool.or_false]
  cases h1 : c.isElem <;> cases h2 : c.isSlotted <;> cases h3 : c.isPart <;> simp_all

theorem pcomb_break {c : Comp} {b : PComb} (h : breakOf c = some b) : pcombToks p (some b) = [] := by
  simp only [breakOf] at h
  split at h
  · cases h; rfl
  · split at h
    · cases h; rfl
    · simp at h

theorem pcomb_none : pcombToks p none = [] := rfl

theorem segs_comb (k : Comb) (t : List Tok) (r : List Item) : segs ((.comb k, t) :: r) = ([], (.comb k, (segs r).1) :: (segs r).2) := by
  simp [segs]

theorem segs_break {c : Comp} {b : PComb} (h : breakOf c = some b) (t : List Tok) (r : List Item) :
    segs ((c, t) :: r) = ([], (b, (c, t) :: (segs r).1) :: (segs r).2) := by
  cases c <;> simp_all [segs]
  all_goals (simp [breakOf, Comp.isElem, Comp.isSlotted, Comp.isPart] at h)

theorem segs_plain {c : Comp} (h : isBreak c = false) (t : List Tok) (r : List Item) : segs ((c, t) :: r) = ((c, t) :: (segs r).1, (segs r).2) := by
  simp only [isBreak, Bool.or_eq_false_iff, Option.isSome_eq_false_iff, Option.isNone_iff_eq_none] at h
  cases c <;> simp_all [segs, Comp.isComb]

theorem segs_append (cp : List Comp) (h : ∀ c ∈ cp, isBreak c = false) (r : List Item) :
    segs (items p cp ++ r) = (items p cp ++ (segs r).1, (segs r).2) := by
  induction cp with
  | nil => simp [items]
  | cons c cp ih =>
    rw [items, List.cons_append, segs_plain (h c (by simp)), ih fun x hx => h x (by simp [hx])]
    rfl

/-- The compounds after a pseudo-element. -/
theorem segs_join (r : List Comp) (h : ∀ c ∈ r, c.isComb = false) : ∃ (c₀ : List Comp) (cps : List (List Comp)), (segs (items p r)).1 = items p c₀ ∧
    (segs (items p r)).2.map (·.2) = cps.map (items p) ∧ c₀ ++ cps.flatten = r ∧ ∀ b ∈ (segs (items p r)).2.map (·.1), pcombToks p (some b) = [] := by
  induction r with
  | nil => exact ⟨[], [], by simp [items, segs]⟩
  | cons c r ih =>
    obtain ⟨c₀, cps, h1, h2, h3, h4⟩ := ih fun x hx => h x (by simp [hx])
    rw [items]
    cases hb : breakOf c with
    | none =>
      rw [segs_plain (by simp [isBreak, hb, h c])]
      refine ⟨c :: c₀, cps, by simp [items, h1], h2, by simp [h3], h4⟩
    | some b =>
      rw [segs_break hb]
      refine ⟨[], (c :: c₀) :: cps, by simp [items], ?_, by simp [h3], ?_⟩
      · simp only [List.map_cons, h2, items, h1]
      · intro x hx
        simp only [List.map_cons, List.mem_cons] at hx
        rcases hx with rfl | hx
        · exact pcomb_break hb
        · exact h4 x hx

theorem pcomb_head {cs : List PComb} (h : ∀ b ∈ cs, pcombToks p (some b) = []) : pcombToks p cs.head? = [] := by
  cases cs with
  | nil => rfl
  | cons b cs => exact h b (by simp)

theorem loop_noType (cps : List (List Comp)) : ∀ (first : Bool) (cs : List PComb), (∀ cp ∈ cps, ∀ c ∈ cp, isType c = false) →
    (∀ b ∈ cs, pcombToks p (some b) = []) → loop p false first (cps.map (items p)) cs = cps.flatten.flatMap (prC p) := by
  induction cps with
  | nil => intros; simp [loop]
  | cons cp cps ih =>
    intro first cs h1 h2
    simp only [List.map_cons, loop, Bool.false_and, Bool.false_eq_true, if_false]
    split
    · rename_i he
      cases cp with
      | nil => rw [ih first cs (fun x hx => h1 x (by simp [hx])) h2]; simp
      | cons c cp => simp [items] at he
    · rw [ih false cs.tail (fun x hx => h1 x (by simp [hx])) fun b hb => h2 b (List.mem_of_mem_tail hb), pcomb_head h2,
        compound_noType _ _ _ (h1 cp (by simp))]
      simp

/-- The loop, given a selector. -/
def run (p : Style) (rel first : Bool) (s : List Comp) : List Tok :=
  loop p rel first ((segs (items p s)).1 :: (segs (items p s)).2.map (·.2)) ((segs (items p s)).2.map (·.1))

theorem run_plain (first : Bool) (r : List Comp) (h : ∀ c ∈ r, c.isComb = false ∧ isType c = false) : run p false first r = r.flatMap (prC p) := by
  obtain ⟨c₀, cps, h1, h2, h3, h4⟩ := segs_join (p := p) r fun c hc => (h c hc).1
  rw [run, h1, h2, ← List.map_cons, loop_noType (c₀ :: cps) _ _ _ h4]
  · rw [List.flatten_cons, h3]
  · intro cp hcp c hc
    refine (h c ?_).2
    rw [← h3]
    simp only [List.mem_cons] at hcp
    rcases hcp with rfl | hcp
    · simp [hc]
    · simp only [List.mem_append, List.mem_flatten]
      exact .inr ⟨cp, hcp, hc⟩

theorem split_break (s : List Comp) : ∃ cp rest, s = cp ++ rest ∧ (∀ c ∈ cp, isBreak c = false) ∧
    (rest = [] ∨ (∃ k r, rest = .comb k :: r) ∨ ∃ c b r, rest = c :: r ∧ breakOf c = some b ∧ c.isComb = false) := by
  induction s with
  | nil => exact ⟨[], [], rfl, by simp, .inl rfl⟩
  | cons c s ih =>
    cases hb : isBreak c with
    | false =>
      obtain ⟨cp, rest, rfl, h1, h2⟩ := ih
      exact ⟨c :: cp, rest, rfl, by simpa [hb] using h1, h2⟩
    | true =>
      refine ⟨[], c :: s, rfl, by simp, .inr ?_⟩
      by_cases hc : ∃ k, c = .comb k
      · obtain ⟨k, rfl⟩ := hc
        exact .inl ⟨k, s, rfl⟩
      · have hc' : c.isComb = false := by cases c <;> simp_all [Comp.isComb]
        simp only [isBreak, hc', Bool.false_or, Option.isSome_iff_exists] at hb
        obtain ⟨b, hb⟩ := hb
        exact .inr ⟨c, b, s, rfl, hb, hc'⟩

theorem wfS_append {cx : Cx} (a b : List Comp) : ∀ {g : Sig} {ph : Ph}, WFS v cx g ph (a ++ b) → ∃ g' ph', WFS v cx g' ph' b ∧ (a = [] → ph' = ph) := by
  induction a with
  | nil => intro g ph h; exact ⟨g, ph, h, fun _ => rfl⟩
  | cons c a ih =>
    intro g ph h
    simp only [List.cons_append, WFS] at h
    obtain ⟨g', ph', h1, _⟩ := ih h.2.2.2
    exact ⟨g', ph', h1, by simp⟩

theorem run_keeps {cx : Cx} : ∀ (n : Nat) (s : List Comp) (g : Sig) (first : Bool), s.length ≤ n → WFS v cx g .start s →
    (first = true ∨ ∀ ns b, s ≠ .nesting :: .type ns none :: b ∨ ns = .implicit) → NoAmpNs s →
    ∃ s', Keeps false s s' ∧ run p false first s = s'.flatMap (prC p) := by
  intro n
  induction n with
  | zero =>
    intro s g first hs hw
    have : s = [] := by simpa using hs
    subst this
    simp [WFS] at hw
  | succ n ih =>
    intro s g first hn hw hf ha
    obtain ⟨cp, rest, rfl, hcp, hrest⟩ := split_break s
    have hcc : ∀ c ∈ cp, c.isComb = false := fun c hc => by
      have := hcp c hc
      simp only [isBreak, Bool.or_eq_false_iff] at this
      exact this.1
    have hf' : first = true ∨ ∀ ns b, cp ≠ .nesting :: .type ns none :: b ∨ ns = .implicit := by
      rcases hf with hf | hf
      · exact .inl hf
      · right
        intro ns b
        rcases hf ns (b ++ rest) with h | h
        · left; rintro rfl; exact h rfl
        · exact .inr h
    have hsegs : segs (items p (cp ++ rest)) = (items p cp ++ (segs (items p rest)).1, (segs (items p rest)).2) := by
      rw [items_append, segs_append cp hcp]
    have hrun : ∀ m, (segs (items p rest)).1 = [] → cp ≠ [] → m = ((segs (items p rest)).2.map (·.1)).head? → run p false first (cp ++ rest) = compoundToks first (items p cp) m ++ (pcombToks p m ++
        loop p false false ((segs (items p rest)).2.map (·.2)) ((segs (items p rest)).2.map (·.1)).tail) := by
      rintro m h1 hne rfl
      rw [run, hsegs, h1, List.append_nil, loop]
      have : (items p cp).isEmpty = false := by
        cases cp with
        | nil => exact absurd rfl hne
        | cons c cp => rfl
      simp only [Bool.false_and, Bool.false_eq_true, if_false, this, List.append_assoc]
    rcases hrest with rfl | ⟨k, r, rfl⟩ | ⟨c, b, r, rfl, hb, hc⟩
    · have hne : cp ≠ [] := by rintro rfl; simp [WFS] at hw
      obtain ⟨cp', e, hk⟩ := compound_keeps (p := p) cp [] hw hcc first hf' none
      refine ⟨cp' ++ [], hk [] [] (fun _ => .nil) (by simp) hne, ?_⟩
      rw [hrun none (by simp [items, segs]) hne (by simp [items, segs]), e]
      simp [items, segs, loop, pcombToks]
    · have hne : cp ≠ [] := by rintro rfl; simp [WFS, placeOK] at hw
      obtain ⟨g', ph', hwr, _⟩ := wfS_append _ _ hw
      simp only [WFS] at hwr
      obtain ⟨r', hr1, hr2⟩ := ih r _ false (by simp at hn; omega) hwr.2.2.2 (by
        right
        intro ns b
        by_cases h : r = .nesting :: .type ns none :: b
        · exact .inr (ha cp b k ns (by rw [h]))
        · exact .inl h) (by
        intro a b k' ns h
        exact ha (cp ++ .comb k :: a) b k' ns (by rw [h]; simp))
      obtain ⟨cp', e, hk⟩ := compound_keeps (p := p) cp _ hw hcc first hf' (some (.comb k))
      have hsr : segs (items p (.comb k :: r)) = ([], (.comb k, (segs (items p r)).1) :: (segs (items p r)).2) := by rw [items, segs_comb]
      refine ⟨cp' ++ .comb k :: r', hk _ _ (fun _ => .comb hr1) (by simp) hne, ?_⟩
      rw [hrun (some (.comb k)) (by rw [hsr]) hne (by rw [hsr]; rfl), e, hsr]
      rw [run] at hr2
      simp only [List.map_cons, List.tail_cons, hr2, pcombToks, List.flatMap_append, List.flatMap_cons, prC]
    · obtain ⟨g', ph', hwr, _⟩ := wfS_append _ _ hw
      simp only [WFS] at hwr
      have hr := after_elem r (break_not_plain (by simp [hb]) g') hwr.2.2.2
      have hct : isType c = false := by
        cases c <;> simp_all [breakOf, isType, Comp.isElem, Comp.isSlotted, Comp.isPart]
      have hall : ∀ x ∈ c :: r, x.isComb = false ∧ isType x = false := by
        intro x hx
        simp only [List.mem_cons] at hx
        rcases hx with rfl | hx
        · exact ⟨hc, hct⟩
        · exact hr x hx
      have hself : ∀ b, Keeps b (c :: r) (c :: r) := by
        intro b
        have := keeps_append (fun x hx => (hall x hx).1) .nil (b := b) (.inr (by simp))
        simpa using this
      by_cases hne : cp = []
      · subst hne
        refine ⟨c :: r, hself false, ?_⟩
        rw [List.nil_append, run_plain first _ hall]
      · obtain ⟨cp', e, hk⟩ := compound_keeps (p := p) cp _ hw hcc first hf' (some b)
        have hsr : segs (items p (c :: r)) = ([], (b, (c, prC p c) :: (segs (items p r)).1) :: (segs (items p r)).2) := by rw [items, segs_break hb]
        refine ⟨cp' ++ c :: r, hk _ _ (fun _ => hself true) (fun _ => hself false) hne, ?_⟩
        rw [hrun (some b) (by rw [hsr]) hne (by rw [hsr]; rfl), e, hsr, pcomb_break hb]
        obtain ⟨c₀, cps, h1, h2, h3, h4⟩ := segs_join (p := p) r fun c hc => (hr c hc).1
        have : ((c, prC p c) :: (segs (items p r)).1) :: (segs (items p r)).2.map (·.2) = ((c :: c₀) :: cps).map (items p) := by
          simp only [List.map_cons, items, h1, h2]
        simp only [List.map_cons, List.tail_cons, this, List.nil_append, List.flatMap_append]
        rw [← List.map_cons, loop_noType _ _ _ _ h4]
        · simp [h3]
        · intro cp hcp x hx
          refine (hall x ?_).2
          rw [← h3]
          simp only [List.mem_cons] at hcp
          rcases hcp with rfl | hcp
          · simp only [List.mem_cons] at hx ⊢
            rcases hx with rfl | hx
            · exact .inl rfl
            · simp [hx]
          · simp only [List.mem_cons, List.mem_append, List.mem_flatten]
            exact .inr (.inr ⟨cp, hcp, hx⟩)

theorem prS_eq (rel : Bool) (s : List Comp) : prS p rel s = run p rel true s := rfl

/-- A selector is printed component by component, but for some universal selectors. -/
theorem prS_keeps {cx : Cx} {g : Sig} {s : List Comp} (hw : WFS v cx g .start s) (ha : NoAmpNs s) : ∃ s', Keeps false s s' ∧ prS p false s = s'.flatMap (prC p) :=
  run_keeps s.length s g true (Nat.le_refl _) hw (.inl rfl) ha

theorem isScope_of {cp : List Item} (h : isScope cp = true) : ∃ t, (Comp.pclass cs!"scope", t) ∈ cp := by
  unfold isScope at h
  split at h
  · simp only [decide_eq_true_eq] at h
    subst h
    exact ⟨_, List.mem_cons_self⟩
  · simp at h

theorem loop_rel (cps : List (List Item)) : ∀ (first : Bool) (cs : List PComb), (∀ cp ∈ cps, isScope cp = false) → loop p true first cps cs = loop p false first cps cs := by
  induction cps with
  | nil => intros; simp [loop]
  | cons cp cps ih =>
    intro first cs h
    simp only [loop, h cp (by simp), Bool.and_false, Bool.false_eq_true, if_false]
    rw [ih first cs fun x hx => h x (by simp [hx]), ih false cs.tail fun x hx => h x (by simp [hx])]

theorem segs_mem (xs : List Item) : ∀ cp ∈ (segs xs).1 :: (segs xs).2.map (·.2), ∀ x ∈ cp, x ∈ xs := by
  induction xs with
  | nil => simp [segs]
  | cons y xs ih =>
    obtain ⟨c, t⟩ := y
    simp only [List.mem_cons] at ih
    have key : segs ((c, t) :: xs) = ((c, t) :: (segs xs).1, (segs xs).2) ∨ (∃ b, segs ((c, t) :: xs) = ([], (b, (c, t) :: (segs xs).1) :: (segs xs).2)) ∨
        (∃ b, segs ((c, t) :: xs) = ([], (b, (segs xs).1) :: (segs xs).2)) := by
      by_cases hc : ∃ k, c = .comb k
      · obtain ⟨k, rfl⟩ := hc
        exact .inr (.inr ⟨_, segs_comb k t xs⟩)
      · cases hb : breakOf c with
        | some b => exact .inr (.inl ⟨b, segs_break hb t xs⟩)
        | none =>
          have hc' : c.isComb = false := by cases c <;> simp_all [Comp.isComb]
          exact .inl (segs_plain (by simp [isBreak, hb, hc']) t xs)
    rcases key with e | ⟨b, e⟩ | ⟨b, e⟩ <;> rw [e] <;> intro cp hcp x hx <;> simp only [List.map_cons, List.mem_cons] at hcp ⊢
    · rcases hcp with rfl | hcp
      · simp only [List.mem_cons] at hx
        rcases hx with rfl | hx
        · exact .inl rfl
        · exact .inr (ih _ (.inl rfl) x hx)
      · exact .inr (ih cp (.inr hcp) x hx)
    · rcases hcp with rfl | rfl | hcp
      · simp at hx
      · simp only [List.mem_cons] at hx
        rcases hx with rfl | hx
        · exact .inl rfl
        · exact .inr (ih _ (.inl rfl) x hx)
      · exact .inr (ih cp (.inr hcp) x hx)
    · rcases hcp with rfl | rfl | hcp
      · simp at hx
      · exact .inr (ih _ (.inl rfl) x hx)
      · exact .inr (ih cp (.inr hcp) x hx)

theorem prS_rel {s : List Comp} (h : NoScope s) : prS p true s = prS p false s := by
  rw [prS, prS, assemble, assemble]
  refine loop_rel _ _ _ fun cp hcp => ?_
  cases hc : isScope cp with
  | false => rfl
  | true =>
  exfalso
  obtain ⟨t, ht⟩ := isScope_of hc
  have := segs_mem _ cp hcp _ ht
  rw [items_map] at this
  simp only [List.mem_map] at this
  obtain ⟨c, hc, e⟩ := this
  injection e with e1 e2
  subst e1
  exact h hc

theorem prS_scope (k : Comb) (s : List Comp) : prS p true (.pclass cs!"scope" :: .comb k :: s) = combToks p k ++ prS p false s := by
  rw [prS, prS, assemble, assemble]
  have : segs (items p (.pclass cs!"scope" :: .comb k :: s)) = ([(.pclass cs!"scope", prC p (.pclass cs!"scope"))], (.comb k, (segs (items p s)).1) :: (segs (items p s)).2) := by
    rw [items, items, segs_plain (by decide), segs_comb]
  rw [this]
  simp [loop, isScope, pcombToks]

end Verif.SelPrint
