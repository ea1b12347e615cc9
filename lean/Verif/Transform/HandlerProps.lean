import Verif.Transform.Props
/-! C78: what the handler of transforms writes cascades to the same values, if a block does not mix `transform` with the other properties. -/
namespace Verif.Transform

/-! ## Specification: the declaration that wins -/

/-- What a declaration gives to one property: a value or something with `var()`. -/
inductive Given (α : Type)
  | value (a : α) | unparsed (id : Nat)

/-- What a declaration gives to the property `transform` with the prefix `i` (0 is the property without a prefix). Units of angles do not matter. -/
noncomputable def givesTransform (i : Fin 5) : Decl → Option (Given (List Tr))
  | .transform l p => if p i then some (.value (l.map Tr.canon)) else none
  | .unparsed id (.transform p) => if p i then some (.unparsed id) else none
  | _ => none

/-- What a declaration gives to `translate`. -/
def givesTranslate : Decl → Option (Given Translate)
  | .translate v => some (.value v)
  | .unparsed id .translate => some (.unparsed id)
  | _ => none

/-- What a declaration gives to `rotate`. -/
def givesRotate : Decl → Option (Given Rotate)
  | .rotate v => some (.value v)
  | .unparsed id .rotate => some (.unparsed id)
  | _ => none

/-- What a declaration gives to `scale`. -/
def givesScale : Decl → Option (Given Scale)
  | .scale v => some (.value v)
  | .unparsed id .scale => some (.unparsed id)
  | _ => none

/-- The last declaration that gives something wins. -/
def winner {α : Type} (gives : Decl → Option α) (ds : List Decl) : Option α := (ds.filterMap gives).getLast?

/-- A parsed `transform`. -/
def isTransform : Decl → Bool
  | .transform _ _ => true
  | _ => false

/-- A parsed `translate`, `rotate` or `scale`. -/
def isIndividual : Decl → Bool
  | .translate _ | .rotate _ | .scale _ => true
  | _ => false

/-- The prefixes of the parsed `transform` declarations of a block. -/
def prefixes : List Decl → List Prefix
  | [] => []
  | .transform _ p :: ds => p :: prefixes ds
  | _ :: ds => prefixes ds

/-- All `transform` declarations have the same prefixes, or no prefix is declared twice. -/
def goodPrefixes (ds : List Decl) : Prop :=
  (∃ q, ∀ p ∈ prefixes ds, p = q) ∨
  ((∀ p ∈ prefixes ds, ∃ i, p i = true) ∧ (prefixes ds).Pairwise fun p q => ∀ i, ¬ (p i = true ∧ q i = true))

/-! ## Proof -/

theorem winner_append {α : Type} (g : Decl → Option α) (a b : List Decl) : winner g (a ++ b) = (winner g b).or (winner g a) := by
  simp only [winner, List.filterMap_append, List.getLast?_append]

/-- What is in the state. -/
def pend (s : State) : List Decl :=
  (s.transform.map fun p => Decl.transform p.1 p.2).toList ++ (s.translate.map Decl.translate).toList
      ++ (s.rotate.map Decl.rotate).toList ++ (s.scale.map Decl.scale).toList

/-- `has_any` says whether there is something. -/
def anyOk (s : State) : Prop := s.hasAny = false → s.transform = none ∧ s.translate = none ∧ s.rotate = none ∧ s.scale = none

/-- The observations. -/
inductive Obs : {α : Type} → (Decl → Option α) → (Prefix → Prefix) → Prop
  | transform (pfx : Prefix → Prefix) (i : Fin 5) (h : ∀ p, pfx p i = p i) : Obs (givesTransform i) pfx
  | translate (pfx : Prefix → Prefix) : Obs givesTranslate pfx
  | rotate (pfx : Prefix → Prefix) : Obs givesRotate pfx
  | scale (pfx : Prefix → Prefix) : Obs givesScale pfx

theorem flush_obs {α : Type} {g : Decl → Option α} {pfx : Prefix → Prefix} (o : Obs g pfx) (s : State) (hs : anyOk s) :
    winner g (s.flush pfx).2 = winner g (pend s) ∧ winner g (pend (s.flush pfx).1) = none ∧ anyOk (s.flush pfx).1 ∧ (s.flush pfx).1.transform = none ∧
      (s.flush pfx).1.translate = none ∧ (s.flush pfx).1.rotate = none ∧ (s.flush pfx).1.scale = none := by
  simp only [State.flush]
  cases h : s.hasAny
  · obtain ⟨h1, h2, h3, h4⟩ := hs h
    simp only [Bool.not_false, if_true]
    exact ⟨by simp [pend, h1, h2, h3, h4, winner], by simp [pend, h1, h2, h3, h4, winner], hs, h1, h2, h3, h4⟩
  · simp only [Bool.not_true, Bool.false_eq_true, if_false]
    refine ⟨?_, (by simp [pend, winner]), fun _ => ⟨rfl, rfl, rfl, rfl⟩, (by trivial), (by trivial), (by trivial), (by trivial)⟩
    simp only [pend, winner_append]
    congr 1
    congr 1
    congr 1
    cases s.transform with
    | none => rfl
    | some q =>
      cases o with
      | transform _ i hp => simp [winner, givesTransform, hp]
      | translate => simp [winner, givesTranslate]
      | rotate => simp [winner, givesRotate]
      | scale => simp [winner, givesScale]

/-- The parts of the state that are not used in one kind of block. -/
def noIndividual (s : State) : Prop := s.translate = none ∧ s.rotate = none ∧ s.scale = none

/-- A step on `transform` is safe. -/
def safeStep (s : State) (l : List Tr) (p : Prefix) : Prop :=
  ∀ cur ps, s.transform = some (cur, ps) → cur.map Tr.canon = l.map Tr.canon ∨ ps.contains p = false ∨ ps = p

theorem winner_single {α : Type} (g : Decl → Option α) (d : Decl) : winner g [d] = g d := by
  simp only [winner]
  cases h : g d <;> simp [h]

theorem pend_transform (l : List Tr) (p : Prefix) (b : Bool) :
    pend { transform := some (l, p), translate := none, rotate := none, scale := none, hasAny := b } = [.transform l p] := rfl

theorem or_self' {α : Type} (a b : Option α) (h : b = a) : a.or b = a := by subst h; cases b <;> rfl

theorem step_transform {α : Type} {g : Decl → Option α} {pfx : Prefix → Prefix} (o : Obs g pfx) (s : State) (hs : anyOk s) (hn : noIndividual s)
    (l : List Tr) (p : Prefix) (hsafe : safeStep s l p) :
    winner g ((handle pfx s (.transform l p)).2 ++ pend (handle pfx s (.transform l p)).1) = winner g (pend s ++ [.transform l p]) ∧
      anyOk (handle pfx s (.transform l p)).1 ∧ noIndividual (handle pfx s (.transform l p)).1 := by
  obtain ⟨n1, n2, n3⟩ := hn
  simp only [handle]
  cases ht : s.transform with
  | none =>
    simp only [ht]
    refine ⟨?_, fun h => (by cases h), rfl, rfl, rfl⟩
    simp [pend, ht, n1, n2, n3]
  | some q =>
    obtain ⟨cur, ps⟩ := q
    simp only []
    by_cases hc : cur.map Tr.canon ≠ l.map Tr.canon ∧ ps.contains p = false
    · obtain ⟨f1, f2, f3, f4, f5, f6, f7⟩ := flush_obs o s hs
      simp only [hc, ne_eq, not_false_eq_true, and_self, if_true, f4]
      refine ⟨?_, fun h => (by cases h), rfl, rfl, rfl⟩
      rw [winner_append, f1, ← winner_append]
      rfl
    · simp only [hc, if_false, ht]
      have hany : s.hasAny = true := by
        cases h : s.hasAny
        · exact absurd (hs h).1 (by simp [ht])
        · rfl
      refine ⟨?_, fun h => (by rw [hany] at h; cases h), rfl, rfl, rfl⟩
      have hp : pend s = [.transform cur ps] := by simp [pend, ht, n1, n2, n3]
      rw [hp, List.nil_append, pend_transform, winner_single, winner_append, winner_single, winner_single]
      have hcase : cur.map Tr.canon = l.map Tr.canon ∨ ps = p := by
        rcases hsafe cur ps ht with h | h | h
        · exact Or.inl h
        · by_cases h' : cur.map Tr.canon = l.map Tr.canon
          · exact Or.inl h'
          · exact absurd ⟨h', h⟩ hc
        · exact Or.inr h
      cases o with
      | transform _ i hpi =>
        simp only [givesTransform, Prefix.union]
        rcases hcase with h | h
        · rw [h]; by_cases h1 : ps i = true <;> by_cases h2 : p i = true <;> simp [h1, h2]
        · subst h; by_cases h1 : ps i = true <;> simp [h1]
      | translate => rfl
      | rotate => rfl
      | scale => rfl

theorem step_other {α : Type} {g : Decl → Option α} {pfx : Prefix → Prefix} (o : Obs g pfx) (s : State) (hs : anyOk s) (d : Decl)
    (hd : isTransform d = false) (hi : isIndividual d = true → s.transform = none) :
    winner g ((handle pfx s d).2 ++ pend (handle pfx s d).1) = winner g (pend s ++ [d]) ∧ anyOk (handle pfx s d).1 ∧
      (s.transform = none → (handle pfx s d).1.transform = none) ∧
      (isIndividual d = false → noIndividual s → noIndividual (handle pfx s d).1) ∧
      (isIndividual d = false → (handle pfx s d).1.transform = none ∨ (handle pfx s d).1.transform = s.transform) := by
  cases d with
  | transform l p => cases hd
  | translate v =>
    have ht := hi rfl
    simp only [handle, ht]
    refine ⟨?_, fun h => (by cases h), fun _ => (by first | exact ht | trivial), fun h => (by cases h), fun h => (by cases h)⟩
    cases o <;> simp only [pend, ht, List.nil_append, winner_append] <;> cases s.translate <;> cases s.rotate <;> cases s.scale <;>
      simp [winner, givesTransform, givesTranslate, givesRotate, givesScale]
  | rotate v =>
    have ht := hi rfl
    simp only [handle, ht]
    refine ⟨?_, fun h => (by cases h), fun _ => (by first | exact ht | trivial), fun h => (by cases h), fun h => (by cases h)⟩
    cases o <;> simp only [pend, ht, List.nil_append, winner_append] <;> cases s.translate <;> cases s.rotate <;> cases s.scale <;>
      simp [winner, givesTransform, givesTranslate, givesRotate, givesScale]
  | scale v =>
    have ht := hi rfl
    simp only [handle, ht]
    refine ⟨?_, fun h => (by cases h), fun _ => (by first | exact ht | trivial), fun h => (by cases h), fun h => (by cases h)⟩
    cases o <;> simp only [pend, ht, List.nil_append, winner_append] <;> cases s.translate <;> cases s.rotate <;> cases s.scale <;>
      simp [winner, givesTransform, givesTranslate, givesRotate, givesScale]
  | unparsed id q =>
    obtain ⟨f1, f2, f3, f4, f5, f6, f7⟩ := flush_obs o s hs
    simp only [handle]
    refine ⟨?_, f3, fun _ => f4, fun _ _ => ⟨f5, f6, f7⟩, fun _ => Or.inl f4⟩
    rw [winner_append, f2, Option.none_or, winner_append, winner_append, f1, winner_single, winner_single]
    congr 1
    cases o with
    | transform _ i hp => cases q <;> simp [givesTransform, hp]
    | translate => cases q <;> rfl
    | rotate => cases q <;> rfl
    | scale => cases q <;> rfl
  | other n =>
    refine ⟨?_, hs, fun h => h, fun _ h => h, fun _ => Or.inr rfl⟩
    simp only [handle, List.nil_append, winner_append, winner_single]
    cases o <;> rfl

theorem run_no_transform {α : Type} {g : Decl → Option α} {pfx : Prefix → Prefix} (o : Obs g pfx) : ∀ (ds : List Decl) (s : State), anyOk s →
    s.transform = none → (∀ d ∈ ds, isTransform d = false) → winner g (run pfx s ds) = winner g (pend s ++ ds) := by
  intro ds
  induction ds with
  | nil => intro s hs _ _; rw [List.append_nil]; exact (flush_obs o s hs).1
  | cons d ds ih =>
    intro s hs ht hd
    obtain ⟨h1, h2, h3, _, _⟩ := step_other o s hs d (hd d List.mem_cons_self) (fun _ => ht)
    rw [run, winner_append, ih _ h2 (h3 ht) (fun e he => hd e (List.mem_cons_of_mem _ he)), winner_append, Option.or_assoc, ← winner_append, h1,
      show pend s ++ d :: ds = (pend s ++ [d]) ++ ds by simp, winner_append (b := ds)]

/-- What the prefixes of the state and of the declarations that follow must be like. -/
def statePrefixes (s : State) (ds : List Decl) : Prop :=
  (∃ q, (∀ cur ps, s.transform = some (cur, ps) → ps = q) ∧ ∀ p ∈ prefixes ds, p = q) ∨
  ((∀ p ∈ prefixes ds, ∃ i, p i = true) ∧ ((prefixes ds).Pairwise fun p q => ∀ i, ¬ (p i = true ∧ q i = true)) ∧
    ∀ cur ps, s.transform = some (cur, ps) → ∀ p ∈ prefixes ds, ∀ i, ¬ (ps i = true ∧ p i = true))

theorem run_no_individual {α : Type} {g : Decl → Option α} {pfx : Prefix → Prefix} (o : Obs g pfx) : ∀ (ds : List Decl) (s : State), anyOk s →
    noIndividual s → (∀ d ∈ ds, isIndividual d = false) → statePrefixes s ds → winner g (run pfx s ds) = winner g (pend s ++ ds) := by
  intro ds
  induction ds with
  | nil => intro s hs _ _ _; rw [List.append_nil]; exact (flush_obs o s hs).1
  | cons d ds ih =>
    intro s hs hn hd hp
    have hd' : ∀ e ∈ ds, isIndividual e = false := fun e he => hd e (List.mem_cons_of_mem _ he)
    have fin : ∀ (h1 : winner g ((handle pfx s d).2 ++ pend (handle pfx s d).1) = winner g (pend s ++ [d])) (_ : anyOk (handle pfx s d).1)
        (_ : noIndividual (handle pfx s d).1) (_ : statePrefixes (handle pfx s d).1 ds), winner g (run pfx s (d :: ds)) = winner g (pend s ++ d :: ds) := by
      intro h1 h2 h3 h4
      rw [run, winner_append, ih _ h2 h3 hd' h4, winner_append, Option.or_assoc, ← winner_append, h1,
        show pend s ++ d :: ds = (pend s ++ [d]) ++ ds by simp, winner_append (b := ds)]
    by_cases ht : isTransform d = true
    · cases d with
      | transform l p =>
        have hsafe : safeStep s l p := by
          intro cur ps e
          rcases hp with ⟨q, h1, h2⟩ | ⟨h1, h2, h3⟩
          · right; right
            rw [h1 cur ps e, h2 p (by simp [prefixes])]
          · right; left
            obtain ⟨i, hi⟩ := h1 p (by simp [prefixes])
            simp only [Prefix.contains, decide_eq_false_iff_not]
            intro h
            exact h3 cur ps e p (by simp [prefixes]) i ⟨h i hi, hi⟩
        obtain ⟨h1, h2, h3⟩ := step_transform o s hs hn l p hsafe
        refine fin h1 h2 h3 ?_
        have hstate : ∃ t, (handle pfx s (.transform l p)).1.transform = some t ∧ (t.2 = p ∨ ∃ cur ps, s.transform = some (cur, ps) ∧ t.2 = ps.union p) := by
          simp only [handle]
          refine ⟨_, rfl, ?_⟩
          split
          · rename_i e
            right
            cases hst : s.transform with
            | none => simp [hst] at e
            | some q =>
              simp only [hst] at e
              split at e
              · exact absurd e (by rw [(flush_obs o s hs).2.2.2.1]; simp)
              · rw [hst] at e; cases e; exact ⟨_, _, rfl, rfl⟩
          · left; rfl
        obtain ⟨t, et, ht'⟩ := hstate
        rcases hp with ⟨q, k1, k2⟩ | ⟨k1, k2, k3⟩
        · left
          refine ⟨q, ?_, fun p' hp' => k2 p' (by simp [prefixes, hp'])⟩
          intro cur ps e
          rw [et] at e; cases e
          have hpq : p = q := k2 p (by simp [prefixes])
          rcases ht' with h | ⟨c, ps', e1, e2⟩
          · simpa [hpq] using h
          · rw [k1 c ps' e1, hpq] at e2
            simp only at e2
            rw [e2]; funext i; simp [Prefix.union]
        · right
          simp only [prefixes, List.pairwise_cons, List.mem_cons, forall_eq_or_imp] at k1 k2 k3
          refine ⟨k1.2, k2.2, ?_⟩
          intro cur ps e p' hp' i hi
          rw [et] at e; cases e
          rcases ht' with h | ⟨c, ps', e1, e2⟩
          · simp only at h; rw [h] at hi; exact k2.1 p' hp' i hi
          · simp only at e2; rw [e2] at hi
            simp only [Prefix.union, Bool.or_eq_true] at hi
            rcases hi with ⟨h | h, h'⟩
            · exact (k3 c ps' e1).2 p' hp' i ⟨h, h'⟩
            · exact k2.1 p' hp' i ⟨h, h'⟩
      | _ => cases ht
    · have ht : isTransform d = false := by simpa using ht
      have hi := hd d List.mem_cons_self
      obtain ⟨h1, h2, _, h3, h4⟩ := step_other o s hs d ht (fun h => by rw [hi] at h; cases h)
      refine fin h1 h2 (h3 hi hn) ?_
      have hpre : prefixes (d :: ds) = prefixes ds := by
        cases d with
        | transform l p => cases ht
        | _ => rfl
      rw [statePrefixes, hpre] at hp
      rcases h4 hi with e | e
      · rcases hp with ⟨q, k1, k2⟩ | ⟨k1, k2, k3⟩
        · exact Or.inl ⟨q, fun _ _ h => (by rw [e] at h; cases h), k2⟩
        · exact Or.inr ⟨k1, k2, fun _ _ h => (by rw [e] at h; cases h)⟩
      · rw [statePrefixes, e]; exact hp

/-- In a block that does not mix a parsed `transform` with a parsed `translate`, `rotate` or `scale`, and in which the prefixes of `transform` are all the same or
each is declared once, what is written makes the same declaration win for each of the four properties, with each prefix the targets do not add.
Missing: other blocks, which the handler changes (`C78_translate_lost`, `C78_order_changed`, `C78_prefix_changed`). -/
theorem C78_winners_partial (pfx : Prefix → Prefix) (ds : List Decl)
    (hmix : (∀ d ∈ ds, isTransform d = false) ∨ (∀ d ∈ ds, isIndividual d = false) ∧ goodPrefixes ds) :
    (∀ i, (∀ p, pfx p i = p i) → winner (givesTransform i) (run pfx {} ds) = winner (givesTransform i) ds) ∧
    winner givesTranslate (run pfx {} ds) = winner givesTranslate ds ∧
    winner givesRotate (run pfx {} ds) = winner givesRotate ds ∧
    winner givesScale (run pfx {} ds) = winner givesScale ds := by
  have key : ∀ {α : Type} {g : Decl → Option α}, Obs g pfx → winner g (run pfx {} ds) = winner g ds := by
    intro α g o
    have h0 : anyOk {} := fun _ => ⟨rfl, rfl, rfl, rfl⟩
    rcases hmix with h | ⟨h, hp⟩
    · simpa [pend] using run_no_transform o ds {} h0 rfl h
    · refine (run_no_individual o ds {} h0 ⟨rfl, rfl, rfl⟩ h ?_).trans (by simp [pend])
      rcases hp with ⟨q, hq⟩ | ⟨h1, h2⟩
      · exact Or.inl ⟨q, fun _ _ e => (by cases e), hq⟩
      · exact Or.inr ⟨h1, h2, fun _ _ e => (by cases e)⟩
  exact ⟨fun i hi => key (.transform pfx i hi), key (.translate pfx), key (.rotate pfx), key (.scale pfx)⟩

/-- The prefix set with one prefix. -/
def only (i : Fin 5) : Prefix := fun j => decide (j = i)

/-- `-webkit-transform: scale(2); transform: scale(2)` is such a block, and one declaration with both prefixes is written. -/
example : goodPrefixes [.transform [.scaleX (.num 2)] (only 1), .transform [.scaleX (.num 2)] (only 0)] ∧
    run id {} [.transform [.scaleX (.num 2)] (only 1), .transform [.scaleX (.num 2)] (only 0)] = [.transform [.scaleX (.num 2)] ((only 1).union (only 0))] := by
  constructor
  · right
    refine ⟨?_, ?_⟩
    · simp only [prefixes, List.mem_cons, List.not_mem_nil, or_false]
      rintro p (rfl | rfl)
      · exact ⟨1, rfl⟩
      · exact ⟨0, rfl⟩
    · simp only [prefixes, List.pairwise_cons, List.mem_cons, List.not_mem_nil, or_false, forall_eq, false_imp_iff, implies_true, List.Pairwise.nil, and_true]
      decide
  · simp [run, handle, State.flush]

/-- `translate: 10px; transform: scale(2)`: the `translate` is dropped, though the two properties do not override one another. -/
theorem C78_translate_lost :
    run id {} [.translate (.xyz (.dim 10 .px) .zero .zero), .transform [.scaleX (.num 2)] (only 0)] = [.transform [.scaleX (.num 2)] (only 0)] := by
  simp [run, handle, State.flush]

/-- `transform: scaleX(2); translate: 10px` is written as `transform: scaleX(2) translate3d(10px, 0, 0)`. Browsers apply `translate` last, so that the origin goes
to 10px; in what is written it is applied first, and the origin goes to 20px. -/
theorem C78_order_changed :
    run id {} [.transform [.scaleX (.num 2)] (only 0), .translate (.xyz (.dim 10 .px) .zero .zero)] =
      [.transform [.scaleX (.num 2), .translate3d (.dim 10 .px) .zero .zero] (only 0)] ∧
    (∀ env, (compose [trMap env (.translate3d (.dim 10 .px) .zero .zero), trMap env (.scaleX (.num 2))] ⟨0, 0, 0, 1⟩).x = 10) ∧
    (∀ env, (compose [trMap env (.scaleX (.num 2)), trMap env (.translate3d (.dim 10 .px) .zero .zero)] ⟨0, 0, 0, 1⟩).x = 20) := by
  refine ⟨by simp [run, handle, State.flush, Translate.toTransform], fun env => ?_, fun env => ?_⟩
  · simp [compose, trMap, translation, scaling, lpVal, pixels]
  · simp [compose, trMap, translation, scaling, lpVal, pixels, NP.toNum]; norm_num

/-- `transform: scaleX(2); -webkit-transform: scaleX(2); -webkit-transform: scaleX(3)`: also the property without a prefix becomes `scaleX(3)`. -/
theorem C78_prefix_changed :
    winner (givesTransform 0) [.transform [.scaleX (.num 2)] (only 0), .transform [.scaleX (.num 2)] (only 1), .transform [.scaleX (.num 3)] (only 1)] =
      some (.value [.scaleX (.num 2)]) ∧
    winner (givesTransform 0) (run id {} [.transform [.scaleX (.num 2)] (only 0), .transform [.scaleX (.num 2)] (only 1), .transform [.scaleX (.num 3)] (only 1)]) =
      some (.value [.scaleX (.num 3)]) := by
  constructor
  · simp [winner, givesTransform, only, Tr.canon]
  · have h : ((only 0).union (only 1)).contains (only 1) = true := by decide
    simp [run, handle, State.flush, h, winner, givesTransform, Prefix.union, only, Tr.canon]

end Verif.Transform
