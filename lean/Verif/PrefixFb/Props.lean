import Verif.PrefixFb.Lemmas
/-!
# C104: prefixed properties
-/
namespace Verif.PrefixFb
open Verif.Targets

variable {V : Type}

/-- Prefixes are not changed: there are no target browsers and prefixes are not asked for, or they are excluded. -/
def KeepsPrefixes (t : Targets) : Prop := (t.browsers = none ∧ t.incl.getLsbD 18 = false) ∨ t.excl.getLsbD 18 = true

theorem written_aux [DecidableEq V] (t : Targets) (f : PrefixFeature) (ht : KeepsPrefixes t) (w : View V) : ∀ (ds : List (Item V)) (s : State V), Inv s →
    (∀ d ∈ s.dest, ¬ d.IsUnparsed) → (∀ d ∈ ds, ¬ d.IsUnparsed) → (∀ d ∈ ds, d.IsOwn → ∃ p, d.Names p) →
    (∀ d ∈ s.dest, ∀ e ∈ ds, ∀ p, d.Names p → ¬ e.Names p) → ds.Pairwise (fun d e => ∀ p, d.Names p → ¬ e.Names p) →
    w.win (ds.foldl (handlePrefix t f) s).dest = w.win (s.dest ++ ds) := by
  intro ds
  induction ds with
  | nil => intro s _ _ _ _ _ _; simp
  | cons d ds ih =>
    intro s hs hu hu' hn hd hp
    rw [List.pairwise_cons] at hp
    rw [List.foldl_cons]
    have step : w.win (handlePrefix t f s d).dest = w.win (s.dest ++ [d]) ∧ (∀ e ∈ (handlePrefix t f s d).dest, ¬ e.IsUnparsed) ∧
        ∀ e ∈ (handlePrefix t f s d).dest, ∀ p, e.Names p → d.Names p ∨ ∃ x ∈ s.dest, x.Names p := by
      cases d with
      | unparsed v p => exact absurd trivial (hu' _ List.mem_cons_self)
      | other x =>
        unfold handlePrefix
        refine ⟨rfl, ?_, ?_⟩
        · intro e he
          simp only [List.mem_append, List.mem_singleton] at he
          rcases he with he | rfl
          · exact hu e he
          · exact fun h => h
        · intro e he p hep
          simp only [List.mem_append, List.mem_singleton] at he
          rcases he with he | rfl
          · exact Or.inr ⟨e, he, hep⟩
          · exact Or.inl hep
      | own val pre =>
        rcases handlePrefix_own t f s hs val pre with ⟨a, cur, ps, b, e1, hb, hc, h⟩ | h
        · have hm : (Item.own cur ps) ∈ s.dest := by rw [e1]; simp
          have hv : val = cur := by
            rcases hc with hc | hc
            · exact hc
            · obtain ⟨q, hq⟩ := hn _ List.mem_cons_self trivial
              exact absurd hq (hd _ hm _ List.mem_cons_self q (contains_has hc q hq))
          subst hv
          rw [h, prefixes_same ht]
          have hub : w.win b = none := win_other w b hb fun x hx => hu x (by rw [e1]; simp [hx])
          refine ⟨?_, ?_, ?_⟩
          · simp only [e1, win_append, View.win, hub, View.set, knows_union]
            by_cases k1 : w.Knows ps <;> by_cases k2 : w.Knows pre <;> by_cases k3 : w.understands val <;> simp [k1, k2, k3, knows_union]
          · intro e he
            simp only [List.mem_append, List.mem_cons] at he
            rcases he with he | rfl | he
            · exact hu e (by rw [e1]; simp [he])
            · exact fun h => h
            · exact hu e (by rw [e1]; simp [he])
          · intro e he p hep
            simp only [List.mem_append, List.mem_cons] at he
            rcases he with he | rfl | he
            · exact Or.inr ⟨e, by rw [e1]; simp [he], hep⟩
            · simp only [Item.Names] at hep ⊢
              rcases (has_union ps pre p).1 hep with hep | hep
              · exact Or.inr ⟨_, hm, hep⟩
              · exact Or.inl hep
            · exact Or.inr ⟨e, by rw [e1]; simp [he], hep⟩
        · rw [h, prefixes_same ht]
          refine ⟨rfl, ?_, ?_⟩
          · intro e he
            simp only [List.mem_append, List.mem_singleton] at he
            rcases he with he | rfl
            · exact hu e he
            · exact fun h => h
          · intro e he p hep
            simp only [List.mem_append, List.mem_singleton] at he
            rcases he with he | rfl
            · exact Or.inr ⟨e, he, hep⟩
            · exact Or.inl hep
    obtain ⟨h1, h2, h3⟩ := step
    rw [ih _ (handlePrefix_inv t f s hs d) h2 (fun e he => hu' e (List.mem_cons_of_mem _ he)) (fun e he => hn e (List.mem_cons_of_mem _ he)) ?_ hp.2]
    · rw [win_append, h1, ← win_append, List.append_assoc]; rfl
    · intro x hx e he p hxp hep
      rcases h3 x hx p hxp with h | ⟨y, hy, h⟩
      · exact hp.1 e he p h hep
      · exact hd y hy e (List.mem_cons_of_mem _ he) p h hep

/-- **C104 (partial), as written.** Without target browsers: if each name (prefix) of the property is used at most once in a block, the same value wins in every browser, whichever names it knows and whichever values it understands, also if the handler
comes from another block. Not covered: several declarations with the same prefix together with other prefixes (`C104_overwrites`); unparsed values (`C104_unparsed`). -/
theorem C104_written_partial [DecidableEq V] (t : Targets) (ht : KeepsPrefixes t) (f : PrefixFeature) (index : Option Nat) (ds : List (Item V)) (hu : ∀ d ∈ ds, ¬ d.IsUnparsed)
    (hn : ∀ d ∈ ds, d.IsOwn → ∃ p, d.Names p) (hp : ds.Pairwise fun d e => ∀ p, d.Names p → ¬ e.Names p) (w : View V) (x : Won V) :
    w.Wins (minifyPrefix t f index ds) x ↔ w.Wins ds x := by
  rw [wins_iff, wins_iff]
  unfold minifyPrefix
  rw [written_aux t f ht w ds ⟨index, []⟩ (Or.inl (by simp)) (by simp) hu hn (by simp) hp]
  simp

/-- Non-vacuity: `-webkit-hyphens: auto; color: red; hyphens: auto; -ms-hyphens: none`. -/
example : minifyPrefix ⟨none, 0#32, 0#32⟩ .hyphens (some 7) [.own 1 Prefix.webkit.set, .other cs!"color:red", .own 1 Prefix.none.set, .own 2 Prefix.ms.set] =
    [.own 1 ⟨true, true, false, false, false⟩, .other cs!"color:red", .own 2 Prefix.ms.set] := by decide

theorem knowing_aux [DecidableEq V] (t : Targets) (f : PrefixFeature) (w : View V) : ∀ (ds : List (Item V)) (s : State V), Inv s →
    (∀ d ∈ s.dest, ¬ d.IsUnparsed) → (∀ d ∈ ds, ¬ d.IsUnparsed) →
    (∀ v p, .own v p ∈ ds → w.understands v ∧ (∃ q, p.has q = true) ∧ ∀ q, p.has q = true → w.knows q) →
    (∀ v p, .own v p ∈ s.dest → w.understands v ∧ w.Knows p ∧ (p.has .none = true → w.knows .none)) →
    w.win (ds.foldl (handlePrefix t f) s).dest = w.win (s.dest ++ ds) := by
  intro ds
  induction ds with
  | nil => intro s _ _ _ _ _; simp
  | cons d ds ih =>
    intro s hs hu hu' hd hk
    rw [List.foldl_cons]
    have pk : ∀ p : PrefixSet, w.Knows p → (p.has .none = true → w.knows .none) → w.Knows (t.prefixes p f) ∧ ((t.prefixes p f).has .none = true → w.knows .none) := by
      intro p h1 h2
      cases hn : p.has .none with
      | false => rw [(C13_targets t p f).1 hn]; exact ⟨h1, h2⟩
      | true => exact ⟨⟨.none, h2 hn, (C13_targets t p f).2.2.1 hn⟩, fun _ => h2 hn⟩
    have step : w.win (handlePrefix t f s d).dest = w.win (s.dest ++ [d]) ∧ (∀ e ∈ (handlePrefix t f s d).dest, ¬ e.IsUnparsed) ∧
        ∀ v p, .own v p ∈ (handlePrefix t f s d).dest → w.understands v ∧ w.Knows p ∧ (p.has .none = true → w.knows .none) := by
      cases d with
      | unparsed v p => exact absurd trivial (hu' _ List.mem_cons_self)
      | other x =>
        unfold handlePrefix
        refine ⟨rfl, ?_, ?_⟩
        · intro e he
          simp only [List.mem_append, List.mem_singleton] at he
          rcases he with he | rfl
          · exact hu e he
          · exact fun h => h
        · intro v p he
          simp only [List.mem_append, List.mem_singleton] at he
          rcases he with he | he
          · exact hk v p he
          · cases he
      | own val pre =>
        obtain ⟨u1, ⟨q, hq⟩, u3⟩ := hd val pre List.mem_cons_self
        have kp : w.Knows pre := ⟨q, u3 q hq, hq⟩
        have np : pre.has .none = true → w.knows .none := u3 .none
        rcases handlePrefix_own t f s hs val pre with ⟨a, cur, ps, b, e1, hb, -, h⟩ | h
        · obtain ⟨-, c2, c3⟩ := hk cur ps (by rw [e1]; simp)
          have hub : w.win b = none := win_other w b hb fun x hx => hu x (by rw [e1]; simp [hx])
          have kn := pk (ps.union pre) ((knows_union w ps pre).2 (Or.inl c2)) (fun h => by
            rcases (has_union ps pre .none).1 h with h | h
            · exact c3 h
            · exact np h)
          rw [h]
          refine ⟨?_, ?_, ?_⟩
          · simp only [e1, win_append, View.win, hub, View.set]
            simp [kn.1, kp, u1]
          · intro e he
            simp only [List.mem_append, List.mem_cons] at he
            rcases he with he | rfl | he
            · exact hu e (by rw [e1]; simp [he])
            · exact fun h => h
            · exact hu e (by rw [e1]; simp [he])
          · intro v p he
            simp only [List.mem_append, List.mem_cons] at he
            rcases he with he | he | he
            · exact hk v p (by rw [e1]; simp [he])
            · cases he; exact ⟨u1, kn⟩
            · exact hk v p (by rw [e1]; simp [he])
        · rw [h]
          have kn := pk pre kp np
          refine ⟨?_, ?_, ?_⟩
          · simp only [win_append, View.win, View.set]
            simp [kn.1, kp, u1]
          · intro e he
            simp only [List.mem_append, List.mem_singleton] at he
            rcases he with he | rfl
            · exact hu e he
            · exact fun h => h
          · intro v p he
            simp only [List.mem_append, List.mem_singleton] at he
            rcases he with he | he
            · exact hk v p he
            · cases he; exact ⟨u1, kn⟩
    obtain ⟨h1, h2, h3⟩ := step
    rw [ih _ (handlePrefix_inv t f s hs d) h2 (fun e he => hu' e (List.mem_cons_of_mem _ he)) (fun v p he => hd v p (List.mem_cons_of_mem _ he)) h3]
    rw [win_append, h1, ← win_append, List.append_assoc]; rfl

/-- **C104 (partial), all names.** For any targets: in a browser that knows the property under all names that occur in the block, and all values, the same value wins. Not covered: browsers that do not know some of the names or values
(`C104_overwrites`, `C104_autoprefix`, `C104_values`); unparsed values (`C104_unparsed`). -/
theorem C104_knowing_partial [DecidableEq V] (t : Targets) (f : PrefixFeature) (index : Option Nat) (ds : List (Item V)) (hu : ∀ d ∈ ds, ¬ d.IsUnparsed) (w : View V)
    (hw : ∀ v p, .own v p ∈ ds → w.understands v ∧ (∃ q, p.has q = true) ∧ ∀ q, p.has q = true → w.knows q) (x : Won V) :
    w.Wins (minifyPrefix t f index ds) x ↔ w.Wins ds x := by
  rw [wins_iff, wins_iff]
  unfold minifyPrefix
  rw [knowing_aux t f w ds ⟨index, []⟩ (Or.inl (by simp)) (by simp) hu hw (by simp)]
  simp

/-- Non-vacuity: `-webkit-user-select: none; user-select: none; user-select: text` for Safari 16. -/
example : minifyPrefix ⟨some (fun b => if b = .safari then some (16 * 65536) else none), 0#32, 0#32⟩ .userSelect none [.own 1 Prefix.webkit.set, .own 1 Prefix.none.set, .own 2 Prefix.none.set] =
    [.own 2 ⟨true, true, false, false, false⟩] := by decide

/-- A browser that is a target in this version knows the property under a name that the table of prefixes gives for it. -/
def TableName (t : Targets) (f : PrefixFeature) (w : View V) : Prop :=
  ∃ br b v q, t.browsers = some br ∧ br b = some v ∧ w.knows q ∧ (f.prefixesFor (fun x => if x = b then some v else none)).has q = true

theorem target_knows {t : Targets} {f : PrefixFeature} {w : View V} (h : TableName t f w) {p : PrefixSet} (hk : w.Knows p) : w.Knows (t.prefixes p f) := by
  obtain ⟨br, b, v, q, h1, h2, h3, h4⟩ := h
  unfold Targets.prefixes
  split
  · split
    · exact ⟨q, h3, by cases q <;> rfl⟩
    · rw [h1]
      refine ⟨q, h3, C13_monotone f _ br ?_ q h4⟩
      intro x v' hx
      split at hx
      · rename_i e; subst e; cases hx; exact h2
      · cases hx
  · exact hk

theorem same_aux [DecidableEq V] (t : Targets) (f : PrefixFeature) (w : View V) (ht : TableName t f w) (v : V) : ∀ (ds : List (Item V)) (s : State V), Inv s →
    (∀ d ∈ s.dest, ¬ d.IsUnparsed) → (∀ d ∈ ds, ¬ d.IsUnparsed) → (∀ x p, .own x p ∈ ds → x = v) → (∀ x p, .own x p ∈ s.dest → x = v) →
    ((w.win (s.dest ++ ds)).isSome → (w.win (ds.foldl (handlePrefix t f) s).dest).isSome) ∧ ∀ x p, .own x p ∈ (ds.foldl (handlePrefix t f) s).dest → x = v := by
  intro ds
  induction ds with
  | nil => intro s _ _ _ _ hx; simpa using hx
  | cons d ds ih =>
    intro s hs hu hu' hd hk
    rw [List.foldl_cons]
    have step : ((w.win (s.dest ++ [d])).isSome → (w.win (handlePrefix t f s d).dest).isSome) ∧ (∀ e ∈ (handlePrefix t f s d).dest, ¬ e.IsUnparsed) ∧
        ∀ x p, .own x p ∈ (handlePrefix t f s d).dest → x = v := by
      cases d with
      | unparsed v p => exact absurd trivial (hu' _ List.mem_cons_self)
      | other x =>
        unfold handlePrefix
        refine ⟨fun h => h, ?_, ?_⟩
        · intro e he
          simp only [List.mem_append, List.mem_singleton] at he
          rcases he with he | rfl
          · exact hu e he
          · exact fun h => h
        · intro v p he
          simp only [List.mem_append, List.mem_singleton] at he
          rcases he with he | he
          · exact hk v p he
          · cases he
      | own val pre =>
        have e0 := hd val pre List.mem_cons_self
        subst e0
        rcases handlePrefix_own t f s hs val pre with ⟨a, cur, ps, b, e1, hb, -, h⟩ | h
        · have e2 := hk cur ps (by rw [e1]; simp)
          subst e2
          have hub : w.win b = none := win_other w b hb fun x hx => hu x (by rw [e1]; simp [hx])
          rw [h]
          refine ⟨?_, ?_, ?_⟩
          · simp only [e1, win_append, View.win, hub, View.set]
            by_cases k3 : w.understands cur
            · by_cases k : w.Knows (ps.union pre)
              · simp [target_knows ht k, k3]
              · have k' := k
                rw [knows_union] at k'
                simp only [not_or] at k'
                simp only [k'.1, k'.2, false_and, if_false]
                intro hh
                have hh : (w.win a).isSome := by simpa using hh
                simp [hh]
            · simp [k3]
          · intro e he
            simp only [List.mem_append, List.mem_cons] at he
            rcases he with he | rfl | he
            · exact hu e (by rw [e1]; simp [he])
            · exact fun h => h
            · exact hu e (by rw [e1]; simp [he])
          · intro v p he
            simp only [List.mem_append, List.mem_cons] at he
            rcases he with he | he | he
            · exact hk v p (by rw [e1]; simp [he])
            · cases he; rfl
            · exact hk v p (by rw [e1]; simp [he])
        · rw [h]
          refine ⟨?_, ?_, ?_⟩
          · simp only [win_append, View.win, View.set]
            by_cases k : w.Knows pre
            · by_cases k3 : w.understands val <;> simp [target_knows ht k, k3]
            · by_cases k' : w.Knows (t.prefixes pre f) <;> by_cases k3 : w.understands val <;> simp [k, k', k3]
          · intro e he
            simp only [List.mem_append, List.mem_singleton] at he
            rcases he with he | rfl
            · exact hu e he
            · exact fun h => h
          · intro v p he
            simp only [List.mem_append, List.mem_singleton] at he
            rcases he with he | he
            · exact hk v p he
            · cases he; rfl
    obtain ⟨h1, h2, h3⟩ := step
    obtain ⟨g1, g2⟩ := ih _ (handlePrefix_inv t f s hs d) h2 (fun e he => hu' e (List.mem_cons_of_mem _ he)) (fun v p he => hd v p (List.mem_cons_of_mem _ he)) h3
    refine ⟨fun h => g1 ?_, g2⟩
    have e : s.dest ++ d :: ds = (s.dest ++ [d]) ++ ds := by simp
    rw [e, win_append] at h
    rw [win_append]
    cases hw : w.win ds with
    | some y => rfl
    | none =>
      rw [hw] at h
      simpa using h1 (by simpa using h)

/-- **C104 (partial), same value.** If all declarations of the property in a block have the same value, under any names, then in every browser that is a target and takes this value, it still wins; and no other value does. Not covered: different values. -/
theorem C104_same_partial [DecidableEq V] (t : Targets) (f : PrefixFeature) (index : Option Nat) (ds : List (Item V)) (hu : ∀ d ∈ ds, ¬ d.IsUnparsed) (v : V) (hv : ∀ x p, .own x p ∈ ds → x = v)
    (w : View V) (ht : TableName t f w) (x : Won V) :
    (w.Wins ds x → w.Wins (minifyPrefix t f index ds) x) ∧ (w.Wins (minifyPrefix t f index ds) x → x = .value v) := by
  have nu : ∀ (ds : List (Item V)) (s : State V), (∀ d ∈ s.dest, ¬ d.IsUnparsed) → (∀ d ∈ ds, ¬ d.IsUnparsed) → ∀ d ∈ (ds.foldl (handlePrefix t f) s).dest, ¬ d.IsUnparsed := by
    intro ds
    induction ds with
    | nil => intro s h _; exact h
    | cons d ds ih =>
      intro s h h'
      refine ih _ ?_ fun e he => h' e (List.mem_cons_of_mem _ he)
      cases d with
      | unparsed _ _ => exact absurd trivial (h' _ List.mem_cons_self)
      | other z =>
        intro e he
        simp only [handlePrefix, List.mem_append, List.mem_singleton] at he
        rcases he with he | rfl
        · exact h e he
        · exact fun h => h
      | own val pre =>
        intro e he
        unfold handlePrefix State.push State.put at he
        have fin : e ∈ s.dest ∨ e.IsOwn := by
          simp only at he
          split at he
          · simp only [List.mem_append, List.mem_singleton] at he
            rcases he with he | rfl
            · exact Or.inl he
            · exact Or.inr trivial
          · split at he
            · split at he
              · rcases List.mem_or_eq_of_mem_set he with he | rfl
                · exact Or.inl he
                · exact Or.inr trivial
              · simp only [List.mem_append, List.mem_singleton] at he
                rcases he with he | rfl
                · exact Or.inl he
                · exact Or.inr trivial
            · simp only [List.mem_append, List.mem_singleton] at he
              rcases he with he | rfl
              · exact Or.inl he
              · exact Or.inr trivial
        rcases fin with hm | ho
        · exact h e hm
        · cases e with
          | own _ _ => exact fun h => h
          | unparsed _ _ => exact fun _ => ho
          | other _ => exact fun h => h
  obtain ⟨h1, h2⟩ := same_aux t f w ht v ds ⟨index, []⟩ (Or.inl (by simp)) (by simp) hu hv (by simp)
  have val : ∀ (l : List (Item V)), (∀ d ∈ l, ¬ d.IsUnparsed) → (∀ x p, .own x p ∈ l → x = v) → ∀ y, w.Wins l y → y = .value v := by
    rintro l hl hl' y ⟨a, d, b, e, hs, -⟩
    have hm : d ∈ l := by rw [e]; simp
    cases hs with
    | own _ _ => rw [hl' _ _ hm]
    | unparsed _ => exact absurd trivial (hl _ hm)
  have vout : ∀ y, w.Wins (minifyPrefix t f index ds) y → y = .value v := val _ (nu ds ⟨index, []⟩ (by simp) hu) h2
  have some_of : ∀ y, w.Wins ds y → ∃ z, w.Wins (minifyPrefix t f index ds) z := by
    intro y hy
    rw [wins_iff] at hy
    have := h1 (by rw [List.nil_append, hy]; rfl)
    obtain ⟨z, hz⟩ := Option.isSome_iff_exists.1 this
    exact ⟨z, (wins_iff _ _ _).2 hz⟩
  constructor
  · intro h
    obtain ⟨z, hz⟩ := some_of x h
    rw [val ds hu hv x h, ← vout z hz]
    exact hz
  · exact vout x

/-- A browser that knows the property under one name only, and all values. -/
def only (p : Prefix) : View V := ⟨fun q => q = p, fun _ => True⟩

theorem only_wins (p : Prefix) (ds : List (Item V)) (a b : List (Item V)) (v : V) (ps : PrefixSet) (h : ds = a ++ .own v ps :: b) (hp : ps.has p = true) (hb : ∀ e ∈ b, ¬ e.Names p) : (only p : View V).Wins ds (.value v) := by
  refine ⟨a, _, b, h, .own ⟨p, rfl, hp⟩ trivial, ?_⟩
  intro e he y hs
  cases hs with
  | own hk _ =>
    obtain ⟨q, rfl, hq⟩ := hk
    exact hb _ he hq
  | unparsed hk =>
    obtain ⟨q, rfl, hq⟩ := hk
    exact hb _ he hq

/-- **C104, what goes wrong.** `-webkit-user-select: none; user-select: none; -webkit-user-select: auto` becomes `-webkit-user-select: auto; user-select: auto`, without any targets: a browser that knows `user-select` only gets `auto` instead of `none`. -/
theorem C104_overwrites :
    let ds := [Item.own cs!"none" Prefix.webkit.set, .own cs!"none" Prefix.none.set, .own cs!"auto" Prefix.webkit.set]
    let out := minifyPrefix ⟨none, 0#32, 0#32⟩ .userSelect none ds
    (only .none).Wins ds (.value cs!"none") ∧ (only .none).Wins out (.value cs!"auto") := by
  refine ⟨only_wins _ _ [_] [_] _ _ rfl rfl ?_, only_wins _ _ [] [] _ ⟨true, true, false, false, false⟩ (by decide) rfl (by simp)⟩
  intro e he
  simp only [List.mem_singleton] at he
  subst he
  simp [Item.Names, Prefix.set, PrefixSet.has]

/-- **C104, what goes wrong.** For Safari 16, which knows `-webkit-user-select` only, `-webkit-user-select: text; user-select: none` gets a second `-webkit-user-select: none`, which wins. -/
theorem C104_autoprefix :
    let ds := [Item.own cs!"text" Prefix.webkit.set, .own cs!"none" Prefix.none.set]
    let t : Targets := ⟨some (fun b => if b = .safari then some (16 * 65536) else none), 0#32, 0#32⟩
    let out := minifyPrefix t .userSelect none ds
    TableName t .userSelect (only .webkit : View Str) ∧ (only .webkit).Wins ds (.value cs!"text") ∧ (only .webkit).Wins out (.value cs!"none") := by
  refine ⟨⟨_, .safari, 16 * 65536, .webkit, rfl, rfl, rfl, by decide⟩, only_wins _ _ [] [_] _ _ rfl rfl ?_, only_wins _ _ [.own cs!"text" Prefix.webkit.set] [] _ ⟨true, true, false, false, false⟩ (by decide) rfl (by simp)⟩
  intro e he
  simp only [List.mem_singleton] at he
  subst he
  simp [Item.Names, Prefix.set, PrefixSet.has]

/-- **C104, what goes wrong.** `hyphens: auto; hyphens: var(--x); hyphens: none` becomes `hyphens: none; hyphens: var(--x)`: the last declaration does not win. -/
theorem C104_unparsed :
    let ds := [Item.own cs!"auto" Prefix.none.set, .unparsed cs!"var(--x)" Prefix.none.set, .own cs!"none" Prefix.none.set]
    let out := minifyPrefix ⟨none, 0#32, 0#32⟩ .hyphens none ds
    (only .none).Wins ds (.value cs!"none") ∧ (only .none).Wins out (.unparsed cs!"var(--x)") := by
  refine ⟨only_wins _ _ [_, _] [] _ _ rfl rfl (by simp), [.own cs!"none" Prefix.none.set], .unparsed cs!"var(--x)" Prefix.none.set, [], by decide, .unparsed ⟨.none, rfl, rfl⟩, by simp⟩

/-- **C104, what goes wrong.** A value for older browsers is dropped, without any targets: `clip-path: url(#a); clip-path: circle(5px)` becomes `clip-path: circle(5px)`, so that a browser that does not understand `circle()` gets nothing. -/
theorem C104_values :
    let ds := [Item.own cs!"url(#a)" Prefix.none.set, .own cs!"circle(5px)" Prefix.none.set]
    let w : View Str := ⟨fun _ => True, fun v => v ≠ cs!"circle(5px)"⟩
    w.Wins ds (.value cs!"url(#a)") ∧ ∀ x, ¬ w.Wins (minifyPrefix ⟨none, 0#32, 0#32⟩ .clipPath none ds) x := by
  constructor
  · refine ⟨[], _, [_], rfl, .own ⟨.none, trivial, rfl⟩ (by decide), ?_⟩
    intro e he y hs
    simp only [List.mem_singleton] at he
    subst he
    cases hs with
    | own _ h => exact h rfl
  · rintro x ⟨a, d, b, e, hs, -⟩
    have e' : minifyPrefix ⟨none, 0#32, 0#32⟩ .clipPath none [Item.own cs!"url(#a)" Prefix.none.set, .own cs!"circle(5px)" Prefix.none.set] = [.own cs!"circle(5px)" Prefix.none.set] := by decide
    rw [e'] at e
    have hm : d ∈ [Item.own cs!"circle(5px)" Prefix.none.set] := by rw [e]; simp
    simp only [List.mem_singleton] at hm
    subst hm
    cases hs with
    | own _ h => exact h rfl

end Verif.PrefixFb
