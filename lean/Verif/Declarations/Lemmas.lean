import Verif.Declarations.Spec
namespace Verif.Declarations
open Verif.Targets
variable {V : Type}

/-! ### Facts about the table -/

/-- A check of one row. -/
def rowOk (p : Pr) : Bool :=
  match p.sh with
  | none => true
  | some info =>
    info.groups.flatten.all (fun m => m.sh.isNone) && decide info.groups.flatten.Nodup &&
    (!info.isList || info.groups.all fun g => g.length == 1) && info.groups.all (fun g => !g.isEmpty) && !info.groups.isEmpty

theorem rows_ok (p : Pr) : rowOk p = true := by
  cases p <;> decide

theorem sh_facts (p : Pr) (info : ShInfo) (h : p.sh = some info) :
    (∀ m ∈ info.groups.flatten, m.sh = none) ∧ info.groups.flatten.Nodup ∧
    (info.isList = true → ∀ g ∈ info.groups, g.length = 1) ∧ (∀ g ∈ info.groups, g ≠ []) ∧ info.groups ≠ [] := by
  have := rows_ok p
  unfold rowOk at this
  rw [h] at this
  simp only [Bool.and_eq_true, List.all_eq_true, Option.isNone_iff_eq_none, decide_eq_true_eq, Bool.or_eq_true,
    Bool.not_eq_true', beq_iff_eq, List.isEmpty_eq_false_iff] at this
  obtain ⟨⟨⟨⟨h1, h2⟩, h3⟩, h4⟩, h5⟩ := this
  refine ⟨h1, h2, fun hl => ?_, h4, h5⟩
  rcases h3 with h3 | h3
  · rw [hl] at h3; cases h3
  · exact h3

theorem Id.sh_name (i : Id) (info : ShInfo) (h : i.sh = some info) : ∃ p, i.name = .pr p ∧ p.sh = some info := by
  unfold Id.sh at h
  split at h
  · next p hp => exact ⟨p, hp, h⟩
  · simp at h

/-! ### Fields -/

theorem keyOf_lt (groups : List (List Pr)) (m : Pr) (k : Nat) (h : keyOf groups m = some k) :
    ∃ g, groups[k]? = some g ∧ m ∈ g := by
  induction groups generalizing k with
  | nil => simp [keyOf] at h
  | cons g gs ih =>
    simp only [keyOf] at h
    split at h
    · next hm => injection h with h; subst h; exact ⟨g, rfl, hm⟩
    · rw [Option.map_eq_some_iff] at h
      obtain ⟨j, hj, rfl⟩ := h
      obtain ⟨g', h1, h2⟩ := ih j hj
      exact ⟨g', by simpa using h1, h2⟩

theorem keyOf_mem (groups : List (List Pr)) (m : Pr) : (∃ k, keyOf groups m = some k) ↔ m ∈ groups.flatten := by
  induction groups with
  | nil => simp [keyOf]
  | cons g gs ih =>
    simp only [keyOf, List.flatten_cons, List.mem_append]
    split
    · next h => simp [h]
    · next h =>
      simp only [h, false_or, ← ih]
      constructor
      · rintro ⟨k, hk⟩
        rw [Option.map_eq_some_iff] at hk
        obtain ⟨j, hj, _⟩ := hk
        exact ⟨j, hj⟩
      · rintro ⟨j, hj⟩
        exact ⟨j + 1, by rw [hj]; rfl⟩

theorem keyOf_getElem (groups : List (List Pr)) (hn : groups.flatten.Nodup) (m : Pr) (k : Nat) (g : List Pr)
    (hg : groups[k]? = some g) (hm : m ∈ g) : keyOf groups m = some k := by
  induction groups generalizing k with
  | nil => simp at hg
  | cons g0 gs ih =>
    rw [List.flatten_cons, List.nodup_append] at hn
    simp only [keyOf]
    cases k with
    | zero =>
      simp at hg
      subst hg
      rw [if_pos hm]
    | succ k =>
      simp at hg
      rw [if_neg, ih hn.2.1 k hg]
      · rfl
      · intro h0
        have : m ∈ gs.flatten := List.mem_flatten.2 ⟨g, List.mem_of_getElem? hg, hm⟩
        exact hn.2.2 m h0 m this rfl

theorem keyOf_inj_single (groups : List (List Pr)) (m m' : Pr) (k : Nat) (h : keyOf groups m = some k)
    (h' : keyOf groups m' = some k) (hs : ((groups[k]?).getD []).length ≤ 1) : m = m' := by
  obtain ⟨g, hg, hm⟩ := keyOf_lt groups m k h
  obtain ⟨g', hg', hm'⟩ := keyOf_lt groups m' k h'
  rw [hg] at hg'
  injection hg' with hg'
  subst hg'
  rw [hg] at hs
  simp at hs
  match g with
  | [] => simp at hm
  | [x] => simp at hm hm'; rw [hm, hm']
  | _ :: _ :: _ => simp at hs

/-! ### longhand -/

theorem longhand_some (d e : Decl V) (q : Id) (h : d.longhand q = some e) :
    ∃ i fs info m k v, d = .short i fs ∧ i.sh = some info ∧ q.name = .pr m ∧ (i.vp = none ∨ i.vp = some q.pre) ∧
      keyOf info.groups m = some k ∧ fs[k]? = some v ∧ e = .long q v := by
  cases d with
  | long _ _ => simp [Decl.longhand] at h
  | unparsed _ _ => simp [Decl.longhand] at h
  | short i fs =>
    simp only [Decl.longhand] at h
    split at h
    · next info m hi hm =>
      split at h
      · simp at h
      · next hv =>
        split at h
        · next k hk =>
          rw [Option.map_eq_some_iff] at h
          obtain ⟨v, hv', rfl⟩ := h
          refine ⟨i, fs, info, m, k, v, rfl, hi, hm, ?_, hk, hv', rfl⟩
          by_cases h1 : i.vp = none
          · exact .inl h1
          · exact .inr (Classical.not_not.1 fun h2 => hv ⟨h1, h2⟩)
        · simp at h
    · simp at h

theorem longhand_covers (d e : Decl V) (q : Id) (h : d.longhand q = some e) : d.id.covers q := by
  obtain ⟨i, fs, info, m, k, v, rfl, hi, hm, _, hk, _, _⟩ := longhand_some d e q h
  exact ⟨info, m, hi, hm, (keyOf_mem _ _).1 ⟨k, hk⟩⟩

theorem longhand_mk (i : Id) (fs : List V) (info : ShInfo) (q : Id) (m : Pr) (hi : i.sh = some info) (hm : q.name = .pr m)
    (hv : i.vp = none ∨ i.vp = some q.pre) :
    (Decl.short i fs).longhand q = ((keyOf info.groups m).bind (fs[·]?)).map (Decl.long q ·) := by
  simp only [Decl.longhand, hi, hm]
  rw [if_neg]
  · cases keyOf info.groups m <;> rfl
  · rintro ⟨h1, h2⟩
    rcases hv with hv | hv
    · exact h1 hv
    · exact h2 hv

/-! ### setLonghand -/

theorem setLonghand_some (len : V → Nat) (d p e : Decl V) (h : d.setLonghand len p = some e) :
    ∃ i fs info q v m k, d = .short i fs ∧ p = .long q v ∧ i.sh = some info ∧ q.name = .pr m ∧
      (i.vp = none ∨ i.vp = some q.pre) ∧ keyOf info.groups m = some k ∧ e = .short i (fs.set k v) ∧
      ((info.groups[k]?).getD []).length ≤ 1 := by
  cases d with
  | long _ _ => simp [Decl.setLonghand] at h
  | unparsed _ _ => simp [Decl.setLonghand] at h
  | short i fs =>
    cases p with
    | short _ _ => simp [Decl.setLonghand] at h
    | unparsed _ _ => simp [Decl.setLonghand] at h
    | long q v =>
      simp only [Decl.setLonghand] at h
      split at h
      · next info m hi hm =>
        split at h
        · simp at h
        · next hv =>
          have hvp : i.vp = none ∨ i.vp = some q.pre := by
            by_cases h1 : i.vp = none
            · exact .inl h1
            · exact .inr (Classical.not_not.1 fun h2 => hv ⟨h1, h2⟩)
          split at h
          · next k hk =>
            split at h
            · next hl =>
              split at h
              · split at h
                · injection h with h
                  subst h
                  refine ⟨i, fs, info, q, v, m, k, rfl, rfl, hi, hm, hvp, hk, rfl, ?_⟩
                  obtain ⟨p, _, hp⟩ := Id.sh_name i info hi
                  obtain ⟨g, hg, _⟩ := keyOf_lt _ _ _ hk
                  rw [hg]
                  exact Nat.le_of_eq ((sh_facts p info hp).2.2.1 hl g (List.mem_of_getElem? hg))
                · simp at h
              · simp at h
            · split at h
              · simp at h
              · next hl =>
                injection h with h
                subst h
                exact ⟨i, fs, info, q, v, m, k, rfl, rfl, hi, hm, hvp, hk, rfl, by omega⟩
          · simp at h
      · simp at h

theorem setLonghand_get (len : V → Nat) (d p e : Decl V) (hd : d.WF) (h : d.setLonghand len p = some e) :
    e.longhand p.id = some p ∧ e.id = d.id := by
  obtain ⟨i, fs, info, q, v, m, k, rfl, rfl, hi, hm, hv, hk, rfl, _⟩ := setLonghand_some len d p e h
  refine ⟨?_, rfl⟩
  show (Decl.short i (fs.set k v)).longhand q = _
  rw [longhand_mk i _ info q m hi hm hv, hk]
  obtain ⟨_, info', hi', hlen⟩ := hd
  rw [hi] at hi'
  injection hi' with hi'
  subst hi'
  obtain ⟨g, hg, _⟩ := keyOf_lt _ _ _ hk
  have : k < fs.length := by
    rw [hlen]
    exact (List.getElem?_eq_some_iff.1 hg).1
  simp [this]

theorem setLonghand_frame (len : V → Nat) (d p e : Decl V) (h : d.setLonghand len p = some e) (q : Id)
    (hsh : q.sh = none) (hq : q.name ≠ p.id.name) : e.provides q = d.provides q := by
  obtain ⟨i, fs, info, q0, v, m, k, rfl, rfl, hi, hm, hv, hk, rfl, hs⟩ := setLonghand_some len d p e h
  have hq' : q.name ≠ q0.name := hq
  unfold Decl.provides
  by_cases he : i = q
  · subst he
    rw [hi] at hsh
    simp at hsh
  · rw [if_neg (by exact he), if_neg (by exact he)]
    cases hqn : q.name with
    | all => simp [Decl.longhand, hqn]
    | custom s => simp [Decl.longhand, hqn]
    | pr m' =>
      simp only [Decl.longhand, hi, hqn]
      split
      · rfl
      · cases hk' : keyOf info.groups m' with
        | none => rfl
        | some k' =>
          simp only
          have hkk : k ≠ k' := by
            intro hkk
            subst hkk
            have := keyOf_inj_single info.groups m m' k hk hk' hs
            rw [hqn, hm, this] at hq'
            exact hq' rfl
          rw [List.getElem?_set_ne hkk]

/-! ### Looking a longhand up -/

/-- The first declaration of a list that says something about `q`. -/
def look (q : Id) (ds : List (Decl V)) : Option (Decl V) := ds.findSome? (·.provides q)

theorem get_long [DecidableEq V] (len : V → Nat) (valid : Pr → List V → Bool) (b : Block V) (q : Id) (hq : q.sh = none) :
    b.get len valid q = match look q b.imps.reverse with
      | some e => some (e, true)
      | none => (look q b.decls.reverse).map (·, false) := by
  have h : ∀ (ds : List (Decl V)) (imp : Bool), (ds.map fun d => (d, imp)).findSome? (fun d => (d.1.provides q).map (·, d.2))
      = (look q ds).map (·, imp) := by
    intro ds imp
    induction ds with
    | nil => rfl
    | cons d ds ih =>
      simp only [List.map_cons, List.findSome?_cons, look]
      cases d.provides q with
      | none => simpa [look] using ih
      | some e => rfl
  unfold Block.get Id.isShorthand Block.iter
  rw [hq, List.reverse_append, List.findSome?_append, ← List.map_reverse, ← List.map_reverse, h, h]
  cases look q b.imps.reverse <;> rfl

theorem look_setRev (len : V → Nat) (p : Decl V) (ds r : List (Decl V)) (hwf : ∀ d ∈ ds, d.WF)
    (hg : ∀ d ∈ ds, d.longhand p.id ≠ none → d.setLonghand len p ≠ none) (hsh : p.id.sh = none)
    (h : setRev len p ds = some r) : look p.id r = some p := by
  induction ds generalizing r with
  | nil => simp [setRev] at h
  | cons d ds ih =>
    simp only [setRev] at h
    split at h
    · simp at h
    · split at h
      · injection h with h
        subst h
        simp [look, Decl.provides]
      · next hid =>
        split at h
        · next d' hd' =>
          injection h with h
          subst h
          obtain ⟨h1, h2⟩ := setLonghand_get len d p d' (hwf d (by simp)) hd'
          simp [look, Decl.provides, h2, hid, h1]
        · next hn =>
          rw [Option.map_eq_some_iff] at h
          obtain ⟨r', hr', rfl⟩ := h
          have hl : d.longhand p.id = none := by
            cases hl : d.longhand p.id with
            | none => rfl
            | some e => exact absurd hn (hg d (by simp) (by rw [hl]; simp))
          have := ih r' (fun d hd => hwf d (by simp [hd])) (fun d hd => hg d (by simp [hd])) hr'
          simpa [look, Decl.provides, hid, hl] using this

theorem look_setList (len : V → Nat) (p : Decl V) (ds : List (Decl V)) (hwf : ∀ d ∈ ds, d.WF)
    (hg : ∀ d ∈ ds, d.longhand p.id ≠ none → d.setLonghand len p ≠ none) (hsh : p.id.sh = none) :
    look p.id (setList len p ds).reverse = some p := by
  unfold setList
  split
  · next r hr =>
    rw [List.reverse_reverse]
    exact look_setRev len p ds.reverse r (by simpa using hwf) (by simpa using hg) hsh hr
  · simp [look, Decl.provides]

theorem provides_unrelated (d : Decl V) (q : Id) (hn : q.name ≠ d.id.name) (hc : ¬ d.id.covers q) : d.provides q = none := by
  unfold Decl.provides
  rw [if_neg]
  · cases h : d.longhand q with
    | none => rfl
    | some e => exact absurd (longhand_covers d e q h) hc
  · intro h; exact hn (by rw [h])

theorem look_setRev_frame (len : V → Nat) (p : Decl V) (q : Id) (hsh : q.sh = none) (hn : q.name ≠ p.id.name)
    (hc : ¬ p.id.covers q) (ds r : List (Decl V)) (h : setRev len p ds = some r) : look q r = look q ds := by
  induction ds generalizing r with
  | nil => simp [setRev] at h
  | cons d ds ih =>
    simp only [setRev] at h
    split at h
    · simp at h
    · split at h
      · next hid =>
        injection h with h
        subst h
        have h1 := provides_unrelated p q hn hc
        have h2 := provides_unrelated d q (by rw [hid]; exact hn) (by rw [hid]; exact hc)
        simp [look, h1, h2]
      · split at h
        · next d' hd' =>
          injection h with h
          subst h
          simp only [look, List.findSome?_cons]
          rw [setLonghand_frame len d p d' hd' q hsh hn]
        · rw [Option.map_eq_some_iff] at h
          obtain ⟨r', hr', rfl⟩ := h
          simp only [look, List.findSome?_cons]
          have := ih r' hr'
          simp only [look] at this
          rw [this]

theorem look_setList_frame (len : V → Nat) (p : Decl V) (q : Id) (hsh : q.sh = none) (hn : q.name ≠ p.id.name)
    (hc : ¬ p.id.covers q) (ds : List (Decl V)) : look q (setList len p ds).reverse = look q ds.reverse := by
  unfold setList
  split
  · next r hr =>
    rw [List.reverse_reverse]
    exact look_setRev_frame len p q hsh hn hc ds.reverse r hr
  · simp [look, provides_unrelated p q hn hc]

theorem look_filter (q pid : Id) (hn : ∀ d : Decl V, d.id = pid → d.provides q = none) (ds : List (Decl V)) :
    look q (ds.filter fun d => d.id ≠ pid).reverse = look q ds.reverse := by
  rw [← List.filter_reverse]
  generalize ds.reverse = l
  induction l with
  | nil => rfl
  | cons d l ih =>
    rw [List.filter_cons]
    split
    · simp only [look, List.findSome?_cons] at ih ⊢
      rw [ih]
    · next hd =>
      simp at hd
      rw [ih]
      simp only [look, List.findSome?_cons]
      rw [hn d hd]

theorem look_none (q : Id) (ds : List (Decl V)) (h : ∀ d ∈ ds, d.provides q = none) : look q ds = none := by
  unfold look
  rw [List.findSome?_eq_none_iff]
  exact h

/-! ### remove -/

/-- The result of `remove` on a list, declaration by declaration. -/
def removeFlat (q : Id) : List (Decl V) → List (Decl V)
  | [] => []
  | d :: ds => (replacement q d).getD [d] ++ removeFlat q ds

theorem removeLoop_flat (q : Id) (ds : List (Decl V)) (i : Nat) (hi : i ≤ ds.length) :
    removeLoop q ds i = ds.take i ++ removeFlat q (ds.drop i) := by
  unfold removeLoop
  by_cases h : i < ds.length
  · rw [dif_pos h]
    have hd : ds.drop i = ds[i] :: ds.drop (i + 1) := List.drop_eq_getElem_cons h
    rw [hd, removeFlat]
    split
    · next ps hps =>
      rw [removeLoop_flat q _ _ (by simp; omega), hps]
      have hlen : (ds.take i ++ ps).length = i + ps.length := by simp; omega
      rw [← hlen, List.take_left, List.drop_left]
      simp
    · next hn =>
      rw [removeLoop_flat q _ _ (by omega), hn]
      rw [List.take_succ_eq_append_getElem h]
      simp only [Option.getD_none, List.append_assoc]
  · rw [dif_neg h]
    have : i = ds.length := by omega
    subst this
    simp [removeFlat]
termination_by ds.length - i
decreasing_by
  all_goals (try simp only [List.length_append, List.length_take, List.length_drop])
  all_goals omega

theorem remove_decls (b : Block V) (q : Id) : b.remove q = ⟨removeFlat q b.decls, removeFlat q b.imps⟩ := by
  unfold Block.remove
  rw [removeLoop_flat q b.decls 0 (by omega), removeLoop_flat q b.imps 0 (by omega)]
  simp

theorem look_append (q : Id) (a b : List (Decl V)) : look q (a ++ b) = (look q a).or (look q b) := by
  unfold look
  exact List.findSome?_append ..

theorem look_removeFlat (q r : Id) (f : Decl V → Option (Decl V))
    (h : ∀ d : Decl V, look r ((replacement q d).getD [d]).reverse = f d) (ds : List (Decl V)) :
    look r (removeFlat q ds).reverse = ds.reverse.findSome? f := by
  induction ds with
  | nil => rfl
  | cons d ds ih =>
    rw [removeFlat, List.reverse_append, look_append, ih, h, List.reverse_cons, List.findSome?_append]
    simp

/-- The longhand ids of a shorthand are those a lookup finds, for unprefixed properties. -/
theorem longhand_mem (d e : Decl V) (q : Id) (hd : d.WF) (hq : q.WF) (hu : q.unprefixed ∨ d.id.vp ≠ none)
    (h : d.longhand q = some e) : q ∈ d.id.longhands.getD [] := by
  obtain ⟨i, fs, info, m, k, v, rfl, hi, hm, hv, hk, _, rfl⟩ := longhand_some d e q h
  have hmem : m ∈ info.groups.flatten := (keyOf_mem _ _).1 ⟨k, hk⟩
  have hsh : (Decl.short i fs).id.sh = some info := hi
  unfold Id.longhands
  rw [hsh]
  simp only [Option.map_some, Option.getD_some, List.mem_map]
  refine ⟨m, hmem, ?_⟩
  obtain ⟨qn, qv⟩ := q
  simp only at hm
  subst hm
  unfold Id.WF at hq
  simp only at hq
  show memberId i.shPrefix m = _
  unfold memberId Id.shPrefix
  congr 1
  rcases hv with hv | hv
  · have hu' : (qv = none ∨ qv = some Prefix.none.set) := by
      rcases hu with hu | hu
      · exact hu
      · exact absurd hv hu
    rw [hv]
    rcases hu' with rfl | rfl
    · simp at hq
      simp [hq]
    · have h2 : m.hasVp = true := hq.2.symm
      simp [h2]
  · rw [hv]
    have hi1 : i.vp ≠ some .empty := hd.1.1
    cases qv with
    | none =>
      exact absurd hv hi1
    | some s =>
      simp at hq
      simp [← hq.2, Id.pre]

end Verif.Declarations
