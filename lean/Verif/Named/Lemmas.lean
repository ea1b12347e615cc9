import Verif.Named.Spec
/-! Lemmas about the pass over name defining rules. -/

namespace Verif.Named

variable {D S : Type}

/-! ### IndexMap -/

theorem get_insert_self {κ ν : Type} [DecidableEq κ] (k : κ) (v : ν) (m : IMap κ ν) :
    IMap.get k (IMap.insert k v m) = some v := by
  induction m with
  | nil => simp [IMap.insert, IMap.get]
  | cons a m ih =>
    obtain ⟨k', v'⟩ := a
    by_cases h : k' = k <;> simp [IMap.insert, IMap.get, h, ih]

theorem get_insert_ne {κ ν : Type} [DecidableEq κ] {k k' : κ} (v : ν) (m : IMap κ ν) (hne : k ≠ k') :
    IMap.get k' (IMap.insert k v m) = IMap.get k' m := by
  induction m with
  | nil => simp [IMap.insert, IMap.get, hne]
  | cons a m ih =>
    obtain ⟨k2, v2⟩ := a
    by_cases h : k2 = k
    · subst h; simp [IMap.insert, IMap.get, hne]
    · simp [IMap.insert, IMap.get, h, ih]

/-- The keys of a map are distinct. -/
def Uniq {κ ν : Type} (m : IMap κ ν) : Prop := (m.map (·.1)).Nodup

theorem keys_insert {κ ν : Type} [DecidableEq κ] (k : κ) (v : ν) (m : IMap κ ν) :
    (IMap.insert k v m).map (·.1) = if k ∈ m.map (·.1) then m.map (·.1) else m.map (·.1) ++ [k] := by
  induction m with
  | nil => simp [IMap.insert]
  | cons a m ih =>
    obtain ⟨k', v'⟩ := a
    by_cases h : k' = k
    · simp [IMap.insert, h]
    · have h' : ¬ k = k' := fun e => h e.symm
      simp only [IMap.insert, h, if_false, List.map_cons, ih, List.mem_cons, h', false_or]
      by_cases h2 : k ∈ m.map (·.1) <;> simp [h2]

theorem uniq_insert {κ ν : Type} [DecidableEq κ] (k : κ) (v : ν) (m : IMap κ ν) (hm : Uniq m) :
    Uniq (IMap.insert k v m) := by
  unfold Uniq at *
  rw [keys_insert]
  by_cases h : k ∈ m.map (·.1)
  · simpa [h] using hm
  · simp only [h, if_false]
    rw [List.nodup_append]
    refine ⟨hm, by simp, ?_⟩
    intro a ha b hb
    simp only [List.mem_singleton] at hb
    subst hb
    exact fun e => h (e ▸ ha)

theorem uniq_extend {κ ν : Type} [DecidableEq κ] (l : List (κ × ν)) (m : IMap κ ν) (hm : Uniq m) :
    Uniq (m.extend l) := by
  induction l generalizing m with
  | nil => exact hm
  | cons a l ih => exact ih _ (uniq_insert _ _ _ hm)

theorem lastOf_none {ν : Type} (k : Nat) (m : IMap Nat ν) (h : k ∉ m.map (·.1)) : lastOf k m = none := by
  induction m with
  | nil => rfl
  | cons a m ih =>
    obtain ⟨k', v'⟩ := a
    simp only [List.map_cons, List.mem_cons, not_or] at h
    have hne : ¬ k' = k := fun e => h.1 e.symm
    simp [lastOf, ih h.2, hne]

theorem lastOf_get {ν : Type} (k : Nat) (m : IMap Nat ν) (hm : Uniq m) : lastOf k m = IMap.get k m := by
  induction m with
  | nil => rfl
  | cons a m ih =>
    obtain ⟨k', v'⟩ := a
    unfold Uniq at hm ih
    simp only [List.map_cons, List.nodup_cons] at hm
    simp only [lastOf, IMap.get, ih hm.2]
    by_cases h : k' = k
    · subst h
      rw [← ih hm.2, lastOf_none _ _ hm.1]
    · simp only [h, if_false]
      cases IMap.get k m <;> rfl

theorem get_extend (l : List (Nat × List Int)) (m : IMap Nat (List Int)) (k : Nat) :
    IMap.get k (m.extend l) = (lastOf k l).or (IMap.get k m) := by
  induction l generalizing m with
  | nil => rfl
  | cons a l ih =>
    obtain ⟨k', v'⟩ := a
    show IMap.get k ((IMap.insert k' v' m).extend l) = _
    rw [ih]
    by_cases h : k' = k
    · subst h
      rw [get_insert_self]
      simp only [lastOf]
      cases lastOf k' l <;> simp
    · rw [get_insert_ne _ _ h]
      simp only [lastOf, h, if_false]
      cases lastOf k l <;> simp

/-- The keys of a body and of its blocks are distinct. -/
def WfBody (b : Body) : Prop := Uniq b ∧ ∀ x ∈ b, Uniq x.2

/-- What a body gives, looked up as in maps. -/
def look (t nm : Nat) (b : Body) : Option (List Int) := (IMap.get t b).bind (IMap.get nm)

theorem inBody_none (t nm : Nat) (b : Body) (h : t ∉ b.map (·.1)) : inBody t nm b = none := by
  induction b with
  | nil => rfl
  | cons a m ih =>
    obtain ⟨k', v'⟩ := a
    simp only [List.map_cons, List.mem_cons, not_or] at h
    have hne : ¬ k' = t := fun e => h.1 e.symm
    simp [inBody, ih h.2, hne]

theorem inBody_look (t nm : Nat) (b : Body) (hb : WfBody b) : inBody t nm b = look t nm b := by
  induction b with
  | nil => rfl
  | cons a m ih =>
    obtain ⟨k', v'⟩ := a
    obtain ⟨h1, h2⟩ := hb
    unfold Uniq at h1
    simp only [List.map_cons, List.nodup_cons] at h1
    have ih' := ih ⟨h1.2, fun x hx => h2 x (List.mem_cons_of_mem _ hx)⟩
    simp only [inBody, look, IMap.get]
    by_cases h : k' = t
    · subst h
      rw [inBody_none _ _ _ h1.1]
      simp only [if_true, Option.bind_some]
      exact lastOf_get _ _ (h2 _ List.mem_cons_self)
    · simp only [h, if_false]
      rw [ih']
      show _ = look t nm m
      cases look t nm m <;> rfl

theorem wf_insert (t : Nat) (ds : IMap Nat (List Int)) (m : Body) (hm : WfBody m) (hd : Uniq ds) :
    WfBody (IMap.insert t ds m) := by
  refine ⟨uniq_insert _ _ _ hm.1, ?_⟩
  have h2 := hm.2
  clear hm
  induction m with
  | nil =>
    intro x hx
    simp only [IMap.insert, List.mem_singleton] at hx
    subst hx; exact hd
  | cons a m ih =>
    obtain ⟨k', v'⟩ := a
    intro x hx
    by_cases h : k' = t
    · simp only [IMap.insert, h, if_true, List.mem_cons] at hx
      rcases hx with rfl | hx
      · exact hd
      · exact h2 x (List.mem_cons_of_mem _ hx)
    · simp only [IMap.insert, h, if_false, List.mem_cons] at hx
      rcases hx with rfl | hx
      · exact h2 _ List.mem_cons_self
      · exact ih (fun y hy => h2 y (List.mem_cons_of_mem _ hy)) x hx

theorem get_mem {κ ν : Type} [DecidableEq κ] (k : κ) (m : IMap κ ν) (v : ν) (h : IMap.get k m = some v) : (k, v) ∈ m := by
  induction m with
  | nil => simp [IMap.get] at h
  | cons a m ih =>
    obtain ⟨k', v'⟩ := a
    by_cases hk : k' = k
    · simp only [IMap.get, hk, if_true, Option.some.injEq] at h
      subst h hk; exact List.mem_cons_self
    · simp only [IMap.get, hk, if_false] at h
      exact List.mem_cons_of_mem _ (ih h)

theorem merge_wf_look (b a : Body) (ha : WfBody a) (hb : ∀ x ∈ b, Uniq x.2) (t nm : Nat) :
    WfBody (a.merge b) ∧ look t nm (a.merge b) = (inBody t nm b).or (look t nm a) := by
  induction b generalizing a with
  | nil => exact ⟨ha, rfl⟩
  | cons x b ih =>
    obtain ⟨t', ds⟩ := x
    have hb' : ∀ x ∈ b, Uniq x.2 := fun y hy => hb y (List.mem_cons_of_mem _ hy)
    have hds : Uniq ds := hb (t', ds) List.mem_cons_self
    cases hg : IMap.get t' a with
    | some ds0 =>
      have e : Body.merge a ((t', ds) :: b) = Body.merge (IMap.insert t' (ds0.extend ds) a) b := by
        simp [Body.merge, hg]
      have hw : WfBody (IMap.insert t' (ds0.extend ds) a) :=
        wf_insert _ _ _ ha (uniq_extend _ _ (ha.2 _ (get_mem _ _ _ hg)))
      rw [e]
      obtain ⟨h1, h2⟩ := ih _ hw hb'
      refine ⟨h1, ?_⟩
      rw [h2]
      simp only [inBody]
      by_cases h : t' = t
      · subst h
        have : look t' nm (IMap.insert t' (ds0.extend ds) a) = (lastOf nm ds).or (look t' nm a) := by
          simp only [look, get_insert_self, Option.bind_some, get_extend, hg]
        rw [this]
        cases inBody t' nm b <;> simp
      · have : look t nm (IMap.insert t' (ds0.extend ds) a) = look t nm a := by
          simp only [look, get_insert_ne _ _ h]
        rw [this]
        simp only [h, if_false]
        cases inBody t nm b <;> simp
    | none =>
      have e : Body.merge a ((t', ds) :: b) = Body.merge (IMap.insert t' ds a) b := by
        simp [Body.merge, hg]
      have hw : WfBody (IMap.insert t' ds a) := wf_insert _ _ _ ha hds
      rw [e]
      obtain ⟨h1, h2⟩ := ih _ hw hb'
      refine ⟨h1, ?_⟩
      rw [h2]
      simp only [inBody]
      by_cases h : t' = t
      · subst h
        have : look t' nm (IMap.insert t' ds a) = (lastOf nm ds).or (look t' nm a) := by
          simp only [look, get_insert_self, Option.bind_some, hg, Option.bind_none, lastOf_get nm ds hds]
          cases IMap.get nm ds <;> rfl
        rw [this]
        cases inBody t' nm b <;> simp
      · have : look t nm (IMap.insert t' ds a) = look t nm a := by
          simp only [look, get_insert_ne _ _ h]
        rw [this]
        simp only [h, if_false]
        cases inBody t nm b <;> simp

/-! ### The list of rules -/

/-- Style rules, ignored and other rules: they define no names. -/
def plain : Rule D S → Bool
  | .item _ => false
  | .group _ _ => false
  | _ => true

/-- What the branch for style rules does to the list. -/
inductive Shuf : List (Rule D S) → List (Rule D S) → Prop where
  | refl (a : List (Rule D S)) : Shuf a a
  | push {a b : List (Rule D S)} {r : Rule D S} : Shuf a b → plain r = true → Shuf a (b ++ [r])
  | pop {a b : List (Rule D S)} {r : Rule D S} : Shuf a (b ++ [r]) → plain r = true → Shuf a b
  | set {a b c : List (Rule D S)} {r r' : Rule D S} : Shuf a (b ++ r :: c) → plain r = true → plain r' = true → Shuf a (b ++ r' :: c)

theorem Shuf.trans {a b c : List (Rule D S)} (h1 : Shuf a b) (h2 : Shuf b c) : Shuf a c := by
  induction h2 with
  | refl => exact h1
  | push _ p ih => exact .push ih p
  | pop _ p ih => exact .pop ih p
  | set _ p q ih => exact .set ih p q

theorem Shuf.pushes {a b : List (Rule D S)} (h : Shuf a b) (l : List (Rule D S)) (hl : ∀ r ∈ l, plain r = true) : Shuf a (b ++ l) := by
  induction l generalizing b with
  | nil => simpa using h
  | cons r l ih =>
    have := ih (Shuf.push h (hl r List.mem_cons_self)) (fun x hx => hl x (List.mem_cons_of_mem _ hx))
    simpa using this

theorem shuf_mergeUp (c : Ctx S) (a : List (Rule D S)) (r : List (Rule D S)) (l : S)
    (h : Shuf a ((Rule.style l :: r).reverse)) : Shuf a ((mergeUp c l r).reverse) := by
  induction r generalizing l with
  | nil => exact h
  | cons x r ih =>
    cases x with
    | style p =>
      unfold mergeUp
      cases hm : c.merge l p with
      | none => exact h
      | some p' =>
        apply ih
        simp only [List.reverse_cons, List.append_assoc] at h ⊢
        have h1 : Shuf a (r.reverse ++ [Rule.style p]) := by
          refine Shuf.pop (r := .style l) ?_ rfl
          simpa using h
        have := Shuf.set (b := r.reverse) (c := []) (r' := .style p') h1 rfl rfl
        simpa using this
    | item i => exact h
    | group g i => exact h
    | ignored => exact h
    | other => exact h

theorem shuf_set (a rs : List (Rule D S)) (i : Nat) (r r' : Rule D S) (h : Shuf a rs) (hi : rs[i]? = some r) (p : plain r = true)
    (p' : plain r' = true) : Shuf a (rs.set i r') := by
  have hlt : i < rs.length := by
    rcases Nat.lt_or_ge i rs.length with hl | hl
    · exact hl
    · rw [List.getElem?_eq_none hl] at hi; cases hi
  have e : rs = rs.take i ++ r :: rs.drop (i + 1) := by
    have h2 : rs[i] = r := by
      rw [List.getElem?_eq_getElem hlt] at hi; exact Option.some.inj hi
    rw [← h2, List.getElem_cons_drop, List.take_append_drop]
  rw [List.set_eq_take_append_cons_drop, if_pos hlt]
  exact Shuf.set (r := r) (e ▸ h) p p'

theorem shuf_push (c : Ctx S) (s : S) (rs : List (Rule D S)) : Shuf rs (push c s rs) := by
  unfold push
  by_cases he : c.empty s = true
  · simp only [he, if_true]; exact .refl _
  · simp only [he]
    have h1 : Shuf rs (rs ++ [Rule.style s]) := .push (.refl _) rfl
    show Shuf rs (dedup c (rs ++ [Rule.style s]))
    unfold dedup
    cases hd : c.dup (rs ++ [Rule.style s]) with
    | none => exact h1
    | some i =>
      dsimp only
      split
      · rename_i x hr
        exact shuf_set _ _ _ _ _ h1 hr rfl rfl
      · exact h1

theorem shuf_style (c : Ctx S) (s : S) (rs : List (Rule D S)) : Shuf rs (styleStep c s rs) := by
  unfold styleStep
  by_cases hd : c.drop s = true
  · simp only [hd, if_true]; exact .refl _
  · simp only [hd]
    apply Shuf.pushes
    · split
      · rename_i l r hrev
        cases hm : c.merge s l with
        | none => exact shuf_push c s rs
        | some l' =>
          apply shuf_mergeUp
          have e : rs = r.reverse ++ [Rule.style l] := by
            have := congrArg List.reverse hrev
            simpa using this
          have h0 : Shuf rs (r.reverse ++ Rule.style l :: []) := by rw [← e]; exact .refl _
          have := Shuf.set (r' := .style l') h0 rfl rfl
          simpa using this
      · exact shuf_push c s rs
    · intro r hr
      simp only [List.mem_map] at hr
      obtain ⟨e, _, rfl⟩ := hr
      cases e <;> rfl

theorem active_append (env : Nat → Bool) (a b : List (Rule D S)) : active env (a ++ b) = active env a ++ active env b := by
  induction a with
  | nil => rfl
  | cons x a ih => cases x <;> simp [active, ih]

theorem active_plain (env : Nat → Bool) (r : Rule D S) (b : List (Rule D S)) (h : plain r = true) :
    active env (r :: b) = active env b := by
  cases r <;> simp_all [active, plain]

theorem Shuf.active {a b : List (Rule D S)} (env : Nat → Bool) (h : Shuf a b) : active env b = active env a := by
  induction h with
  | refl => rfl
  | push _ p ih => rw [active_append, active_plain _ _ _ p, ih]; simp [Named.active]
  | pop _ p ih => rw [active_append, active_plain _ _ _ p] at ih; simpa [Named.active] using ih
  | set _ p q ih => rw [active_append, active_plain _ _ _ p] at ih; rw [active_append, active_plain _ _ _ q, ih]

/-- Rules that are not plain keep their place, and no others come up. -/
theorem Shuf.keep {a b : List (Rule D S)} (h : Shuf a b) (i : Nat) (x : Rule D S) (hx : plain x = false) :
    a[i]? = some x ↔ b[i]? = some x := by
  induction h with
  | refl => exact Iff.rfl
  | @push b r _ p ih =>
    rw [ih]
    rcases Nat.lt_trichotomy i b.length with hl | hl | hl
    · rw [List.getElem?_append_left hl]
    · subst hl
      simp only [List.getElem?_eq_none (Nat.le_refl _), List.getElem?_concat_length]
      constructor
      · intro h; cases h
      · intro h; cases h; rw [p] at hx; cases hx
    · rw [List.getElem?_eq_none (Nat.le_of_lt hl), List.getElem?_eq_none (by simp; omega)]
  | @pop b r _ p ih =>
    rw [ih]
    rcases Nat.lt_trichotomy i b.length with hl | hl | hl
    · rw [List.getElem?_append_left hl]
    · subst hl
      simp only [List.getElem?_eq_none (Nat.le_refl _), List.getElem?_concat_length]
      constructor
      · intro h; cases h; rw [p] at hx; cases hx
      · intro h; cases h
    · rw [List.getElem?_eq_none (Nat.le_of_lt hl), List.getElem?_eq_none (by simp; omega)]
  | @set b c r r' _ p q ih =>
    rw [ih]
    rcases Nat.lt_trichotomy i b.length with hl | hl | hl
    · rw [List.getElem?_append_left hl, List.getElem?_append_left hl]
    · subst hl
      simp only [List.getElem?_append_right (Nat.le_refl _), Nat.sub_self, List.getElem?_cons_zero]
      constructor
      · intro h; cases h; rw [p] at hx; cases hx
      · intro h; cases h; rw [q] at hx; cases hx
    · rw [List.getElem?_append_right (by omega), List.getElem?_append_right (by omega)]
      obtain ⟨k, hk⟩ : ∃ k, i - b.length = k + 1 := ⟨i - b.length - 1, by omega⟩
      rw [hk]; simp

theorem split_at {α : Type} (rs : List α) (i : Nat) (r : α) (hi : rs[i]? = some r) (r' : α) :
    rs = rs.take i ++ r :: rs.drop (i + 1) ∧ rs.set i r' = rs.take i ++ r' :: rs.drop (i + 1) := by
  have hlt : i < rs.length := by
    rcases Nat.lt_or_ge i rs.length with hl | hl
    · exact hl
    · rw [List.getElem?_eq_none hl] at hi; cases hi
  constructor
  · have h2 : rs[i] = r := by
      rw [List.getElem?_eq_getElem hlt] at hi; exact Option.some.inj hi
    rw [← h2, List.getElem_cons_drop, List.take_append_drop]
  · rw [List.set_eq_take_append_cons_drop, if_pos hlt]

end Verif.Named
