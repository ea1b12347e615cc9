import Verif.Declarations.Lemmas
namespace Verif.Declarations
open Verif.Targets
variable {V : Type}

theorem putFields_vals (a : Acc V) (groups : List (List Pr)) (fs : List V) (imp : Bool) (ms : List Pr) (m : Pr) :
    (a.putFields groups fs imp ms).vals m =
      if m ∈ ms then ((keyOf groups m).bind (fs[·]?)).or (a.vals m) else a.vals m := by
  induction ms generalizing a with
  | nil => simp [Acc.putFields]
  | cons x ms ih =>
    simp only [Acc.putFields]
    split
    · next v hv =>
      rw [ih]
      by_cases hx : m = x
      · subst hx
        simp [Acc.put, hv]
      · simp [hx, Acc.put]
    · next hv =>
      rw [ih]
      by_cases hx : m = x
      · subst hx
        simp [hv]
      · simp [hx]

theorem putFields_counts (a : Acc V) (groups : List (List Pr)) (fs : List V) (imp : Bool) (ms : List Pr) :
    ∃ n, (a.putFields groups fs imp ms).count = a.count + n ∧
      (a.putFields groups fs imp ms).imps = a.imps + (if imp then n else 0) ∧
      ((∃ m ∈ ms, (keyOf groups m).bind (fs[·]?) ≠ none) → 0 < n) := by
  induction ms generalizing a with
  | nil => exact ⟨0, by simp [Acc.putFields]⟩
  | cons x ms ih =>
    simp only [Acc.putFields]
    split
    · next v hv =>
      obtain ⟨n, h1, h2, _⟩ := ih (a.put x v imp)
      refine ⟨n + 1, ?_, ?_, fun _ => by omega⟩
      · rw [h1]; simp [Acc.put]; omega
      · rw [h2]; cases imp <;> simp [Acc.put]; omega
    · next hv =>
      obtain ⟨n, h1, h2, h3⟩ := ih a
      refine ⟨n, h1, h2, ?_⟩
      rintro ⟨m, hm, hne⟩
      rw [List.mem_cons] at hm
      rcases hm with rfl | hm
      · exact absurd hv hne
      · exact h3 ⟨m, hm, hne⟩

/-- The value of a longhand declaration. -/
def Decl.value? : Decl V → Option V
  | .long _ v => some v
  | _ => none

theorem putLonghands_vals (a : Acc V) (vp : PrefixSet) (d : Decl V) (imp : Bool) (ms : List Pr) (m : Pr) :
    (a.putLonghands vp d imp ms).vals m =
      if m ∈ ms then ((d.longhand (memberId vp m)).bind Decl.value?).or (a.vals m) else a.vals m := by
  induction ms generalizing a with
  | nil => simp [Acc.putLonghands]
  | cons x ms ih =>
    simp only [Acc.putLonghands]
    split
    · next i v hv =>
      rw [ih]
      by_cases hx : m = x
      · subst hx
        simp [Acc.put, hv, Decl.value?]
      · simp [hx, Acc.put]
    · next hv =>
      rw [ih]
      by_cases hx : m = x
      · subst hx
        have : (d.longhand (memberId vp m)).bind Decl.value? = none := by
          cases hl : d.longhand (memberId vp m) with
          | none => rfl
          | some e =>
            cases e with
            | long i v => exact absurd hl (hv i v)
            | _ => rfl
        simp [this]
      · simp [hx]

theorem putLonghands_counts (a : Acc V) (vp : PrefixSet) (d : Decl V) (imp : Bool) (ms : List Pr) :
    ∃ n, (a.putLonghands vp d imp ms).count = a.count + n ∧
      (a.putLonghands vp d imp ms).imps = a.imps + (if imp then n else 0) ∧
      ((∃ m ∈ ms, (d.longhand (memberId vp m)).bind Decl.value? ≠ none) → 0 < n) := by
  induction ms generalizing a with
  | nil => exact ⟨0, by simp [Acc.putLonghands]⟩
  | cons x ms ih =>
    simp only [Acc.putLonghands]
    split
    · next i v hv =>
      obtain ⟨n, h1, h2, _⟩ := ih (a.put x v imp)
      refine ⟨n + 1, ?_, ?_, fun _ => by omega⟩
      · rw [h1]; simp [Acc.put]; omega
      · rw [h2]; cases imp <;> simp [Acc.put]; omega
    · next hv =>
      obtain ⟨n, h1, h2, h3⟩ := ih a
      refine ⟨n, h1, h2, ?_⟩
      rintro ⟨m, hm, hne⟩
      rw [List.mem_cons] at hm
      rcases hm with rfl | hm
      · exfalso
        apply hne
        cases hl : d.longhand (memberId vp m) with
        | none => rfl
        | some e =>
          cases e with
          | long i v => exact absurd hl (hv i v)
          | _ => rfl
      · exact h3 ⟨m, hm, hne⟩

theorem groupValues_get [DecidableEq V] (vals : Pr → Option V) (groups : List (List Pr)) (fs : List V)
    (h : groupValues vals groups = some fs) (k : Nat) (g : List Pr) (hg : groups[k]? = some g) (m : Pr) (hm : m ∈ g) :
    ∃ v, fs[k]? = some v ∧ vals m = some v := by
  induction groups generalizing fs k with
  | nil => simp at hg
  | cons g0 gs ih =>
    simp only [groupValues] at h
    split at h
    · next v vs hv hvs =>
      injection h with h
      subst h
      cases k with
      | zero =>
        simp at hg
        subst hg
        refine ⟨v, rfl, ?_⟩
        cases g0 with
        | nil => simp at hm
        | cons x xs =>
          simp only [groupValue] at hv
          split at hv
          · next ha =>
            rw [List.mem_cons] at hm
            rcases hm with rfl | hm
            · exact hv
            · rw [List.all_eq_true] at ha
              have := ha m hm
              simp at this
              rw [this, hv]
          · simp at hv
      | succ k =>
        simp at hg
        obtain ⟨w, h1, h2⟩ := ih vs hvs k hg
        exact ⟨w, by simpa using h1, h2⟩
    · simp at h

theorem groupValues_mk [DecidableEq V] (vals : Pr → Option V) (groups : List (List Pr)) (fs : List V)
    (hl : fs.length = groups.length) (hne : ∀ g ∈ groups, g ≠ [])
    (h : ∀ (k : Nat) g, groups[k]? = some g → ∀ m ∈ g, vals m = fs[k]?) : groupValues vals groups = some fs := by
  induction groups generalizing fs with
  | nil =>
    cases fs with
    | nil => rfl
    | cons => simp at hl
  | cons g gs ih =>
    cases fs with
    | nil => simp at hl
    | cons v vs =>
      have h0 := h 0 g rfl
      have hs := ih vs (by simpa using hl) (fun g hg => hne g (by simp [hg])) (fun k g' hk m hm => by
        have := h (k + 1) g' (by simpa using hk) m hm
        simpa using this)
      have hg : groupValue vals g = some v := by
        cases g with
        | nil => exact absurd rfl (hne [] (by simp))
        | cons x xs =>
          have hx := h0 x (by simp)
          simp at hx
          simp only [groupValue]
          rw [if_pos, hx]
          rw [List.all_eq_true]
          intro y hy
          have hy' := h0 y (by simp [hy])
          simp at hy'
          simp [hx, hy']
      simp [groupValues, hg, hs]

/-- One step of the loop, seen from a member: the new value is the one the declaration provides, if it provides one. -/
theorem fromStep_vals (len : V → Nat) (p : Pr) (info : ShInfo) (vp : PrefixSet) (a a' : Acc V) (d : Decl V × Bool)
    (hp : p.sh = some info) (hd : d.1.WF) (hu : ∀ m ∈ info.groups.flatten, m.hasVp = p.hasVp)
    (hun : ∀ m ∈ info.groups.flatten, ∀ v, d.1 ≠ .unparsed (memberId vp m) v)
    (hvp : p.hasVp = false → vp = Prefix.none.set)
    (h : fromStep len p info vp a d = some a') :
    (∀ m ∈ info.groups.flatten, a'.vals m = ((d.1.provides (memberId vp m)).bind Decl.value?).or (a.vals m)) ∧
    ∃ n, a'.count = a.count + n ∧ a'.imps = a.imps + (if d.2 then n else 0) ∧
      ((∃ m ∈ info.groups.flatten, (d.1.provides (memberId vp m)).bind Decl.value? ≠ none) → 0 < n) := by
  obtain ⟨d, imp⟩ := d
  simp only at hd hun ⊢
  -- the state before the check of the lengths
  suffices hmain : ∀ b : Acc V, (match kindOf p info d with
      | .member m v => if m.hasVp ∧ d.id.vp ≠ some vp then none else some (a.put m v imp)
      | .self fs =>
        if p.hasVp ∧ d.id.vp ≠ some vp then none
        else
          let a' := a.putFields info.groups fs imp info.groups.flatten
          some (if info.isList then { a' with count := a.count + 1, imps := if imp then a.imps + 1 else a.imps } else a')
      | .other => some (a.putLonghands vp d imp info.groups.flatten)) = some b →
      (∀ m ∈ info.groups.flatten, b.vals m = ((d.provides (memberId vp m)).bind Decl.value?).or (a.vals m)) ∧
      ∃ n, b.count = a.count + n ∧ b.imps = a.imps + (if imp then n else 0) ∧
        ((∃ m ∈ info.groups.flatten, (d.provides (memberId vp m)).bind Decl.value? ≠ none) → 0 < n) by
    have fin : ∀ (b : Acc V) (n : Nat), (if info.isList = true then
        match b.length with
        | none => some { b with length := some n }
        | some l => if l ≠ n then none else some b
      else some b) = some a' → a'.vals = b.vals ∧ a'.count = b.count ∧ a'.imps = b.imps := by
      intro b n hb
      split at hb
      · split at hb
        · injection hb with hb; subst hb; exact ⟨rfl, rfl, rfl⟩
        · split at hb
          · simp at hb
          · injection hb with hb; subst hb; exact ⟨rfl, rfl, rfl⟩
      · injection hb with hb; subst hb; exact ⟨rfl, rfl, rfl⟩
    have conc : ∀ b : Acc V, a'.vals = b.vals ∧ a'.count = b.count ∧ a'.imps = b.imps →
      ((∀ m ∈ info.groups.flatten, b.vals m = ((d.provides (memberId vp m)).bind Decl.value?).or (a.vals m)) ∧
      ∃ n, b.count = a.count + n ∧ b.imps = a.imps + (if imp then n else 0) ∧
        ((∃ m ∈ info.groups.flatten, (d.provides (memberId vp m)).bind Decl.value? ≠ none) → 0 < n)) →
      ((∀ m ∈ info.groups.flatten, a'.vals m = ((d.provides (memberId vp m)).bind Decl.value?).or (a.vals m)) ∧
      ∃ n, a'.count = a.count + n ∧ a'.imps = a.imps + (if imp then n else 0) ∧
        ((∃ m ∈ info.groups.flatten, (d.provides (memberId vp m)).bind Decl.value? ≠ none) → 0 < n)) := by
      rintro b ⟨e1, e2, e3⟩ h
      rw [e1, e2, e3]
      exact h
    unfold fromStep at h
    simp only at h
    cases hk : kindOf p info d with
    | member m v =>
      rw [hk] at h hmain
      simp only at h hmain
      split at h
      · simp at h
      · next b n hb =>
        split at hb
        · simp at hb
        · next hc =>
          injection hb with hb
          injection hb with hb1 hb2
          exact conc _ (fin b n h) (hmain b (by rw [if_neg hc, hb1]))
    | self fs =>
      rw [hk] at h hmain
      simp only at h hmain
      split at h
      · simp at h
      · next b n hb =>
        split at hb
        · simp at hb
        · next hc =>
          injection hb with hb
          injection hb with hb1 hb2
          exact conc _ (fin b n h) (hmain b (by rw [if_neg hc, hb1]))
    | other =>
      rw [hk] at h hmain
      simp only at h hmain
      exact conc _ (fin _ _ h) (hmain _ rfl)
  intro b hb
  have hother : (Acc.putLonghands a vp d imp info.groups.flatten = b) →
      (∀ m ∈ info.groups.flatten, (d.provides (memberId vp m)).bind Decl.value? = (d.longhand (memberId vp m)).bind Decl.value?) →
      (∀ m ∈ info.groups.flatten, b.vals m = ((d.provides (memberId vp m)).bind Decl.value?).or (a.vals m)) ∧
      ∃ n, b.count = a.count + n ∧ b.imps = a.imps + (if imp then n else 0) ∧
        ((∃ m ∈ info.groups.flatten, (d.provides (memberId vp m)).bind Decl.value? ≠ none) → 0 < n) := by
    intro hb he
    subst hb
    refine ⟨fun m hm => ?_, ?_⟩
    · rw [putLonghands_vals, if_pos hm, he m hm]
    · obtain ⟨n, h1, h2, h3⟩ := putLonghands_counts a vp d imp info.groups.flatten
      refine ⟨n, h1, h2, ?_⟩
      rintro ⟨m, hm, hne⟩
      exact h3 ⟨m, hm, by rw [← he m hm]; exact hne⟩
  cases d with
  | unparsed i v =>
    simp only [kindOf] at hb
    injection hb with hb
    refine hother hb fun m hm => ?_
    unfold Decl.provides
    rw [if_neg]
    intro he
    exact hun m hm v (by rw [← he]; rfl)
  | long i v =>
    obtain ⟨nm, ivp⟩ := i
    have hprov : ∀ m, (Decl.long ⟨nm, ivp⟩ v : Decl V).provides (memberId vp m) =
        if (⟨nm, ivp⟩ : Id) = memberId vp m then some (.long ⟨nm, ivp⟩ v) else none := by
      intro m
      rfl
    have hnon : (∀ m ∈ info.groups.flatten, nm ≠ .pr m) →
      (∀ m ∈ info.groups.flatten, (Decl.provides (.long ⟨nm, ivp⟩ v : Decl V) (memberId vp m)).bind Decl.value? =
        (Decl.longhand (.long ⟨nm, ivp⟩ v : Decl V) (memberId vp m)).bind Decl.value?) := by
      intro hh m hm
      rw [hprov, if_neg]
      · simp [Decl.longhand]
      · intro he
        injection he with he1 he2
        exact hh m hm he1
    cases nm with
    | all =>
      simp only [kindOf] at hb
      injection hb with hb
      exact hother hb (hnon (by simp))
    | custom s =>
      simp only [kindOf] at hb
      injection hb with hb
      exact hother hb (hnon (by simp))
    | pr x =>
      by_cases hx : x ∈ info.groups.flatten
      · simp only [kindOf, if_pos hx] at hb
        split at hb
        · simp at hb
        · next hc =>
          injection hb with hb
          subst hb
          have hid : (⟨.pr x, ivp⟩ : Id) = memberId vp x := by
            unfold memberId
            congr 1
            have h1 := hd.1.2
            simp only [Decl.id] at hc
            simp only at h1
            cases hxv : x.hasVp with
            | false => rw [hxv] at h1; simpa using h1
            | true => 
              have : ivp = some vp := Classical.not_not.1 fun hh => hc ⟨hxv, hh⟩
              simp [this]
          refine ⟨fun m hm => ?_, 1, rfl, ?_, fun _ => by omega⟩
          · rw [hprov]
            by_cases hmx : m = x
            · subst hmx
              rw [if_pos hid]
              simp [Acc.put, Decl.value?]
            · rw [if_neg]
              · simp [Acc.put, hmx]
              · intro he
                injection he with he1 _
                injection he1 with he1
                exact hmx he1.symm
          · cases imp <;> simp [Acc.put]
      · simp only [kindOf, if_neg hx] at hb
        injection hb with hb
        refine hother hb (hnon fun m hm he => ?_)
        injection he with he
        exact hx (he ▸ hm)
  | short i fs =>
    obtain ⟨hiwf, info', hi', hlen⟩ := hd
    have hne : ∀ m ∈ info.groups.flatten, i ≠ memberId vp m := by
      intro m hm he
      have := (sh_facts p info hp).1 m hm
      rw [he] at hi'
      simp [memberId, Id.sh, this] at hi'
    have hpl : ∀ m ∈ info.groups.flatten, (Decl.provides (.short i fs : Decl V) (memberId vp m)) =
        (Decl.longhand (.short i fs : Decl V) (memberId vp m)) := by
      intro m hm
      unfold Decl.provides
      rw [if_neg]
      exact hne m hm
    obtain ⟨nm, ivp⟩ := i
    cases nm with
    | all =>
      simp only [kindOf] at hb
      injection hb with hb
      exact hother hb fun m hm => by rw [hpl m hm]
    | custom s =>
      simp only [kindOf] at hb
      injection hb with hb
      exact hother hb fun m hm => by rw [hpl m hm]
    | pr x =>
      by_cases hx : x = p
      · subst hx
        simp only [kindOf, if_true] at hb
        split at hb
        · simp at hb
        · next hc =>
          injection hb with hb
          have hivp : ivp = none ∨ ivp = some vp ∧ x.hasVp = true := by
            have h1 := hiwf.2
            simp only [Decl.id] at hc
            simp only at h1
            cases hxv : x.hasVp with
            | false => rw [hxv] at h1; left; simpa using h1
            | true => 
              right
              exact ⟨Classical.not_not.1 fun hh => hc ⟨hxv, hh⟩, rfl⟩
          have hlh : ∀ m ∈ info.groups.flatten, ((Decl.longhand (.short ⟨.pr x, ivp⟩ fs : Decl V) (memberId vp m)).bind Decl.value?)
              = (keyOf info.groups m).bind (fs[·]?) := by
            intro m hm
            rw [longhand_mk ⟨.pr x, ivp⟩ fs info (memberId vp m) m (by exact hp) rfl]
            · cases (keyOf info.groups m).bind (fs[·]?) <;> rfl
            · rcases hivp with h1 | ⟨h1, h2⟩
              · exact .inl h1
              · right
                simp [h1, memberId, Id.pre, hu m hm, h2]
          subst hb
          refine ⟨fun m hm => ?_, ?_⟩
          · rw [hpl m hm, hlh m hm]
            have := putFields_vals a info.groups fs imp info.groups.flatten m
            rw [if_pos hm] at this
            split <;> exact this
          · split
            · refine ⟨1, rfl, ?_, fun _ => by omega⟩
              cases imp <;> simp
            · obtain ⟨n, h1, h2, h3⟩ := putFields_counts a info.groups fs imp info.groups.flatten
              refine ⟨n, h1, h2, ?_⟩
              rintro ⟨m, hm, hne⟩
              rw [hpl m hm, hlh m hm] at hne
              exact h3 ⟨m, hm, hne⟩
      · simp only [kindOf, if_neg hx] at hb
        injection hb with hb
        exact hother hb fun m hm => by rw [hpl m hm]

theorem fromLoop_vals (len : V → Nat) (p : Pr) (info : ShInfo) (vp : PrefixSet) (hp : p.sh = some info)
    (hu : ∀ m ∈ info.groups.flatten, m.hasVp = p.hasVp) (hvp : p.hasVp = false → vp = Prefix.none.set)
    (ds : List (Decl V × Bool)) (a a' : Acc V) (hd : ∀ d ∈ ds, d.1.WF)
    (hun : ∀ d ∈ ds, ∀ m ∈ info.groups.flatten, ∀ v, d.1 ≠ .unparsed (memberId vp m) v)
    (hle : a.imps ≤ a.count)
    (h : fromLoop len p info vp a ds = some a') :
    (∀ m ∈ info.groups.flatten, a'.vals m =
      (ds.reverse.findSome? fun d => (d.1.provides (memberId vp m)).bind Decl.value?).or (a.vals m)) ∧
    a'.imps ≤ a'.count ∧ (a.imps < a.count → a'.imps < a'.count) ∧ (0 < a.imps → 0 < a'.imps) ∧
    (∀ d ∈ ds, ∀ m ∈ info.groups.flatten, (d.1.provides (memberId vp m)).bind Decl.value? ≠ none →
      if d.2 then 0 < a'.imps else a'.imps < a'.count) := by
  induction ds generalizing a with
  | nil =>
    simp [fromLoop] at h
    subst h
    simp [hle]
  | cons d ds ih =>
    simp only [fromLoop] at h
    split at h
    · simp at h
    · next a1 ha1 =>
      obtain ⟨h1, n, h2, h3, h4⟩ := fromStep_vals len p info vp a a1 d hp (hd d (by simp)) hu (hun d (by simp)) hvp ha1
      have hle1 : a1.imps ≤ a1.count := by
        rw [h2, h3]
        split <;> omega
      obtain ⟨k1, k2, k3, k4, k5⟩ := ih a1 (fun d hd' => hd d (by simp [hd'])) (fun d hd' => hun d (by simp [hd'])) hle1 h
      refine ⟨fun m hm => ?_, k2, ?_, ?_, ?_⟩
      · rw [k1 m hm, h1 m hm, List.reverse_cons, List.findSome?_append]
        simp [Option.or_assoc]
      · intro hlt
        apply k3
        rw [h2, h3]
        split <;> omega
      · intro hpos
        apply k4
        rw [h3]
        split <;> omega
      · intro e he m hm hne
        rw [List.mem_cons] at he
        rcases he with rfl | he
        · have hn := h4 ⟨m, hm, hne⟩
          split
          · next hi => apply k4; rw [h3, if_pos hi]; omega
          · next hi => apply k3; rw [h2, h3, if_neg hi]; omega
        · exact k5 e he m hm hne

/-! ### Setting a shorthand -/

theorem setRev_short (len : V → Nat) (q : Id) (fs : List V) (ds r : List (Decl V))
    (h : setRev len (.short q fs) ds = some r) :
    ∃ x d y, ds = x ++ d :: y ∧ r = x ++ .short q fs :: y ∧ d.id = q ∧ ∀ e ∈ x, e.id ≠ q := by
  induction ds generalizing r with
  | nil => simp [setRev] at h
  | cons d ds ih =>
    simp only [setRev] at h
    split at h
    · simp at h
    · split at h
      · next hid =>
        injection h with h
        exact ⟨[], d, ds, rfl, h.symm, hid, by simp⟩
      · next hid =>
        have hn : d.setLonghand len (.short q fs) = none := by
          cases d <;> rfl
        rw [hn] at h
        simp only at h
        rw [Option.map_eq_some_iff] at h
        obtain ⟨r', hr', rfl⟩ := h
        obtain ⟨x, d', y, h1, h2, h3, h4⟩ := ih r' hr'
        refine ⟨d :: x, d', y, by rw [h1]; rfl, by rw [h2]; rfl, h3, ?_⟩
        intro e he
        rw [List.mem_cons] at he
        rcases he with rfl | he
        · exact hid
        · exact h4 e he

theorem setList_short (len : V → Nat) (q : Id) (fs : List V) (ds : List (Decl V)) :
    ∃ x y, setList len (.short q fs) ds = x ++ .short q fs :: y ∧ (∀ e ∈ x, e ∈ ds) ∧ ∀ e ∈ y, e ∈ ds ∧ e.id ≠ q := by
  unfold setList
  split
  · next r hr =>
    obtain ⟨x, d, y, h1, h2, h3, h4⟩ := setRev_short len q fs ds.reverse r hr
    have hds : ds = y.reverse ++ d :: x.reverse := by
      have := congrArg List.reverse h1
      simpa using this
    refine ⟨y.reverse, x.reverse, by rw [h2]; simp, ?_, ?_⟩
    · intro e he
      rw [hds]
      simp at he ⊢
      exact .inl he
    · intro e he
      simp at he
      refine ⟨?_, h4 e he⟩
      rw [hds]
      simp
      exact .inr (.inr he)
  · exact ⟨ds, [], rfl, fun e he => he, by simp⟩

/-- A declaration that has nothing to do with a shorthand and its longhands. -/
def Unrelated (p : Pr) (info : ShInfo) (i : Id) : Prop :=
  i.name ≠ .pr p ∧ ∀ m ∈ info.groups.flatten, ∀ vp, i.name ≠ .pr m ∧ ¬ i.covers ⟨.pr m, vp⟩

theorem unrelated_step (len : V → Nat) (p : Pr) (info : ShInfo) (vp : PrefixSet) (hl : info.isList = false) (a : Acc V)
    (d : Decl V × Bool) (h : Unrelated p info d.1.id) : fromStep len p info vp a d = some a := by
  obtain ⟨d, imp⟩ := d
  have hk : kindOf p info d = .other := by
    cases d with
    | unparsed i v => simp [kindOf]
    | long i v =>
      obtain ⟨nm, ivp⟩ := i
      cases nm with
      | pr x =>
        simp only [kindOf]
        rw [if_neg]
        intro hx
        exact (h.2 x hx none).1 rfl
      | _ => simp [kindOf]
    | short i fs =>
      obtain ⟨nm, ivp⟩ := i
      cases nm with
      | pr x =>
        simp only [kindOf]
        rw [if_neg]
        intro hx
        exact h.1 (by subst hx; rfl)
      | _ => simp [kindOf]
  have hlong : ∀ m ∈ info.groups.flatten, d.longhand (memberId vp m) = none := by
    intro m hm
    cases hd : d.longhand (memberId vp m) with
    | none => rfl
    | some e => exact absurd (longhand_covers d e _ hd) (h.2 m hm _).2
  have hput : ∀ ms : List Pr, (∀ m ∈ ms, d.longhand (memberId vp m) = none) → a.putLonghands vp d imp ms = a := by
    intro ms
    induction ms with
    | nil => intro _; rfl
    | cons m ms ih =>
      intro hm
      simp only [Acc.putLonghands, hm m (by simp)]
      exact ih fun m' hm' => hm m' (by simp [hm'])
  unfold fromStep
  simp only [hk, hl, hput _ hlong]
  rfl

theorem unrelated_loop (len : V → Nat) (p : Pr) (info : ShInfo) (vp : PrefixSet) (hl : info.isList = false) (a : Acc V)
    (ds : List (Decl V × Bool)) (h : ∀ d ∈ ds, Unrelated p info d.1.id) : fromLoop len p info vp a ds = some a := by
  induction ds with
  | nil => rfl
  | cons d ds ih =>
    simp only [fromLoop, unrelated_step len p info vp hl a d (h d (by simp))]
    exact ih fun d hd => h d (by simp [hd])

theorem fromLoop_append (len : V → Nat) (p : Pr) (info : ShInfo) (vp : PrefixSet) (a : Acc V) (xs ys : List (Decl V × Bool)) :
    fromLoop len p info vp a (xs ++ ys) = (fromLoop len p info vp a xs).bind fun a => fromLoop len p info vp a ys := by
  induction xs generalizing a with
  | nil => rfl
  | cons d xs ih =>
    simp only [List.cons_append, fromLoop]
    cases fromStep len p info vp a d with
    | none => rfl
    | some a' => simp [ih]

/-- The flags of a shorthand that is as important as `imp`. -/
def FlagsOk (imp : Bool) (a : Acc V) : Prop := if imp then a.imps = a.count else a.imps = 0

theorem self_step (len : V → Nat) (p : Pr) (info : ShInfo) (hl : info.isList = false) (q : Id)
    (hq : q.WF) (hqn : q.name = .pr p) (a : Acc V) (imp : Bool) (hf : FlagsOk imp a) (fs : List V) :
    ∃ a', fromStep len p info q.shPrefix a (.short q fs, imp) = some a' ∧ FlagsOk imp a' ∧
      (∀ m ∈ info.groups.flatten, a'.vals m = ((keyOf info.groups m).bind (fs[·]?)).or (a.vals m)) ∧
      ((∃ m ∈ info.groups.flatten, (keyOf info.groups m).bind (fs[·]?) ≠ none) → imp = true → 0 < a'.imps) := by
  obtain ⟨nm, ivp⟩ := q
  simp only at hqn
  subst hqn
  have hk : kindOf p info (Decl.short ⟨.pr p, ivp⟩ fs) = .self fs := by simp [kindOf]
  obtain ⟨n, h1, h2, h3⟩ := putFields_counts a info.groups fs imp info.groups.flatten
  refine ⟨a.putFields info.groups fs imp info.groups.flatten, ?_, ?_, ?_, ?_⟩
  · unfold fromStep
    simp only [hk, hl]
    have hc : ¬ (p.hasVp = true ∧ (Decl.short ⟨.pr p, ivp⟩ fs : Decl V).id.vp ≠ some (Id.shPrefix ⟨.pr p, ivp⟩)) := by
      rintro ⟨hv, hne⟩
      have h1 := hq.2
      simp only at h1
      rw [hv] at h1
      rw [Option.isSome_iff_exists] at h1
      obtain ⟨s, rfl⟩ := h1
      exact hne rfl
    rw [if_neg hc]
    rfl
  · unfold FlagsOk at hf ⊢
    rw [h1, h2]
    cases imp
    · simpa using hf
    · simpa using hf
  · intro m hm
    rw [putFields_vals, if_pos hm]
  · intro hm hi
    rw [h2, hi, if_pos rfl]
    have := h3 hm
    omega

theorem pre_loop (len : V → Nat) (p : Pr) (info : ShInfo) (hp : p.sh = some info) (hl : info.isList = false) (q : Id)
    (hq : q.WF) (hqn : q.name = .pr p) (imp : Bool) (ds : List (Decl V × Bool)) (a : Acc V) (hf : FlagsOk imp a)
    (hwf : ∀ d ∈ ds, d.1.WF)
    (h : ∀ d ∈ ds, Unrelated p info d.1.id ∨ (d.1.id = q ∧ d.2 = imp)) :
    ∃ a', fromLoop len p info q.shPrefix a ds = some a' ∧ FlagsOk imp a' := by
  induction ds generalizing a with
  | nil => exact ⟨a, rfl, hf⟩
  | cons d ds ih =>
    have step : ∃ a1, fromStep len p info q.shPrefix a d = some a1 ∧ FlagsOk imp a1 := by
      rcases h d (by simp) with hu | ⟨h1, h2⟩
      · exact ⟨a, unrelated_step len p info _ hl a d hu, hf⟩
      · obtain ⟨d, i⟩ := d
        simp only at h1 h2
        subst h2
        cases d with
        | long j v =>
          have := hwf (.long j v, i) (by simp)
          simp only [Decl.id] at h1
          subst h1
          have h3 := this.2
          simp [Id.sh, hqn, hp] at h3
        | short j fs =>
          simp only [Decl.id] at h1
          subst h1
          obtain ⟨a1, h3, h4, _⟩ := self_step len p info hl j hq hqn a i hf fs
          exact ⟨a1, h3, h4⟩
        | unparsed j v =>
          refine ⟨a, ?_, hf⟩
          have hput : ∀ ms : List Pr, a.putLonghands q.shPrefix (.unparsed j v) i ms = a := by
            intro ms
            induction ms with
            | nil => rfl
            | cons m ms ih => simpa [Acc.putLonghands, Decl.longhand] using ih
          unfold fromStep
          simp only [kindOf, hl, hput]
          rfl
    obtain ⟨a1, h1, h2⟩ := step
    obtain ⟨a2, h3, h4⟩ := ih a1 h2 (fun d hd => hwf d (by simp [hd])) (fun d hd => h d (by simp [hd]))
    exact ⟨a2, by simp only [fromLoop, h1, h3], h4⟩

theorem get_short [DecidableEq V] (len : V → Nat) (valid : Pr → List V → Bool) (b : Block V) (q : Id) (p : Pr) (info : ShInfo)
    (hqn : q.name = .pr p) (hp : p.sh = some info) :
    b.get len valid q = (fromLonghands len valid p info q.shPrefix b).map fun r => (.short q r.1, r.2) := by
  have hs : q.isShorthand = true := by simp [Id.isShorthand, Id.sh, hqn, hp]
  simp [Block.get, hs, Id.shorthandValue, hqn, hp]

theorem fromLonghands_last [DecidableEq V] (len : V → Nat) (valid : Pr → List V → Bool) (p : Pr) (info : ShInfo)
    (hp : p.sh = some info) (hl : info.isList = false) (q : Id) (hq : q.WF) (hqn : q.name = .pr p) (b : Block V)
    (fs : List V) (hfs : fs.length = info.groups.length) (hv : valid p fs = true) (imp : Bool) (x y : List (Decl V × Bool))
    (hb : b.iter = x ++ (.short q fs, imp) :: y) (hwf : ∀ d ∈ x, d.1.WF)
    (hx : ∀ d ∈ x, Unrelated p info d.1.id ∨ (d.1.id = q ∧ d.2 = imp)) (hy : ∀ d ∈ y, Unrelated p info d.1.id) :
    fromLonghands len valid p info q.shPrefix b = some (fs, imp) := by
  obtain ⟨_, hnd, _, hne, hne0⟩ := sh_facts p info hp
  have h0 : FlagsOk imp (Acc.init : Acc V) := by unfold FlagsOk; split <;> rfl
  obtain ⟨a1, h1, h2⟩ := pre_loop len p info hp hl q hq hqn imp x .init h0 hwf hx
  obtain ⟨a2, h3, h4, h5, h6⟩ := self_step len p info hl q hq hqn a1 imp h2 fs
  have hloop : fromLoop len p info q.shPrefix .init b.iter = some a2 := by
    rw [hb, fromLoop_append, h1]
    simp only [Option.bind_some, fromLoop, h3]
    exact unrelated_loop len p info _ hl a2 y hy
  have hkey : ∀ (k : Nat) g, info.groups[k]? = some g → ∀ m ∈ g, keyOf info.groups m = some k ∧ m ∈ info.groups.flatten :=
    fun k g hg m hm => ⟨keyOf_getElem _ hnd m k g hg hm, List.mem_flatten.2 ⟨g, List.mem_of_getElem? hg, hm⟩⟩
  have hin : ∀ (k : Nat) g, info.groups[k]? = some g → ∃ v, fs[k]? = some v := by
    intro k g hg
    have : k < fs.length := by rw [hfs]; exact (List.getElem?_eq_some_iff.1 hg).1
    exact ⟨fs[k], List.getElem?_eq_getElem this⟩
  have hgv : groupValues a2.vals info.groups = some fs := by
    apply groupValues_mk _ _ _ hfs hne
    intro k g hg m hm
    obtain ⟨h7, h8⟩ := hkey k g hg m hm
    obtain ⟨v, hv'⟩ := hin k g hg
    rw [h5 m h8, h7]
    simp [hv']
  have hpos : imp = true → 0 < a2.imps := by
    apply h6
    cases hgr : info.groups with
    | nil => exact absurd hgr hne0
    | cons g gs =>
      have hg0 : info.groups[0]? = some g := by rw [hgr]; rfl
      cases g with
      | nil => exact absurd rfl (hne [] (by rw [hgr]; simp))
      | cons m ms =>
        obtain ⟨h7, h8⟩ := hkey 0 _ hg0 m (by simp)
        obtain ⟨v, hv'⟩ := hin 0 _ hg0
        rw [hgr] at h8 h7
        exact ⟨m, h8, by rw [h7]; simp [hv']⟩
  unfold fromLonghands
  rw [hloop]
  simp only
  unfold FlagsOk at h4
  cases imp with
  | true =>
    rw [if_pos rfl] at h4
    rw [if_neg (by rintro ⟨_, hh⟩; exact hh h4), hgv]
    simp only
    rw [if_pos hv]
    simp [hpos rfl]
  | false =>
    rw [if_neg (by simp)] at h4
    rw [if_neg (by omega), hgv]
    simp only
    rw [if_pos hv]
    simp [h4]

end Verif.Declarations
