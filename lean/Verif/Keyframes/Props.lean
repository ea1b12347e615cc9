import Verif.Keyframes.Spec
import Verif.Targets.Props
import Mathlib.Tactic.ByContra
/-! Property theorems about `@keyframes`. -/
namespace Verif.Keyframes
open Verif.Targets
variable {F C O X : Type}

/-- The `@keyframes` rules with a name. -/
def HasKf (name : Str) (rs : List (Rule F C O)) : Prop := ∃ n vp f, .kf n vp f ∈ rs ∧ n.text = name

/-- The assumptions on a list of rules, for a browser: a name is not written both as an identifier and as a string, keyframes of the
same name are not defined in other rules, there are no `supports` rules yet (those of the input are `other`), and keyframes that
need `@supports` fallbacks are not redefined. -/
structure Tidy (c : Cfg F C) (b : Browser F C O X) (rs : List (Rule F C O)) : Prop where
  names : ∀ n vp f n' vp' f', .kf n vp f ∈ rs → .kf n' vp' f' ∈ rs → n.text = n'.text → n = n'
  others : ∀ o ∈ rs.filterMap (fun | .other o => some o | _ => none), ∀ name, HasKf name rs → b.other o name = none
  noSupports : ∀ cd n vp f, .supports cd n vp f ∉ rs
  redefined : ∀ xs n vp f ys, rs = xs ++ .kf n vp f :: ys → (c.fallbacks (c.minF f)).2 ≠ [] → ¬ HasKf n.text ys

theorem effective_append (b : Browser F C O X) (name : Str) (xs ys : List (Rule F C O)) :
    effective b name (xs ++ ys) = (effective b name ys).or (effective b name xs) := by
  induction xs with
  | nil => simp [effective]
  | cons r xs ih => rw [List.cons_append, effective, ih, effective, Option.or_assoc]

theorem effective_one (b : Browser F C O X) (name : Str) (r : Rule F C O) : effective b name [r] = defines b name r := by
  simp [effective]

theorem effective_none (b : Browser F C O X) (name : Str) (rs : List (Rule F C O)) (h : ∀ r ∈ rs, defines b name r = none) :
    effective b name rs = none := by
  induction rs with
  | nil => rfl
  | cons r rs ih => rw [effective, ih (fun x hx => h x (by simp [hx])), h r (by simp)]; rfl

theorem split_at {α : Type} (rs : List α) (i : Nat) (r : α) (h : rs[i]? = some r) :
    ∃ A B, rs = A ++ r :: B ∧ (∀ r', rs.set i r' = A ++ r' :: B) ∧ ∀ x ∈ B, ∃ j > i, rs[j]? = some x := by
  obtain ⟨hi, hr⟩ := List.getElem?_eq_some_iff.1 h
  refine ⟨rs.take i, rs.drop (i + 1), ?_, fun r' => ?_, fun x hx => ?_⟩
  · rw [← hr]; simp
  · exact List.set_eq_take_append_cons_drop .. |>.trans (by simp [hi])
  · obtain ⟨k, hk⟩ := List.mem_iff_getElem?.1 hx
    rw [List.getElem?_drop] at hk
    exact ⟨i + 1 + k, by omega, hk⟩

theorem reads_iff (b : Browser F C O X) (vp : PrefixSet) : b.reads vp = true ↔ ∃ p, vp.has p = true ∧ b.knows p = true := by
  simp only [Browser.reads, List.any_eq_true, Bool.and_eq_true]
  constructor
  · rintro ⟨p, -, h⟩; exact ⟨p, h⟩
  · rintro ⟨p, h⟩; exact ⟨p, by cases p <;> simp, h⟩

theorem reads_prefixes (t : Targets) (b : Browser F C O X) (hb : b.knows .none = true) (vp : PrefixSet) :
    b.reads (t.prefixes vp .atKeyframes) = b.reads vp := by
  rw [Bool.eq_iff_iff, reads_iff, reads_iff]
  obtain ⟨h1, -, h2, -⟩ := C13_targets t vp .atKeyframes
  cases hn : vp.has .none with
  | false => rw [h1 hn]
  | true => exact ⟨fun _ => ⟨.none, hn, hb⟩, fun _ => ⟨.none, h2 hn, hb⟩⟩

theorem reads_union (b : Browser F C O X) (v w : PrefixSet) : b.reads (v.union w) = (b.reads v || b.reads w) := by
  rw [Bool.eq_iff_iff, Bool.or_eq_true, reads_iff, reads_iff, reads_iff]
  have : ∀ p, (v.union w).has p = (v.has p || w.has p) := by intro p; cases p <;> rfl
  simp only [this, Bool.or_eq_true]
  constructor
  · rintro ⟨p, h | h, hk⟩
    · exact .inl ⟨p, h, hk⟩
    · exact .inr ⟨p, h, hk⟩
  · rintro (⟨p, h, hk⟩ | ⟨p, h, hk⟩)
    · exact ⟨p, .inl h, hk⟩
    · exact ⟨p, .inr h, hk⟩

/-- The invariant of the loop. -/
structure Inv (c : Cfg F C) (b : Browser F C O X) (done todo : List (Rule F C O)) (st : St F C O) : Prop where
  same : ∀ name, c.unused name = false → effective b name st.rules = effective b name done
  mem : ∀ n i, lookup n st.map = some i → ∃ vp f, .kf n vp f ∈ done
  keys : ∀ n i, lookup n st.map = some i → HasKf n.text todo →
    (∃ vp f, st.rules[i]? = some (.kf n vp f)) ∧ ∀ j > i, ∀ r, st.rules[j]? = some r → defines b n.text r = none


theorem defines_kf_iff (b : Browser F C O X) (name : Str) (n : Name) (vp : PrefixSet) (f : F) :
    defines (C := C) (O := O) b name (.kf n vp f) = none ↔ ¬ (n.text = name ∧ b.reads vp = true) := by
  unfold defines; split <;> simp_all

theorem getElem_append_cases {α : Type} (xs ys : List α) (j : Nat) (x : α) (h : (xs ++ ys)[j]? = some x) :
    xs[j]? = some x ∧ j < xs.length ∨ x ∈ ys := by
  by_cases hj : j < xs.length
  · rw [List.getElem?_append_left hj] at h; exact .inl ⟨h, hj⟩
  · rw [List.getElem?_append_right (by omega)] at h; exact .inr (List.mem_iff_getElem?.2 ⟨_, h⟩)

theorem inv_push (c : Cfg F C) (b : Browser F C O X) (hc : Laws c b) (hb : b.knows .none = true) (all done todo : List (Rule F C O))
    (n : Name) (vp : PrefixSet) (f : F) (hall : all = done ++ .kf n vp f :: todo) (ht : Tidy c b all) (st : St F C O)
    (h : Inv c b done (.kf n vp f :: todo) st) :
    Inv c b (done ++ [.kf n vp f]) todo (pushKf c st n vp (c.minF f)) := by
  simp only [pushKf]
  refine ⟨fun name hname => ?_, fun m i hi => ?_, fun m i hi hm => ?_⟩
  · rw [effective_append, effective_append, effective_one, h.same name hname]
    congr 1
    by_cases hd : n.text = name ∧ b.reads vp = true
    · rw [← hd.1, hc.fallbacks n _ _ (by rw [reads_prefixes _ _ hb]; exact hd.2), hc.min, defines, if_pos ⟨rfl, hd.2⟩]
    · rw [(defines_kf_iff b name n vp f).2 hd]
      refine effective_none _ _ _ fun r hr => ?_
      simp only [List.mem_cons, List.mem_map] at hr
      rcases hr with rfl | ⟨x, -, rfl⟩
      · rw [defines_kf_iff, reads_prefixes _ _ hb]; exact hd
      · rw [defines, if_neg]
        rw [reads_prefixes _ _ hb]; exact fun h => hd h.2
  · simp only [lookup] at hi
    split at hi
    · next he => subst he; exact ⟨vp, f, by simp⟩
    · obtain ⟨v, g, hm⟩ := h.mem m i hi; exact ⟨v, g, by simp [hm]⟩
  · simp only [lookup] at hi
    split at hi
    · next he =>
      subst he
      simp only [Option.some.injEq] at hi
      subst hi
      have hfb : (c.fallbacks (c.minF f)).2 = [] := by
        by_contra hne
        exact ht.redefined done n vp f todo hall hne hm
      simp only [hfb, List.map_nil]
      refine ⟨⟨_, _, by simp; exact ⟨rfl, rfl⟩⟩, fun j hj r hr => ?_⟩
      rw [List.getElem?_eq_none (by simp; omega)] at hr
      simp at hr
    · next hne =>
      have hm' : HasKf m.text (.kf n vp f :: todo) := by
        obtain ⟨a, v, g, h1, h2⟩ := hm; exact ⟨a, v, g, by simp [h1], h2⟩
      obtain ⟨⟨vp0, f0, h1⟩, h2⟩ := h.keys m i hi hm'
      have hlt := (List.getElem?_eq_some_iff.1 h1).1
      have hne' : n.text ≠ m.text := by
        intro he
        obtain ⟨v, g, h3⟩ := h.mem m i hi
        exact hne (ht.names n vp f m v g (by rw [hall]; simp) (by rw [hall]; simp [h3]) he)
      refine ⟨⟨vp0, f0, by rw [List.getElem?_append_left hlt]; exact h1⟩, fun j hj r hr => ?_⟩
      rcases getElem_append_cases _ _ _ _ hr with ⟨hr, -⟩ | hr
      · exact h2 j hj r hr
      · simp only [List.mem_cons, List.mem_map] at hr
        rcases hr with rfl | ⟨x, -, rfl⟩
        · rw [defines_kf_iff]; exact fun h => hne' h.1
        · rw [defines, if_neg]; exact fun h => hne' h.2.1

theorem HasKf.cons {name : Str} {r : Rule F C O} {rs : List (Rule F C O)} (h : HasKf name rs) : HasKf name (r :: rs) := by
  obtain ⟨n, v, f, h1, h2⟩ := h
  exact ⟨n, v, f, by simp [h1], h2⟩

variable [DecidableEq F]

theorem inv_step (c : Cfg F C) (b : Browser F C O X) (hc : Laws c b) (hb : b.knows .none = true) (all done todo : List (Rule F C O))
    (r : Rule F C O) (hall : all = done ++ r :: todo) (ht : Tidy c b all) (st : St F C O) (h : Inv c b done (r :: todo) st) :
    Inv c b (done ++ [r]) todo (step c st r) := by
  have hpush : ∀ r' : Rule F C O, r' = r → (∀ name, HasKf name todo → defines b name r = none) →
      Inv c b (done ++ [r]) todo { st with rules := st.rules ++ [r'] } := by
    rintro r' rfl hd
    refine ⟨fun name hname => ?_, fun m i hi => ?_, fun m i hi hm => ?_⟩
    · simp only []; rw [effective_append, effective_append, h.same name hname]
    · obtain ⟨v, g, hm⟩ := h.mem m i hi; exact ⟨v, g, by simp [hm]⟩
    · obtain ⟨⟨vp0, f0, h1⟩, h2⟩ := h.keys m i hi hm.cons
      have hlt := (List.getElem?_eq_some_iff.1 h1).1
      refine ⟨⟨vp0, f0, by rw [List.getElem?_append_left hlt]; exact h1⟩, fun j hj x hx => ?_⟩
      rcases getElem_append_cases _ _ _ _ hx with ⟨hx, -⟩ | hx
      · exact h2 j hj x hx
      · simp only [List.mem_singleton] at hx; subst hx; exact hd _ hm
  cases r with
  | supports cd n vp f => exact absurd (show _ ∈ all by rw [hall]; simp) (ht.noSupports cd n vp f)
  | other o =>
    refine hpush _ rfl fun name hn => ?_
    rw [defines]
    refine ht.others o (List.mem_filterMap.2 ⟨.other o, by rw [hall]; simp, rfl⟩) name ?_
    obtain ⟨n, v, f, h1, h2⟩ := hn
    exact ⟨n, v, f, by rw [hall]; simp [h1], h2⟩
  | kf n vp f =>
    simp only [step]
    split
    · next hu =>
      refine ⟨fun name hname => ?_, fun m i hi => ?_, fun m i hi hm => h.keys m i hi hm.cons⟩
      · rw [effective_append, effective_one, ← h.same name hname]
        rw [(defines_kf_iff b name n vp f).2]
        · rfl
        · rintro ⟨rfl, -⟩; rw [hname] at hu; simp at hu
      · obtain ⟨v, g, hm⟩ := h.mem m i hi; exact ⟨v, g, by simp [hm]⟩
    · cases hl : lookup n st.map with
      | none => exact inv_push c b hc hb all done todo n vp f hall ht st h
      | some i =>
        obtain ⟨⟨vp', f', h1⟩, h2⟩ := h.keys n i hl ⟨n, vp, f, by simp, rfl⟩
        simp only [h1]
        have hset : ∀ (w : PrefixSet) (g : F), (b.reads w = (b.reads vp' || b.reads vp)) →
            (b.reads vp = true → b.view g = b.view f) → (b.reads vp = false → b.reads vp' = true → g = f') →
            Inv c b (done ++ [.kf n vp f]) todo { st with rules := st.rules.set i (.kf n w g) } := by
          intro w g hw hg hg'
          obtain ⟨A, B, hAB, hsetAB, hB⟩ := split_at _ _ _ h1
          have hBn : effective b n.text B = none := effective_none _ _ _ fun x hx => by
            obtain ⟨j, hj, hx⟩ := hB x hx
            exact h2 j hj x hx
          refine ⟨fun name hname => ?_, fun m j hj => ?_, fun m k hk hm => ?_⟩
          · simp only [hsetAB]
            rw [effective_append b name done, effective_one, ← h.same name hname, hAB, effective_append, effective_append, effective, effective]
            by_cases hn : n.text = name
            · subst hn
              rw [hBn, Option.none_or, Option.none_or]
              by_cases hr : b.reads vp = true
              · rw [defines, if_pos ⟨rfl, by rw [hw, hr, Bool.or_true]⟩, hg hr, defines, if_pos ⟨rfl, hr⟩]; rfl
              · rw [Bool.not_eq_true] at hr
                rw [hr, Bool.or_false] at hw
                rw [(defines_kf_iff b n.text n vp f).2 (by simp [hr]), Option.none_or]
                by_cases hv : b.reads vp' = true
                · rw [hg' hr hv, defines, defines, hw]
                · rw [(defines_kf_iff b n.text n w g).2 (by rw [hw]; simp [hv]), (defines_kf_iff b n.text n vp' f').2 (by simp [hv])]
            · have hno : ∀ w g, defines (C := C) (O := O) b name (.kf n w g) = none := by
                intro w g; rw [defines_kf_iff]; exact fun h => hn h.1
              rw [hno, hno, hno, Option.none_or]
          · obtain ⟨v, g, hm⟩ := h.mem m j hj; exact ⟨v, g, by simp [hm]⟩
          · obtain ⟨⟨vp2, f2, h3⟩, h4⟩ := h.keys m k hk hm.cons
            simp only []
            have hilt := (List.getElem?_eq_some_iff.1 h1).1
            refine ⟨?_, fun j hj x hx => ?_⟩
            · by_cases hik : i = k
              · subst hik
                rw [h1] at h3
                simp only [Option.some.injEq, Rule.kf.injEq] at h3
                obtain ⟨rfl, -⟩ := h3
                exact ⟨w, g, by rw [List.getElem?_set_self hilt]⟩
              · exact ⟨vp2, f2, by rw [List.getElem?_set_ne hik]; exact h3⟩
            · by_cases hij : i = j
              · subst hij
                rw [List.getElem?_set_self hilt, Option.some.injEq] at hx
                subst hx
                rw [defines_kf_iff]
                rintro ⟨he, -⟩
                obtain ⟨v3, f3, h5⟩ := h.mem m k hk
                have := ht.names n vp f m v3 f3 (by rw [hall]; simp) (by rw [hall]; simp [h5]) he
                subst this
                rw [hl, Option.some.injEq] at hk
                omega
              · rw [List.getElem?_set_ne hij] at hx
                exact h4 j hj x hx
        split
        · next he => subst he; exact hset _ _ (by simp) (fun _ => hc.min f) (fun h1 h2 => by rw [h1] at h2; simp at h2)
        · split
          · next he =>
            refine hset _ _ ?_ (fun _ => by rw [he, hc.min]) (fun _ _ => rfl)
            rw [reads_prefixes _ _ hb, reads_union]
          · exact inv_push c b hc hb all done todo n vp f hall ht st h
/-! ## C25 -/

/-- **C25** Minification keeps the keyframes in effect for every animation name, in every browser that understands unprefixed
`@keyframes`, whatever vendor prefixes are written or added. Missing: lists that are not `Tidy`, where the code is wrong
(`C25_counterexample_*`). -/
theorem C25_effective_partial (c : Cfg F C) (b : Browser F C O X) (hc : Laws c b) (hb : b.knows .none = true) (rs : List (Rule F C O))
    (ht : Tidy c b rs) (name : Str) (hn : c.unused name = false) : effective b name (minify c rs) = effective b name rs := by
  have key : ∀ (todo done : List (Rule F C O)) (st : St F C O), rs = done ++ todo → Inv c b done todo st →
      Inv c b rs [] (todo.foldl (step c) st) := by
    intro todo
    induction todo with
    | nil => intro done st he h; simp at he; subst he; exact h
    | cons r todo ih =>
      intro done st he h
      exact ih (done ++ [r]) _ (by simp [he]) (inv_step c b hc hb rs done todo r he ht st h)
  exact (key rs [] ⟨[], []⟩ rfl ⟨fun _ _ => rfl, by simp [lookup], by simp [lookup]⟩).same name hn

/-- The browser, but understanding unprefixed `@keyframes`. -/
def Browser.modern (b : Browser F C O X) : Browser F C O X := { b with knows := fun p => p == .none || b.knows p }

/-- All rules have these prefixes. -/
def AllPrefixed (v : PrefixSet) (rs : List (Rule F C O)) : Prop :=
  ∀ r ∈ rs, (∀ n w f, r = .kf n w f → w = v) ∧ ∀ cd n w f, r = .supports cd n w f → w = v

omit [DecidableEq F] in
theorem prefixes_idem (t : Targets) (v : PrefixSet) (hv : v.has .none = true) :
    t.prefixes ((t.prefixes v .atKeyframes).union v) .atKeyframes = t.prefixes v .atKeyframes ∨
    t.prefixes v .atKeyframes = v := by
  unfold Targets.prefixes
  by_cases h : (v.has .none && !(t.excl.contains .vendorPrefixes)) = true
  · simp only [h, if_true]
    have hu : ∀ w : PrefixSet, (w.union v).has .none = true := by
      intro w; simp only [PrefixSet.has] at hv; simp [PrefixSet.union, PrefixSet.has, hv]
    have h2 : (!(t.excl.contains .vendorPrefixes)) = true := by simp only [Bool.and_eq_true] at h; exact h.2
    left
    split
    · simp only [hu, h2, Bool.and_self, if_true]
    · cases t.browsers with
      | none => simp only [hu, h2, Bool.and_self, if_true]; cases v; simp [PrefixSet.union]
      | some br => simp only [hu, h2, Bool.and_self, if_true]
  · right
    simp only [Bool.not_eq_true] at h
    simp [h]

omit [DecidableEq F] in
theorem defines_modern (b : Browser F C O X) (v : PrefixSet) (hv : b.reads v = true) (rs : List (Rule F C O)) (h : AllPrefixed v rs)
    (name : Str) : effective b name rs = effective b.modern name rs := by
  have hv' : b.modern.reads v = true := by
    rw [reads_iff] at hv ⊢
    obtain ⟨p, h1, h2⟩ := hv
    exact ⟨p, h1, by simp [Browser.modern, h2]⟩
  induction rs with
  | nil => rfl
  | cons r rs ih =>
    rw [effective, effective, ih (fun x hx => h x (by simp [hx]))]
    congr 1
    cases r with
    | kf n w f => have := (h _ (by simp)).1 n w f rfl; subst this; simp [defines, hv, hv']; rfl
    | supports cd n w f => have := (h _ (by simp)).2 cd n w f rfl; subst this; simp [defines, hv, hv']; rfl
    | other o => rfl

theorem minify_prefixed (c : Cfg F C) (v : PrefixSet) (hv : v.has .none = true) (rs : List (Rule F C O)) (h : AllPrefixed v rs)
    (hs : ∀ cd n w f, .supports cd n w f ∉ rs) : AllPrefixed (c.targets.prefixes v .atKeyframes) (minify c rs) := by
  have key : ∀ (todo : List (Rule F C O)) (st : St F C O), AllPrefixed v todo → (∀ cd n w f, .supports cd n w f ∉ todo) →
      AllPrefixed (c.targets.prefixes v .atKeyframes) st.rules →
      AllPrefixed (c.targets.prefixes v .atKeyframes) (todo.foldl (step c) st).rules := by
    intro todo
    induction todo with
    | nil => intro st _ _ h; exact h
    | cons r todo ih =>
      intro st ht hs h
      refine ih _ (fun x hx => ht x (by simp [hx])) (fun cd n w f hm => hs cd n w f (by simp [hm])) ?_
      cases r with
      | supports cd n w f => exact absurd (by simp) (hs cd n w f)
      | other o =>
        simp only [step]
        intro x hx
        simp only [List.mem_append, List.mem_singleton] at hx
        rcases hx with hx | rfl
        · exact h x hx
        · simp
      | kf n w f =>
        have := (ht _ (by simp)).1 n w f rfl
        subst this
        have hp : AllPrefixed (c.targets.prefixes w .atKeyframes) (pushKf c st n w (c.minF f)).rules := by
          intro x hx
          simp only [pushKf, List.mem_append, List.mem_cons, List.mem_map] at hx
          rcases hx with hx | rfl | ⟨y, -, rfl⟩
          · exact h x hx
          · refine ⟨fun n' w' f' he => ?_, fun cd n' w' f' he => by simp at he⟩
            simp only [Rule.kf.injEq] at he
            exact he.2.1.symm
          · refine ⟨fun n' w' f' he => by simp at he, fun cd n' w' f' he => ?_⟩
            simp only [Rule.supports.injEq] at he
            exact he.2.2.1.symm
        have hset : ∀ i n' u g, u = c.targets.prefixes w .atKeyframes →
            AllPrefixed (c.targets.prefixes w .atKeyframes) (st.rules.set i (.kf n' u g)) := by
          intro i n' u g hu x hx
          rcases List.mem_or_eq_of_mem_set hx with hx | rfl
          · exact h x hx
          · refine ⟨fun n2 w2 f2 he => ?_, fun cd n2 w2 f2 he => by simp at he⟩
            simp only [Rule.kf.injEq] at he
            rw [← he.2.1, hu]
        simp only [step]
        split
        · exact h
        · split
          · split
            · next i hi n' w' f' hr =>
              have hw' := (h _ (List.mem_iff_getElem?.2 ⟨_, hr⟩)).1 _ _ _ rfl
              split
              · next he => exact hset _ _ _ _ (he ▸ hw')
              · split
                · next hne _ =>
                  apply hset
                  rw [hw']
                  rcases prefixes_idem c.targets w hv with h1 | h1
                  · exact h1
                  · exact absurd (hw'.trans h1) hne
                · exact hp
            · exact hp
          · exact hp
  exact key rs ⟨[], []⟩ h hs (by simp [AllPrefixed])

/-- **C25** If all keyframes are unprefixed and the targets contain a browser that only understands a prefix, that browser gets the
keyframes that a modern browser gets. -/
theorem C25_prefixed_partial (c : Cfg F C) (b : Browser F C O X) (hc : Laws c b.modern) (rs : List (Rule F C O)) (ht : Tidy c b.modern rs)
    (hp : AllPrefixed Prefix.none.set rs) (hb : b.reads (c.targets.prefixes Prefix.none.set .atKeyframes) = true)
    (name : Str) (hn : c.unused name = false) : effective b name (minify c rs) = effective b.modern name rs := by
  rw [defines_modern b _ hb _ (minify_prefixed c _ rfl rs hp ht.noSupports) name]
  exact C25_effective_partial c b.modern hc rfl rs ht name hn

/-! ### Examples: keyframes are numbers, 100 and above need a `@supports` fallback; other rules are lists of definitions -/

/-- Targets with Safari 8, which needs `-webkit-`. -/
def safari8 : Targets := ⟨some fun | .safari => some (8 <<< 16) | _ => none, 0, 0⟩
/-- The contexts of the examples. -/
def cfg0 (t : Targets) : Cfg Nat Nat := ⟨t, id, fun f => if f < 100 then (f, []) else (f - 100, [(1, f)]), fun _ => false⟩
/-- A browser that understands some prefixes and all conditions. -/
def br0 (ps : List Prefix) (lab : Bool) : Browser Nat Nat (List (Str × Nat)) Nat :=
  ⟨fun p => ps.contains p, fun _ => lab, fun f => if lab then f else f % 100,
    fun o s => (o.reverse.find? fun x => x.1 == s).map (·.2)⟩

theorem laws0 (t : Targets) (ps : List Prefix) : Laws (cfg0 t) (br0 ps true) where
  min f := rfl
  fallbacks n vp f h := by
    by_cases hf : f < 100
    · simp [cfg0, hf, effective, defines, h]
    · have h' : (if True then f else 0) = f := rfl
      simp [cfg0, hf, effective, defines, h]
      simp [br0]

/-- Unprefixed. -/
def none1 : PrefixSet := Prefix.none.set

/-- `@keyframes a {1} @keyframes b {101} @-webkit-keyframes a {2} @keyframes a {2} @keyframes a {3}` -/
def sample : List (Rule Nat Nat (List (Str × Nat))) :=
  [.kf (.ident cs!"a") none1 1, .kf (.ident cs!"b") none1 101, .kf (.ident cs!"a") Prefix.webkit.set 2, .kf (.ident cs!"a") none1 2,
   .other [(cs!"c", 7)], .kf (.ident cs!"a") none1 3]

theorem sample_tidy (t : Targets) (ps : List Prefix) : Tidy (cfg0 t) (br0 ps true) sample where
  names n vp f n' vp' f' h h' he := by
    simp only [sample, List.mem_cons, Rule.kf.injEq, reduceCtorEq, List.not_mem_nil, or_false, false_or] at h h'
    obtain h | h | h | h | h := h <;> obtain h' | h' | h' | h' | h' := h' <;>
      obtain ⟨rfl, -, -⟩ := h <;> obtain ⟨rfl, -, -⟩ := h' <;> first | rfl | (exact absurd he (by decide))
  others o ho name hk := by
    simp only [sample, List.filterMap_cons, List.filterMap_nil, List.mem_singleton] at ho
    subst ho
    obtain ⟨n, v, f, h1, rfl⟩ := hk
    simp only [sample, List.mem_cons, Rule.kf.injEq, reduceCtorEq, List.not_mem_nil, or_false, false_or] at h1
    obtain h | h | h | h | h := h1 <;> obtain ⟨rfl, -, -⟩ := h <;> rfl
  noSupports cd n vp f h := by simp [sample] at h
  redefined xs n vp f ys h hne := by
    have hf : ¬ f < 100 := by
      intro hf; apply hne; simp [cfg0, hf]
    have hm : .kf n vp f ∈ sample := by rw [h]; simp
    have h1 : n = .ident cs!"b" := by
      simp only [sample, List.mem_cons, Rule.kf.injEq, reduceCtorEq, List.not_mem_nil, or_false, false_or] at hm
      obtain h | h | h | h | h := hm <;> obtain ⟨rfl, -, rfl⟩ := h <;> first | rfl | (exact absurd (by decide) hf)
    subst h1
    rintro ⟨m, v, g, h2, h3⟩
    have hcount : (sample.filter fun | .kf m _ _ => m.text == cs!"b" | _ => false).length = 1 := by decide
    rw [h, List.filter_append, List.filter_cons_of_pos (by rfl)] at hcount
    have : .kf m v g ∈ ys.filter (fun | .kf m _ _ => m.text == cs!"b" | _ => false) := by
      rw [List.mem_filter]; exact ⟨h2, beq_iff_eq.2 h3⟩
    have := List.length_pos_of_mem this
    simp at hcount
    omega

example : effective (br0 [.none] true) cs!"a" (minify (cfg0 safari8) sample) = some 3 ∧
    effective (br0 [.none] true) cs!"b" (minify (cfg0 safari8) sample) = some 101 :=
  ⟨(C25_effective_partial _ _ (laws0 _ _) rfl sample (sample_tidy _ _) _ rfl).trans (by decide +kernel),
   (C25_effective_partial _ _ (laws0 _ _) rfl sample (sample_tidy _ _) _ rfl).trans (by decide +kernel)⟩
example : (minify (cfg0 safari8) sample).length = 6 := by decide +kernel
example : (br0 [.webkit] true).reads ((cfg0 safari8).targets.prefixes Prefix.none.set .atKeyframes) = true := by decide +kernel

/-! ### Where the code is wrong -/

/-- `@keyframes a {1} @keyframes "a" {2} @keyframes a {3}`: the last rule replaces the first. -/
theorem C25_counterexample_string :
    let rs : List (Rule Nat Nat (List (Str × Nat))) := [.kf (.ident cs!"a") none1 1, .kf (.custom cs!"a") none1 2, .kf (.ident cs!"a") none1 3]
    effective (br0 [.none] true) cs!"a" rs = some 3 ∧ effective (br0 [.none] true) cs!"a" (minify (cfg0 ⟨none, 0, 0⟩) rs) = some 2 := by
  decide +kernel

/-- `@keyframes a {1} @media all { @keyframes a {2} } @keyframes a {3}`: the same. -/
theorem C25_counterexample_media :
    let rs : List (Rule Nat Nat (List (Str × Nat))) := [.kf (.ident cs!"a") none1 1, .other [(cs!"a", 2)], .kf (.ident cs!"a") none1 3]
    effective (br0 [.none] true) cs!"a" rs = some 3 ∧ effective (br0 [.none] true) cs!"a" (minify (cfg0 ⟨none, 0, 0⟩) rs) = some 2 := by
  decide +kernel

/-- `@keyframes a {101} @keyframes a {2}` where the first needs a `@supports` rule: it stays after the second definition. -/
theorem C25_counterexample_fallback :
    let rs : List (Rule Nat Nat (List (Str × Nat))) := [.kf (.ident cs!"a") none1 101, .kf (.ident cs!"a") none1 2]
    effective (br0 [.none] true) cs!"a" rs = some 2 ∧ effective (br0 [.none] true) cs!"a" (minify (cfg0 ⟨none, 0, 0⟩) rs) = some 101 := by
  decide +kernel

/-- `@-webkit-keyframes a {1} @keyframes a {2}` for Safari 8: the prefix added to the second overrides the explicit first. -/
theorem C25_counterexample_prefix :
    let rs : List (Rule Nat Nat (List (Str × Nat))) := [.kf (.ident cs!"a") Prefix.webkit.set 1, .kf (.ident cs!"a") none1 2]
    effective (br0 [.webkit] true) cs!"a" rs = some 1 ∧ effective (br0 [.webkit] true) cs!"a" (minify (cfg0 safari8) rs) = some 2 := by
  decide +kernel
end Verif.Keyframes
