import Verif.Handler.FinLemmas
/-! Custom properties, in any block and for any targets. -/
namespace Verif.Handler
variable {V C : Type} [DecidableEq V] [DecidableEq C]

/-- The value a declaration gives a custom property. -/
def customValue (n : Str) : Decl V → Option V
  | .custom k v => if k = n then some v else none
  | _ => none

/-- The value that is written: fallbacks are split off unless in keyframes. -/
def Cfg.kept (c : Cfg V C) (v : V) : V := if c.kind = .keyframes then v else (c.lower v).1

omit [DecidableEq V] in
theorem addFallbacks_kept (c : Cfg V C) (n : Str) (v : V) (x : Ctx V C) : (addFallbacks c n v x).1 = c.kept v := by
  unfold addFallbacks Cfg.kept
  split <;> rfl

omit [DecidableEq V] in
theorem customValue_some (n : Str) (d : Decl V) (v : V) : customValue n d = some v ↔ d = .custom n v := by
  cases d <;> simp [customValue]

omit [DecidableEq V] in
theorem customInv_last (customs : List (Str × Nat)) (decls : List (Decl V)) (h : CustomInv customs decls) (n : Str) (w : V)
    (hw : .custom n w ∈ decls) : last (customValue n) decls = some w := by
  obtain ⟨i, hi⟩ := List.getElem?_of_mem hw
  rw [last_unique _ decls i _ hi]
  · simp [customValue]
  · intro j d hj hd
    obtain ⟨w', hd⟩ := Option.ne_none_iff_exists'.1 hd
    rw [customValue_some] at hd
    subst hd
    exact (nodup_fst_unique _ h.1 n i j (h.2.2 i n w hi) (h.2.2 j n w' hj)).symm

omit [DecidableEq V] in
theorem customInv_last_none (decls : List (Decl V)) (n : Str) (hw : ∀ w, .custom n w ∉ decls) : last (customValue n) decls = none := by
  apply last_none
  intro d hd
  by_contra hne
  obtain ⟨w', he⟩ := Option.ne_none_iff_exists'.1 hne
  rw [customValue_some] at he
  subst he
  exact hw w' hd

omit [DecidableEq V] in
/-- There is at most one declaration of a custom property. -/
theorem customInv_filterMap (customs : List (Str × Nat)) (decls : List (Decl V)) (h : CustomInv customs decls) (n : Str) :
    decls.filterMap (customValue n) = (last (customValue n) decls).toList := by
  have uniq : ∀ (i j : Nat) d e, decls[i]? = some d → decls[j]? = some e → customValue n d ≠ none → customValue n e ≠ none → i = j := by
    intro i j d e hi hj hd he
    obtain ⟨v, hd⟩ := Option.ne_none_iff_exists'.1 hd
    obtain ⟨w, he⟩ := Option.ne_none_iff_exists'.1 he
    rw [customValue_some] at hd he
    subst hd; subst he
    exact nodup_fst_unique _ h.1 n i j (h.2.2 i n v hi) (h.2.2 j n w hj)
  clear h
  induction decls with
  | nil => rfl
  | cons d ds ih =>
    have ih := ih fun i j d e hi hj hd he => by
      have := uniq (i + 1) (j + 1) d e (by simpa using hi) (by simpa using hj) hd he
      omega
    rw [last_cons, List.filterMap_cons]
    cases hd : customValue n d with
    | none => simp [ih]
    | some v =>
      have : last (customValue n) ds = none := by
        apply last_none
        intro e he
        by_contra hne
        obtain ⟨j, hj⟩ := List.getElem?_of_mem he
        have := uniq 0 (j + 1) d e (by simp) (by simpa using hj) (by simp [hd]) hne
        omega
      simp [ih, this]

/-- What handling one declaration does to the custom properties. -/
theorem custom_step (c : Cfg V C) (hk : ∀ v, c.kept (c.kept v) = c.kept v) (d : Decl V) (s : State V)
    (h : CustomInv s.customs s.decls) (hkept : ∀ n w, .custom n w ∈ s.decls → c.kept w = w) (x : Ctx V C) :
    CustomInv (s.handle c d x).1.customs (s.handle c d x).1.decls ∧
      (∀ n w, .custom n w ∈ (s.handle c d x).1.decls → c.kept w = w) ∧
      ∀ n, c.unused n = false →
        last (customValue n) (s.handle c d x).1.decls = ((customValue n d).map c.kept).or (last (customValue n) s.decls) := by
  have app : ∀ (s' : State V) (em : List (Decl V)), s'.decls = s.decls ++ em → s'.customs = s.customs →
      (∀ d ∈ em, ∀ n w, d ≠ .custom n w) → CustomInv s'.customs s'.decls ∧ (∀ n w, .custom n w ∈ s'.decls → c.kept w = w) ∧
      ∀ n, last (customValue n) s'.decls = last (customValue n) s.decls := by
    intro s' em h1 h2 h3
    refine ⟨?_, fun n w hw => ?_, fun n => ?_⟩
    · rw [h1, h2]; exact customInv_append _ _ _ h h3
    · rw [h1] at hw
      rcases List.mem_append.1 hw with hw | hw
      · exact hkept n w hw
      · exact absurd rfl (h3 _ hw n w)
    · rw [h1, last_append, customInv_last_none em n (fun w hw => h3 _ hw n w rfl)]
      simp
  cases d with
  | box f d =>
    obtain ⟨a, a', b⟩ := app (s.handle c (.box f d) x).1 _ rfl rfl (by simp)
    exact ⟨a, a', fun n _ => by rw [b n]; simp [customValue]⟩
  | overflow d =>
    obtain ⟨a, a', b⟩ := app (s.handle c (.overflow d) x).1 _ rfl rfl (by simp)
    exact ⟨a, a', fun n _ => by rw [b n]; simp [customValue]⟩
  | short f d =>
    obtain ⟨a, a', b⟩ := app (s.handle c (.short f d) x).1 _ rfl rfl (by simp)
    exact ⟨a, a', fun n _ => by rw [b n]; simp [customValue]⟩
  | direction v => exact ⟨h, hkept, fun n _ => by simp [customValue, State.handle]⟩
  | unicodeBidi v => exact ⟨h, hkept, fun n _ => by simp [customValue, State.handle]⟩
  | unparsedDirection v =>
    obtain ⟨a, a', b⟩ := app (s.handle c (.unparsedDirection v) x).1 _ rfl rfl (by simp)
    exact ⟨a, a', fun n _ => by rw [b n]; simp [customValue]⟩
  | unparsedBidi v =>
    obtain ⟨a, a', b⟩ := app (s.handle c (.unparsedBidi v) x).1 _ rfl rfl (by simp)
    exact ⟨a, a', fun n _ => by rw [b n]; simp [customValue]⟩
  | unparsedAll v =>
    obtain ⟨a, a', b⟩ := app (s.handle c (.unparsedAll v) x).1 _ rfl rfl (by simp)
    exact ⟨a, a', fun n _ => by rw [b n]; simp [customValue]⟩
  | other k v =>
    obtain ⟨a, a', b⟩ := app (s.handle c (.other k v) x).1 _ rfl rfl (by simp)
    exact ⟨a, a', fun n _ => by rw [b n]; simp [customValue]⟩
  | unknown k v =>
    by_cases hu : c.unused k = true
    · rw [show s.handle c (.unknown k v) x = (s, x) by simp [State.handle, hu]]
      exact ⟨h, hkept, fun n _ => by simp [customValue]⟩
    · obtain ⟨a, a', b⟩ := app (s.handle c (.unknown k v) x).1 [.unknown k v] (by simp [State.handle, hu]) (by simp [State.handle, hu]) (by simp)
      exact ⟨a, a', fun n _ => by rw [b n]; simp [customValue]⟩
  | all v =>
    have h0 : CustomInv ([] : List (Str × Nat)) ([] : List (Decl V)) := ⟨by simp, by simp, by simp⟩
    obtain ⟨a, b, _, d', e⟩ := moveCustoms_spec s.decls s.customs [] [] h.2.1 h0 (by simpa using h.1)
    have hd : (s.handle c (.all v) x).1.decls = (moveCustoms s.decls s.customs [] []).2 ++ [.all v] := rfl
    have hiff : ∀ n w, .custom n w ∈ (s.handle c (.all v) x).1.decls ↔ .custom n w ∈ s.decls := by
      intro n w
      rw [hd]
      simp only [List.mem_append, List.mem_singleton, reduceCtorEq, or_false]
      constructor
      · intro hw
        rcases e n w hw with hw | ⟨i, _, hi⟩
        · simp at hw
        · exact List.mem_of_getElem? hi
      · intro hw
        obtain ⟨i, hi⟩ := List.getElem?_of_mem hw
        exact d' n i w (h.2.2 i n w hi) hi
    have hinv : CustomInv (s.handle c (.all v) x).1.customs (s.handle c (.all v) x).1.decls := customInv_append _ _ _ a (by simp)
    refine ⟨hinv, fun n w hw => hkept n w ((hiff n w).1 hw), fun n _ => ?_⟩
    simp only [customValue, Option.map_none, Option.none_or]
    by_cases hm : ∃ w, .custom n w ∈ s.decls
    · obtain ⟨w, hw⟩ := hm
      rw [customInv_last _ _ h n w hw, customInv_last _ _ hinv n w ((hiff n w).2 hw)]
    · rw [customInv_last_none s.decls n (fun w hw => hm ⟨w, hw⟩), customInv_last_none _ n (fun w hw => hm ⟨w, (hiff n w).1 hw⟩)]
  | custom k v =>
    simp only [State.handle]
    unfold State.handleCustom
    by_cases hu : c.unused k = true
    · rw [if_pos hu]
      refine ⟨h, hkept, fun n hn => ?_⟩
      have : k ≠ n := by rintro rfl; simp [hu] at hn
      simp [customValue, this]
    · rw [if_neg hu]
      have upd : ∀ i w, (k, i) ∈ s.customs → s.decls[i]? = some (.custom k w) →
          CustomInv s.customs (s.decls.set i (.custom k (c.kept v))) ∧
          (∀ n w, .custom n w ∈ s.decls.set i (.custom k (c.kept v)) → c.kept w = w) ∧ ∀ n, c.unused n = false →
            last (customValue n) (s.decls.set i (.custom k (c.kept v))) =
              ((customValue n (.custom k v)).map c.kept).or (last (customValue n) s.decls) := by
        intro i w hmem hi
        have hlt := (List.getElem?_eq_some_iff.1 hi).1
        have hcinv : CustomInv s.customs (s.decls.set i (.custom k (c.kept v))) := by
          refine ⟨h.1, fun n j hj => ?_, fun j n w' hj => ?_⟩
          · obtain ⟨w', hw'⟩ := h.2.1 n j hj
            rw [List.getElem?_set]
            by_cases hij : i = j
            · subst hij
              rw [hi] at hw'
              simp at hw'
              exact ⟨c.kept v, by simp [hlt, hw'.1]⟩
            · exact ⟨w', by rw [if_neg hij, hw']⟩
          · rw [List.getElem?_set] at hj
            by_cases hij : i = j
            · subst hij
              simp [hlt] at hj
              rw [← hj.1]; exact hmem
            · rw [if_neg hij] at hj
              exact h.2.2 j n w' hj
        refine ⟨hcinv, fun n w' hw' => ?_, fun n _ => ?_⟩
        · rcases List.mem_or_eq_of_mem_set hw' with hw' | hw'
          · exact hkept n w' hw'
          · injection hw' with _ hw'; rw [hw', hk]
        · by_cases hn : k = n
          · subst hn
            rw [customInv_last _ _ hcinv k (c.kept v) (List.mem_of_getElem? (i := i) (by simp [hlt]))]
            simp [customValue]
          · rw [last_set_same _ _ _ _ _ hi (by simp [customValue, hn])]
            simp [customValue, hn]
      cases hlk : s.customs.lookup k with
      | some i =>
        have hmem := lookup_some_mem _ _ _ hlk
        obtain ⟨w, hi⟩ := h.2.1 k i hmem
        simp only [hi]
        split
        · next heq =>
          obtain ⟨_, rfl⟩ := heq
          refine ⟨h, hkept, fun n _ => ?_⟩
          by_cases hn : k = n
          · subst hn
            have hw := List.mem_of_getElem? hi
            rw [customInv_last _ _ h k w hw]
            simp [customValue, hkept k w hw]
          · simp [customValue, hn]
        · simp only [addFallbacks_kept]
          exact upd i w hmem hi
      | none =>
        have hnm := lookup_none_not_mem _ _ hlk
        simp only [addFallbacks_kept]
        have hcinv : CustomInv (s.customs ++ [(k, s.decls.length)]) (s.decls ++ [.custom k (c.kept v)]) := by
          refine ⟨?_, fun n j hj => ?_, fun j n w' hj => ?_⟩
          · rw [List.map_append, List.nodup_append]
            refine ⟨h.1, by simp, fun a ha b hb => ?_⟩
            simp at hb
            subst hb
            rintro rfl
            simp only [List.mem_map] at ha
            obtain ⟨⟨k, j⟩, hk, rfl⟩ := ha
            exact hnm j hk
          · rcases List.mem_append.1 hj with hj | hj
            · obtain ⟨w', hw'⟩ := h.2.1 n j hj
              have := (List.getElem?_eq_some_iff.1 hw').1
              exact ⟨w', by rw [List.getElem?_append_left this, hw']⟩
            · simp at hj
              obtain ⟨rfl, rfl⟩ := hj
              exact ⟨c.kept v, by simp⟩
          · by_cases hl : j < s.decls.length
            · rw [List.getElem?_append_left hl] at hj
              exact List.mem_append_left _ (h.2.2 j n w' hj)
            · rw [List.getElem?_append_right (by omega)] at hj
              have h0 : j - s.decls.length = 0 := by
                have := (List.getElem?_eq_some_iff.1 hj).1
                simp at this; omega
              rw [h0] at hj
              simp at hj
              have : j = s.decls.length := by omega
              subst this
              simp [hj.1]
        refine ⟨hcinv, fun n w hw => ?_, fun n _ => ?_⟩
        · rcases List.mem_append.1 hw with hw | hw
          · exact hkept n w hw
          · simp at hw; rw [hw.2, hk]
        · rw [last_append, last_singleton]
          by_cases hn : k = n
          · subst hn; simp [customValue]
          · simp [customValue, hn]

theorem custom_list (c : Cfg V C) (hk : ∀ v, c.kept (c.kept v) = c.kept v) (imp : Bool) (ds : List (Decl V)) (r : State V × Ctx V C)
    (h : CustomInv r.1.customs r.1.decls) (hkept : ∀ n w, .custom n w ∈ r.1.decls → c.kept w = w) :
    CustomInv (handleList c imp ds r).1.customs (handleList c imp ds r).1.decls ∧
      ∀ n, c.unused n = false → last (customValue n) (handleList c imp ds r).1.decls =
        ((last (customValue n) ds).map c.kept).or (last (customValue n) r.1.decls) := by
  induction ds generalizing r with
  | nil => exact ⟨h, fun n _ => by simp [handleList, last_nil]⟩
  | cons d ds ih =>
    obtain ⟨a, a', b⟩ := custom_step c hk d r.1 h hkept { r.2 with isImportant := imp }
    obtain ⟨e, f⟩ := ih _ a a'
    refine ⟨e, fun n hn => ?_⟩
    rw [handleList, f n hn, b n hn, last_cons]
    cases last (customValue n) ds <;> simp

/-- Only declarations that are not custom are appended. -/
def Ext (a b : List (Decl V)) : Prop := ∃ em, b = a ++ em ∧ ∀ d ∈ em, ∀ n w, d ≠ .custom n w

omit [DecidableEq V] in
theorem Ext.trans {a b d : List (Decl V)} (h : Ext a b) (h' : Ext b d) : Ext a d := by
  obtain ⟨x, rfl, hx⟩ := h
  obtain ⟨y, rfl, hy⟩ := h'
  refine ⟨x ++ y, by simp, fun d hd => ?_⟩
  rcases List.mem_append.1 hd with hd | hd
  · exact hx d hd
  · exact hy d hd

omit [DecidableEq C] in
theorem finalize_ext (c : Cfg V C) (r : State V × Ctx V C) : Ext r.1.decls (State.finalize c r).1.decls := by
  have e1 : ∀ r : State V × Ctx V C, Ext r.1.decls (State.finDir r).1.decls := fun r =>
    ⟨(r.1.direction.map .direction).toList ++ (r.1.bidi.map .unicodeBidi).toList, by simp [State.finDir], by
      intro d hd n w
      rintro rfl
      simp at hd⟩
  have e2 : ∀ f, ∀ r : State V × Ctx V C, Ext r.1.decls (State.finShort c f r).1.decls := fun f r => ⟨_, rfl, by simp⟩
  have e3 : ∀ f, ∀ r : State V × Ctx V C, Ext r.1.decls (State.finBox c f r).1.decls := fun f r => ⟨_, rfl, by simp⟩
  have e4 : ∀ r : State V × Ctx V C, Ext r.1.decls (State.finOverflow c r).1.decls := fun r => ⟨_, rfl, by simp⟩
  exact (e1 _).trans ((e2 _ _).trans ((e3 _ _).trans ((e3 _ _).trans ((e3 _ _).trans ((e3 _ _).trans ((e2 _ _).trans
    ((e3 _ _).trans ((e4 _).trans (e2 _ _)))))))))

omit [DecidableEq V] in
theorem customInv_ext (customs : List (Str × Nat)) (a b : List (Decl V)) (h : CustomInv customs a) (he : Ext a b) : CustomInv customs b := by
  obtain ⟨em, rfl, hem⟩ := he
  exact customInv_append _ _ _ h hem

omit [DecidableEq V] in
theorem last_ext (a b : List (Decl V)) (he : Ext a b) (n : Str) : last (customValue n) b = last (customValue n) a := by
  obtain ⟨em, rfl, hem⟩ := he
  rw [last_append, customInv_last_none em n fun w hw => hem _ hw n w rfl]
  simp

end Verif.Handler
