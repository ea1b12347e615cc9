import Verif.SelParse.Simple
/-!
# The parser against the grammar: one simple selector
-/
namespace Verif.SelParse

theorem simple_sound {D : Drop} {o : Opts} {ts : List Tok} (hts : ∀ t ∈ ts, OKTok o D t) {cx : Cx} {before : List Comp} (pre : List Comp)
    {b : Bool} {c : Comp} {st : St} {r' : List LTok} (h : simple o (stOf cx before b) (liftL o ts) = .ok c st r') :
    ∃ a r b', ts = a ++ r ∧ r' = liftL o r ∧ a ≠ [] ∧ st = stOf cx (c :: before) b' ∧ c.isSimple = true ∧ Allowed code cx before pre c ∧
      ReadsC code D o cx before c a := by
  cases ts with
  | nil => simp [simple] at h
  | cons t ts =>
  cases t with
  | idHash s =>
    simp only [liftL_cons, lift, simple] at h
    split at h
    · simp at h
    next hp =>
    have hp' := (noPseudo_iff cx before b).2 (by simpa using hp)
    simp at h
    obtain ⟨rfl, rfl, rfl⟩ := h
    exact ⟨[.idHash s], ts, b, rfl, rfl, by simp, (stOf_plain _ _ _ rfl).symm, rfl, hp', by simp [ReadsC]⟩
  | bracket x =>
    simp only [liftL_cons, lift, simple] at h
    split at h
    · simp at h
    next hp =>
    have hp' := (noPseudo_iff cx before b).2 (by simpa using hp)
    split at h
    · next a ha =>
      simp at h
      obtain ⟨rfl, rfl, rfl⟩ := h
      exact ⟨[.bracket x], ts, b, rfl, rfl, by simp, (stOf_plain _ _ _ rfl).symm, rfl, hp',
        by simp only [ReadsC]; exact ⟨x, rfl, (parseAttr_iff _ _).1 ha⟩⟩
    · simp at h
  | delim ch =>
    by_cases h1 : ch = '.'
    · subst h1
      simp only [liftL_cons, lift, simple] at h
      split at h
      · simp at h
      next hp =>
      have hp' := (noPseudo_iff cx before b).2 (by simpa using hp)
      cases ts with
      | nil => simp at h
      | cons t ts =>
      cases t with
      | ident s =>
        simp [lift] at h
        obtain ⟨rfl, rfl, rfl⟩ := h
        exact ⟨[.delim '.', .ident s], ts, b, rfl, rfl, by simp, (stOf_plain _ _ _ rfl).symm, rfl, hp', by simp [ReadsC]⟩
      | _ => simp [lift] at h
    · by_cases h2 : ch = '&'
      · subst h2
        simp only [liftL_cons, lift, simple] at h
        simp at h
        obtain ⟨rfl, rfl, rfl⟩ := h
        exact ⟨[.delim '&'], ts, true, rfl, rfl, by simp, by rw [stOf_plain _ _ _ rfl]; rfl, rfl, .inl rfl, by simp [ReadsC]⟩
      · simp only [liftL_cons, lift] at h
        unfold simple at h
        split at h <;> simp_all
  | colon =>
    cases ts with
    | nil => simp [lift, simple] at h
    | cons t ts =>
    cases t with
    | ident n =>
      simp only [liftL_cons, lift, simple] at h
      by_cases hn : isCss2 n = true
      · rw [if_pos hn, pseudoElem_iff _ _ pre] at h
        obtain ⟨rfl, h1, rfl, rfl⟩ := h
        refine ⟨[.colon, .ident n], ts, b, rfl, rfl, by simp, rfl, rfl, h1, ?_⟩
        simp only [ReadsC]
        exact ⟨n, [.colon], rfl, .inr ⟨rfl, (css2_iff n).1 hn⟩, elemName_eq n⟩
      · rw [if_neg hn, pseudoClass_iff] at h
        obtain ⟨rfl, h1, rfl, rfl⟩ := h
        refine ⟨[.colon, .ident n], ts, b, rfl, rfl, by simp, rfl, rfl, h1, ?_⟩
        simp only [ReadsC]
        exact ⟨n, rfl, rfl, fun h => hn ((css2_iff n).2 h)⟩
    | func n args =>
      have hok : EntriesOK o D args := hts (.func n args) (by simp)
      simp only [liftL_cons, lift, simple] at h
      by_cases hn : isCss2 n = true
      · rw [if_pos hn] at h
        obtain ⟨h1, h2, h3, ⟨b', h4⟩, h5⟩ := pseudoElemFn_sound hok pre (.inr ⟨rfl, (css2_iff n).1 hn⟩) h
        exact ⟨[.colon, .func n args], ts, b', rfl, h5, by simp, h4, h2, h3, h1⟩
      · rw [if_neg hn] at h
        obtain ⟨h1, h2, h3, ⟨b', h4⟩, h5⟩ := pseudoClassFn_sound hok pre (fun h => hn ((css2_iff n).2 h)) h
        exact ⟨[.colon, .func n args], ts, b', rfl, h5, by simp, h4, h2, h3, h1⟩
    | colon =>
      cases ts with
      | nil => simp [lift, simple] at h
      | cons t ts =>
      cases t with
      | ident n =>
        simp only [liftL_cons, lift, simple] at h
        rw [pseudoElem_iff _ _ pre] at h
        obtain ⟨rfl, h1, rfl, rfl⟩ := h
        refine ⟨[.colon, .colon, .ident n], ts, b, rfl, rfl, by simp, rfl, rfl, h1, ?_⟩
        simp only [ReadsC]
        exact ⟨n, [.colon, .colon], rfl, .inl rfl, elemName_eq n⟩
      | func n args =>
        have hok : EntriesOK o D args := hts (.func n args) (by simp)
        simp only [liftL_cons, lift, simple] at h
        obtain ⟨h1, h2, h3, ⟨b', h4⟩, h5⟩ := pseudoElemFn_sound hok pre (.inl rfl) h
        exact ⟨[.colon, .colon, .func n args], ts, b', rfl, h5, by simp, h4, h2, h3, h1⟩
      | _ => simp [lift, simple] at h
    | _ => simp [lift, simple] at h
  | _ => simp [lift, simple] at h

theorem simple_complete {D : Drop} {o : Opts} {a r : List Tok} (hts : ∀ t ∈ a, OKTok o D t) {cx : Cx} {before pre : List Comp}
    (b : Bool) {c : Comp} (hs : c.isSimple = true) (ha : Allowed code cx before pre c) (hr : ReadsC code D o cx before c a) :
    ∃ b', simple o (stOf cx before b) (liftL o (a ++ r)) = .ok c (stOf cx (c :: before) b') (liftL o r) := by
  have fn2 : ∀ n args, a = [.colon, .colon, .func n args] →
      ∃ b', simple o (stOf cx before b) (liftL o (a ++ r)) = .ok c (stOf cx (c :: before) b') (liftL o r) := by
    rintro n args rfl
    have hok : EntriesOK o D args := hts (.func n args) (by simp)
    exact pseudoElemFn_complete (cs := [.colon, .colon]) hok b (liftL o r) hr hs ha (.inl rfl)
  have fn1 : ∀ n args, a = [.colon, .func n args] →
      ∃ b', simple o (stOf cx before b) (liftL o (a ++ r)) = .ok c (stOf cx (c :: before) b') (liftL o r) := by
    rintro n args rfl
    have hok : EntriesOK o D args := hts (.func n args) (by simp)
    by_cases hn : isCss2 n = true
    · obtain ⟨b', h⟩ := pseudoElemFn_complete (cs := [.colon]) hok b (liftL o r) hr hs ha (.inr ⟨rfl, (css2_iff n).1 hn⟩)
      exact ⟨b', by simp only [List.cons_append, List.nil_append, liftL_cons, lift, simple]; rw [if_pos hn, h]⟩
    · obtain ⟨b', h⟩ := pseudoClassFn_complete hok b (liftL o r) hr hs ha (fun h => hn ((css2_iff n).2 h))
      exact ⟨b', by simp only [List.cons_append, List.nil_append, liftL_cons, lift, simple]; rw [if_neg hn, h]⟩
  have np : NoPseudo before → (stOf cx before b).pseudo = false := (noPseudo_iff cx before b).1
  cases c with
  | comb k => simp [Comp.isSimple] at hs
  | type a b => simp [Comp.isSimple] at hs
  | nesting =>
    simp only [ReadsC] at hr
    subst hr
    exact ⟨true, by simp only [List.cons_append, List.nil_append, liftL_cons, lift, simple]; rw [stOf_plain _ _ _ rfl]; rfl⟩
  | id s =>
    simp only [ReadsC] at hr
    subst hr
    exact ⟨b, by simp only [List.cons_append, List.nil_append, liftL_cons, lift, simple]; rw [np ha, if_neg (by simp), stOf_plain _ _ _ rfl]⟩
  | cls s =>
    simp only [ReadsC] at hr
    subst hr
    exact ⟨b, by simp only [List.cons_append, List.nil_append, liftL_cons, lift, simple]; rw [np ha, if_neg (by simp), stOf_plain _ _ _ rfl]⟩
  | attr x =>
    simp only [ReadsC] at hr
    obtain ⟨y, rfl, hy⟩ := hr
    exact ⟨b, by simp only [List.cons_append, List.nil_append, liftL_cons, lift, simple]
                 rw [np ha, if_neg (by simp), stOf_plain _ _ _ rfl, (parseAttr_iff _ _).2 hy]⟩
  | pclass m =>
    simp only [ReadsC] at hr
    obtain ⟨n, rfl, rfl, hn⟩ := hr
    refine ⟨b, ?_⟩
    simp only [List.cons_append, List.nil_append, liftL_cons, lift, simple]
    rw [if_neg (fun h => hn ((css2_iff n).1 h)), pseudoClass_iff]
    exact ⟨rfl, ha, rfl, rfl⟩
  | pelem m =>
    simp only [ReadsC] at hr
    obtain ⟨n, cs, rfl, h1, h2⟩ := hr
    rw [← elemName_eq] at h2
    subst h2
    refine ⟨b, ?_⟩
    rcases h1 with rfl | ⟨rfl, h1⟩
    · simp only [List.cons_append, List.nil_append, liftL_cons, lift, simple]
      rw [pseudoElem_iff _ _ pre]
      exact ⟨rfl, ha, rfl, rfl⟩
    · simp only [List.cons_append, List.nil_append, liftL_cons, lift, simple]
      rw [if_pos ((css2_iff n).2 h1), pseudoElem_iff _ _ pre]
      exact ⟨rfl, ha, rfl, rfl⟩
  | pclassFn m x => have hr' := hr; simp only [ReadsC] at hr'; obtain ⟨w, h, _⟩ := hr'; exact fn1 _ _ h
  | logical f l => have hr' := hr; simp only [ReadsC] at hr'; obtain ⟨w, _, _, h, _⟩ := hr'; exact fn1 _ _ h
  | has l => have hr' := hr; simp only [ReadsC] at hr'; obtain ⟨w, _, _, h, _⟩ := hr'; exact fn1 _ _ h
  | nth t x y => have hr' := hr; simp only [ReadsC] at hr'; obtain ⟨w, _, _, h, _⟩ := hr'; exact fn1 _ _ h
  | nthOf t x y l => have hr' := hr; simp only [ReadsC] at hr'; obtain ⟨w, _, _, _, _, _, h, _⟩ := hr'; exact fn1 _ _ h
  | hostFn s => have hr' := hr; simp only [ReadsC] at hr'; obtain ⟨w, _, _, h, _⟩ := hr'; exact fn1 _ _ h
  | pelemFn m x =>
    have hr' := hr
    simp only [ReadsC] at hr'
    obtain ⟨w, cs, h, h1, _⟩ := hr'
    rcases h1 with rfl | ⟨rfl, _⟩
    · exact fn2 _ _ h
    · exact fn1 _ _ h
  | cue region s => have hr' := hr; simp only [ReadsC] at hr'; obtain ⟨w, _, _, h, _⟩ := hr'; exact fn2 _ _ h
  | part l => have hr' := hr; simp only [ReadsC] at hr'; obtain ⟨w, _, h, _⟩ := hr'; exact fn2 _ _ h
  | slotted s => have hr' := hr; simp only [ReadsC] at hr'; obtain ⟨w, _, _, h, _⟩ := hr'; exact fn2 _ _ h

end Verif.SelParse
