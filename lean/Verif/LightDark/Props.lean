import Verif.LightDark.Spec
/-! # Compiling `light-dark()` keeps the used colour -/
namespace Verif.LightDark

/-! ## `color-scheme` reads back -/

/-- C200: every value of `color-scheme` that can be written is read back. -/
theorem parse_print (s : Scheme) : parseScheme (printScheme s) = some (s, []) := by
  obtain ⟨l, d, o⟩ := s
  cases l <;> cases d <;> cases o <;> rfl

theorem schemeLoop_spec : ∀ (ts : List Kw) (s : Scheme) (any : Bool), ∃ p, ts = p ++ (schemeLoop s any ts).2.2 ∧ (∀ k ∈ p, k = .light ∨ k = .dark) ∧
    ((schemeLoop s any ts).1.light = true ↔ s.light = true ∨ Kw.light ∈ p) ∧
    ((schemeLoop s any ts).1.dark = true ↔ s.dark = true ∨ Kw.dark ∈ p) ∧ (schemeLoop s any ts).1.only = s.only ∧
    ((schemeLoop s any ts).2.1 = true ↔ any = true ∨ p ≠ [])
  | [], s, any => ⟨[], by simp [schemeLoop]⟩
  | k :: r, s, any => by
    cases k with
    | light =>
      obtain ⟨p, h1, h2, h3, h4, h5, h6⟩ := schemeLoop_spec r { s with light := true } true
      refine ⟨.light :: p, ?_, ?_, ?_, ?_, ?_, ?_⟩
      · simp only [schemeLoop, List.cons_append]; rw [← h1]
      · exact fun k hk => (List.mem_cons.1 hk).elim (fun e => .inl e) (h2 k)
      · simp only [schemeLoop]; rw [h3]; simp
      · simp only [schemeLoop]; rw [h4]; simp
      · simp only [schemeLoop]; rw [h5]
      · simp only [schemeLoop]; rw [h6]; simp
    | dark =>
      obtain ⟨p, h1, h2, h3, h4, h5, h6⟩ := schemeLoop_spec r { s with dark := true } true
      refine ⟨.dark :: p, ?_, ?_, ?_, ?_, ?_, ?_⟩
      · simp only [schemeLoop, List.cons_append]; rw [← h1]
      · exact fun k hk => (List.mem_cons.1 hk).elim (fun e => .inr e) (h2 k)
      · simp only [schemeLoop]; rw [h3]; simp
      · simp only [schemeLoop]; rw [h4]; simp
      · simp only [schemeLoop]; rw [h5]
      · simp only [schemeLoop]; rw [h6]; simp
    | normal => exact ⟨[], by simp [schemeLoop]⟩
    | only => exact ⟨[], by simp [schemeLoop]⟩
    | other => exact ⟨[], by simp [schemeLoop]⟩

/-- C200: a list of keywords is read, to its end, as a scheme only if it is `normal`, for the empty scheme, or consists of `light`, `dark` and at most
one `only` at one end; the scheme has what is in the list. -/
theorem parse_sound (ts : List Kw) (s : Scheme) (h : parseScheme ts = some (s, [])) :
    (ts = [.normal] ∧ s = {}) ∨
    (ts ≠ [] ∧ (∃ p, (∀ k ∈ p, k = .light ∨ k = .dark) ∧ (ts = p ∨ ts = .only :: p ∨ ts = p ++ [.only])) ∧
      (s.light = true ↔ Kw.light ∈ ts) ∧ (s.dark = true ↔ Kw.dark ∈ ts) ∧ (s.only = true ↔ Kw.only ∈ ts)) := by
  have ho : ∀ {p : List Kw}, (∀ k ∈ p, k = .light ∨ k = .dark) → Kw.only ∉ p := by
    intro p hp hk
    rcases hp _ hk with h | h <;> simp at h
  cases ts with
  | nil => simp [parseScheme, schemeLoop] at h
  | cons k r =>
    by_cases hn : k = .normal
    · subst hn
      simp only [parseScheme, Option.some.injEq, Prod.mk.injEq] at h
      exact .inl ⟨by rw [h.2], h.1.symm⟩
    · right
      refine ⟨by simp, ?_⟩
      by_cases hk : k = .only
      · subst hk
        obtain ⟨p, h1, h2, h3, h4, h5, h6⟩ := schemeLoop_spec r { only := true } true
        simp only [parseScheme, h5] at h
        simp only [true_or, iff_true] at h6
        rw [h6] at h
        simp only [if_true, Option.some.injEq, Prod.mk.injEq] at h
        obtain ⟨rfl, hr⟩ := h
        rw [hr, List.append_nil] at h1
        subst h1
        exact ⟨⟨r, h2, .inr (.inl rfl)⟩, by rw [h3]; simp, by rw [h4]; simp, by rw [h5]; simp⟩
      · obtain ⟨p, h1, h2, h3, h4, h5, h6⟩ := schemeLoop_spec (k :: r) {} false
        have hm : parseScheme (k :: r) = (match (schemeLoop {} false (k :: r)).1.only, (schemeLoop {} false (k :: r)).2.2 with
            | false, .only :: r' => some ({ (schemeLoop {} false (k :: r)).1 with only := true }, r')
            | _, _ => if (schemeLoop {} false (k :: r)).2.1 then some ((schemeLoop {} false (k :: r)).1, (schemeLoop {} false (k :: r)).2.2) else none) := by
          cases k <;> first | exact absurd rfl hn | exact absurd rfl hk | rfl
        rw [hm] at h
        split at h
        · next r' _ hr =>
          simp only [Option.some.injEq, Prod.mk.injEq] at h
          obtain ⟨rfl, rfl⟩ := h
          rw [hr] at h1
          rw [h1] at h3 h4 ⊢
          exact ⟨⟨p, h2, .inr (.inr rfl)⟩, by simp only [h3]; simp, by simp only [h4]; simp, by simp⟩
        · split at h
          · simp only [Option.some.injEq, Prod.mk.injEq] at h
            obtain ⟨rfl, hr⟩ := h
            rw [hr, List.append_nil] at h1
            rw [h1] at h3 h4 h5 ⊢
            refine ⟨⟨p, h2, .inl rfl⟩, by rw [h3]; simp, by rw [h4]; simp, ?_⟩
            rw [h5]
            simpa using ho h2
          · simp at h

example : parseScheme [.dark, .light, .dark, .only] = some (⟨true, true, true⟩, []) := by decide
/-- CSS does not allow `only` alone. -/
theorem only_alone_wrong : parseScheme [.only] = some (⟨false, false, true⟩, []) ∧ printScheme ⟨false, false, true⟩ = [.only] := by decide

/-! ## Colours -/

/-- C201: `light-dark()` in `light-dark()` is simplified to the same colour. -/
theorem mk_used {C : Type} (dark : Bool) (l d : Col C) : (mkLightDark l d).used dark = if dark then d.used dark else l.used dark := by
  cases dark <;> cases l <;> cases d <;> rfl

/-- C201: converting both halves converts the colour that is used. -/
theorem convert_used {C D : Type} (f : C → Option D) (dark : Bool) : ∀ (x : Col C) (y : Col D), x.convert f = some y → f (x.used dark) = some (y.used dark)
  | .plain c, y, h => by
    simp only [Col.convert, Option.map_eq_some_iff] at h
    obtain ⟨d, h1, rfl⟩ := h
    exact h1
  | .lightDark l d, y, h => by
    simp only [Col.convert] at h
    split at h
    · next a b h1 h2 =>
      cases h
      cases dark
      · exact convert_used f false l a h1
      · exact convert_used f true d b h2
    · simp at h

theorem pair_some {C : Type} {a b : Option (Col C)} {z : Col C} (h : pair a b = some z) : ∃ l d, a = some l ∧ b = some d ∧ z = .lightDark l d := by
  cases a <;> cases b <;> simp [pair] at h
  exact ⟨_, _, rfl, rfl, h.symm⟩

/-- C201: mixing two colours mixes the colours that are used. -/
theorem mix_used {C : Type} (f : C → C → Option C) (dark : Bool) (x y z : Col C) (h : mix f x y = some z) : f (x.used dark) (y.used dark) = some (z.used dark) := by
  match x, y with
  | .plain a, .plain b =>
    simp only [mix, Option.map_eq_some_iff] at h
    obtain ⟨d, h1, rfl⟩ := h
    exact h1
  | .plain a, .lightDark l d =>
    rw [mix] at h
    obtain ⟨p, q, h1, h2, rfl⟩ := pair_some h
    cases dark
    · have i := mix_used f false _ _ _ h1
      exact i
    · have i := mix_used f true _ _ _ h2
      exact i
  | .lightDark l d, .plain b =>
    rw [mix] at h
    obtain ⟨p, q, h1, h2, rfl⟩ := pair_some h
    cases dark
    · have i := mix_used f false _ _ _ h1
      exact i
    · have i := mix_used f true _ _ _ h2
      exact i
  | .lightDark l d, .lightDark l' d' =>
    rw [mix] at h
    obtain ⟨p, q, h1, h2, rfl⟩ := pair_some h
    cases dark
    · have i := mix_used f false _ _ _ h1
      exact i
    · have i := mix_used f true _ _ _ h2
      exact i
termination_by sizeOf x + sizeOf y

/-- C201: mixing fails only if some of the halves cannot be mixed: if all can, it succeeds. -/
theorem mix_total {C : Type} (f : C → C → C) (x y : Col C) : ∃ z, mix (fun a b => some (f a b)) x y = some z := by
  match x, y with
  | .plain a, .plain b => exact ⟨.plain (f a b), by simp [mix]⟩
  | .plain a, .lightDark l d =>
    obtain ⟨p, h1⟩ := mix_total f (.plain a) l
    obtain ⟨q, h2⟩ := mix_total f (.plain a) d
    exact ⟨.lightDark p q, by simp [mix, h1, h2, pair]⟩
  | .lightDark l d, .plain b =>
    obtain ⟨p, h1⟩ := mix_total f l (.plain b)
    obtain ⟨q, h2⟩ := mix_total f d (.plain b)
    exact ⟨.lightDark p q, by simp [mix, h1, h2, pair]⟩
  | .lightDark l d, .lightDark l' d' =>
    obtain ⟨p, h1⟩ := mix_total f l l'
    obtain ⟨q, h2⟩ := mix_total f d d'
    exact ⟨.lightDark p q, by simp [mix, h1, h2, pair]⟩
termination_by sizeOf x + sizeOf y

/-! ## Variables -/

/-- The values of the variables for a scheme: one is `initial`, the other a space. -/
def value (dark : Bool) : Which → VarVal
  | .light => if dark then .space else .initial
  | .dark => if dark then .initial else .space

theorem substAll_append {C : Type} (v : Which → VarVal) : ∀ xs ys : List (Text C), substAll v (xs ++ ys) = substAll v xs ++ substAll v ys
  | [], _ => rfl
  | x :: xs, ys => by simp [substAll, substAll_append v xs ys]

/-- After substitution, the printed colour is the one that is used. -/
theorem subst_print {C : Type} (dark : Bool) : ∀ x : Col C, substAll (value dark) x.print = [x.used dark]
  | .plain c => rfl
  | .lightDark l d => by
    have h1 := subst_print dark l
    have h2 := subst_print dark d
    cases dark
    · simp only [Col.print, substAll, Text.subst, value]
      simp [h1, Col.used]
    · simp only [Col.print, substAll, Text.subst, value]
      simp [h2, Col.used]

/-! ## The cascade -/

/-- The variable that a scheme sets in its block. -/
def mainValue (s : Scheme) (w : Which) : VarVal := value (!s.light && s.dark) w

theorem handle_vars (w : Which) (i : Item) (hv : ∀ v, i ≠ .var w v) (hn : ∀ s, i = .scheme s → s.light = true ∨ s.dark = true) :
    (handle i).1.filterMap (asVar w) = ([i].filterMap asScheme).map (mainValue · w) := by
  cases i with
  | scheme s =>
    have := hn s rfl
    obtain ⟨l, d, o⟩ := s
    cases l <;> cases d <;> cases w <;> simp_all [handle, asVar, asScheme, mainValue, value]
  | var w' v =>
    have : w' ≠ w := fun e => hv v (by rw [e])
    simp [handle, asVar, asScheme, this]
  | other n => rfl

theorem expand_vars (w : Which) : ∀ (is : List Item), (∀ i ∈ is, ∀ v, i ≠ .var w v) → (∀ s ∈ schemes is, s.light = true ∨ s.dark = true) →
    (expand is).filterMap (asVar w) = (schemes is).map (mainValue · w)
  | [], _, _ => rfl
  | i :: is, hv, hn => by
    have h1 := handle_vars w i (hv i (by simp)) (fun s e => hn s (by simp [schemes, e, asScheme]))
    have h2 := expand_vars w is (fun i hi => hv i (by simp [hi])) (fun s hs => hn s (by
      simp only [schemes, List.filterMap_cons]
      split
      · exact hs
      · exact List.mem_cons_of_mem _ hs))
    simp only [expand, schemes] at h2 ⊢
    rw [List.flatMap_cons, List.filterMap_append, h1, h2, ← List.map_append, ← List.filterMap_append]
    rfl

theorem expand_schemes : ∀ (is : List Item), (expand is).filterMap asScheme = schemes is
  | [] => rfl
  | i :: is => by
    have h := expand_schemes is
    simp only [expand, schemes] at h ⊢
    rw [List.flatMap_cons, List.filterMap_append, h]
    cases i with
    | scheme s =>
      obtain ⟨l, d, o⟩ := s
      cases l <;> cases d <;> rfl
    | var w v => rfl
    | other n => rfl

theorem dark_vars (w : Which) : ∀ (is : List Item), ((is.flatMap fun i => (handle i).2).filterMap (asVar w)) =
    ((schemes is).filter fun s => s.light && s.dark).map fun _ => value true w
  | [] => rfl
  | i :: is => by
    have h := dark_vars w is
    simp only [schemes] at h ⊢
    rw [List.flatMap_cons, List.filterMap_append, h]
    cases i with
    | scheme s =>
      obtain ⟨l, d, o⟩ := s
      cases l <;> cases d <;> cases w <;> rfl
    | var w v => rfl
    | other n => rfl

theorem dark_schemes : ∀ (is : List Item), (is.flatMap fun i => (handle i).2).filterMap asScheme = []
  | [] => rfl
  | i :: is => by
    rw [List.flatMap_cons, List.filterMap_append, dark_schemes is, List.append_nil]
    cases i with
    | scheme s =>
      obtain ⟨l, d, o⟩ := s
      cases l <;> cases d <;> rfl
    | var w v => rfl
    | other n => rfl

/-- The declarations of a block that apply after minification: of the block, and of the dark rule. -/
theorem applying_cons (p : Bool) (b : Block) (bs : List Block) : ∃ ds : List Block,
    applying p ((b :: bs).flatMap minifyRule) = ⟨expand b.decls, expand b.imp⟩ :: ds ++ applying p (bs.flatMap minifyRule) ∧
      ds.flatMap (·.decls) = (if p then darkItems b else []) ∧ ds.flatMap (·.imp) = [] := by
  simp only [List.flatMap_cons, applying, List.filter_append, List.map_append, minifyRule]
  cases hd : (darkItems b).isEmpty
  · cases p
    · exact ⟨[], by simp, by simp, rfl⟩
    · exact ⟨[⟨darkItems b, []⟩], by simp, by simp, rfl⟩
  · refine ⟨[], by simp, ?_, rfl⟩
    have : darkItems b = [] := by simpa using hd
    simp [this]

theorem applying_imp (p : Bool) : ∀ bs : List Block, (applying p (bs.flatMap minifyRule)).flatMap (·.imp) = bs.flatMap fun b => expand b.imp
  | [] => rfl
  | b :: bs => by
    obtain ⟨ds, h1, _, h3⟩ := applying_cons p b bs
    rw [h1, List.flatMap_append, List.flatMap_cons, h3, applying_imp p bs, List.append_nil, List.flatMap_cons]

theorem applying_decls (p : Bool) : ∀ bs : List Block, (applying p (bs.flatMap minifyRule)).flatMap (·.decls) =
    bs.flatMap fun b => expand b.decls ++ if p then darkItems b else []
  | [] => rfl
  | b :: bs => by
    obtain ⟨ds, h1, h2, _⟩ := applying_cons p b bs
    rw [h1, List.flatMap_append, List.flatMap_cons, h2, applying_decls p bs, List.flatMap_cons]

/-- `color-scheme` itself is as before, in every block. -/
theorem scheme_same (p : Bool) (bs : List Block) : cascaded asScheme (applying p (bs.flatMap minifyRule)) = cascaded asScheme bs := by
  have h1 : ∀ bs : List Block, (bs.flatMap fun b => expand b.decls ++ if p then darkItems b else []).filterMap asScheme =
      (bs.flatMap (·.decls)).filterMap asScheme := by
    intro bs
    induction bs with
    | nil => rfl
    | cons b bs ih =>
      have := dark_schemes (b.imp ++ b.decls)
      have h2 : (if p then darkItems b else []).filterMap asScheme = [] := by
        split
        · exact this
        · rfl
      rw [List.flatMap_cons, List.flatMap_cons, List.filterMap_append, List.filterMap_append, List.filterMap_append, ih, expand_schemes, h2,
        List.append_nil]
      rfl
  have h2 : ∀ bs : List Block, (bs.flatMap fun b => expand b.imp).filterMap asScheme = (bs.flatMap (·.imp)).filterMap asScheme := by
    intro bs
    induction bs with
    | nil => rfl
    | cons b bs ih => rw [List.flatMap_cons, List.flatMap_cons, List.filterMap_append, List.filterMap_append, ih, expand_schemes]; rfl
  simp only [cascaded, applying_decls, applying_imp, List.filterMap_append, h1, h2]

/-- The last of a concatenation depends on the last of each part. -/
theorem getLast_flatMap {α β γ : Type} (f : α → List β) (g : α → List γ) (v : β → γ) : ∀ (bs : List α),
    (∀ b ∈ bs, (g b).getLast? = (f b).getLast?.map v) → (bs.flatMap g).getLast? = (bs.flatMap f).getLast?.map v
  | [], _ => rfl
  | b :: bs, h => by
    rw [List.flatMap_cons, List.flatMap_cons, List.getLast?_append, List.getLast?_append, getLast_flatMap f g v bs fun b hb => h b (by simp [hb]),
      h b (by simp)]
    cases (bs.flatMap f).getLast? <;> simp

theorem filterMap_flatMap' {α β γ : Type} (f : β → Option γ) (g : α → List β) : ∀ l : List α,
    (l.flatMap g).filterMap f = l.flatMap fun a => (g a).filterMap f
  | [] => rfl
  | a :: l => by simp [filterMap_flatMap' f g l]

/-- The value that a variable must have. -/
theorem main_value (p : Bool) (s : Scheme) (w : Which) (h : ¬ (s.light = true ∧ s.dark = true)) : mainValue s w = value (usedDark p s) w := by
  obtain ⟨l, d, o⟩ := s
  cases l <;> cases d <;> cases w <;> simp_all [mainValue, value, usedDark]

/-- The variables win in the cascade exactly with the scheme. -/
theorem var_same (p : Bool) (w : Which) (bs : List Block) (h : ∀ b ∈ bs, Fine b) :
    cascaded (asVar w) (applying p (bs.flatMap minifyRule)) = (cascaded asScheme bs).map fun s => value (usedDark p s) w := by
  simp only [cascaded, applying_decls, applying_imp, List.filterMap_append, List.getLast?_append, filterMap_flatMap']
  have himp : (bs.flatMap fun b => (expand b.imp).filterMap (asVar w)).getLast? =
      (bs.flatMap fun b => b.imp.filterMap asScheme).getLast?.map fun s => value (usedDark p s) w := by
    refine getLast_flatMap _ _ _ _ fun b hb => ?_
    have hf := h b hb
    rw [expand_vars w b.imp (fun i hi v e => hf.noVar w v (by rw [← e]; simp [hi])) (fun s hs => hf.notNormal s (by
      simp only [schemes, List.filterMap_append, List.mem_append] at hs ⊢; exact .inr hs)), List.getLast?_map]
    cases hl : (b.imp.filterMap asScheme).getLast? with
    | none => simp [schemes, hl]
    | some s =>
      have hm : s ∈ schemes b.imp := List.mem_of_getLast? hl
      simp only [schemes, hl, Option.map_some]
      rw [main_value p s w (hf.important s hm)]
  rw [himp]
  cases hi : (bs.flatMap fun b => b.imp.filterMap asScheme).getLast? with
  | some s => simp
  | none =>
    simp only [Option.map_none, Option.none_or]
    refine getLast_flatMap _ _ _ _ fun b hb => ?_
    have hf := h b hb
    have himp0 : schemes b.imp = [] := by
      have := List.getLast?_eq_none_iff.1 hi
      rw [List.flatMap_eq_nil_iff] at this
      exact this b hb
    rw [expand_vars w b.decls (fun i hi v e => hf.noVar w v (by rw [← e]; simp [hi])) (fun s hs => hf.notNormal s (by
      simp only [schemes, List.filterMap_append, List.mem_append] at hs ⊢; exact .inl hs))]
    rw [List.getLast?_append, List.getLast?_map]
    have hdark : (darkItems b).filterMap (asVar w) = ((schemes b.decls).filter fun s => s.light && s.dark).map fun _ => value true w := by
      rw [darkItems, dark_vars]
      have : schemes (b.imp ++ b.decls) = schemes b.decls := by
        simp only [schemes, List.filterMap_append] at himp0 ⊢
        rw [himp0, List.nil_append]
      rw [this]
    cases hl : (schemes b.decls).getLast? with
    | none =>
      have h0 : schemes b.decls = [] := List.getLast?_eq_none_iff.1 hl
      have hl' : (b.decls.filterMap asScheme).getLast? = none := hl
      rw [hl']
      cases p <;> simp [hdark, h0]
    | some s =>
      have hm : s ∈ schemes b.decls := List.mem_of_getLast? hl
      have hl' : (b.decls.filterMap asScheme).getLast? = some s := hl
      rw [hl']
      simp only [Option.map_some]
      by_cases hboth : s.light = true ∧ s.dark = true
      · cases p
        · simp only [Bool.false_eq_true, if_false, List.filterMap_nil, List.getLast?_nil, Option.none_or]
          simp [mainValue, usedDark, hboth]
        · have hne : ((schemes b.decls).filter fun s => s.light && s.dark) ≠ [] := by
            intro e
            have : s ∈ (schemes b.decls).filter fun s => s.light && s.dark := by simp [hm, hboth]
            rw [e] at this
            simp at this
          have : ((darkItems b).filterMap (asVar w)).getLast? = some (value true w) := by
            rw [hdark, List.getLast?_map]
            cases hx : ((schemes b.decls).filter fun s => s.light && s.dark).getLast? with
            | none => exact absurd (List.getLast?_eq_none_iff.1 hx) hne
            | some x => rfl
          simp only [if_true, this, Option.some_or]
          simp [usedDark, hboth]
      · have hnone : ((schemes b.decls).filter fun s => s.light && s.dark) = [] := by
          rw [List.filter_eq_nil_iff]
          intro x hx hb'
          simp only [Bool.and_eq_true] at hb'
          exact hboth (hf.last ⟨x, hx, hb'⟩ s (by rw [hl]; rfl))
        have : ((if p then darkItems b else []).filterMap (asVar w)).getLast? = none := by
          cases p
          · rfl
          · simp [hdark, hnone]
        rw [this, Option.none_or, main_value p s w hboth]

/-! ## The whole chain -/

theorem computed_same (p : Bool) (w : Which) : ∀ (chain : List (List Block)) (s : Scheme), (∀ bs ∈ chain, ∀ b ∈ bs, Fine b) →
    (chain.map fun bs => applying p (bs.flatMap minifyRule)).foldl (fun parent rules => (cascaded (asVar w) rules).getD parent) (value (usedDark p s) w) =
      value (usedDark p (chain.foldl (fun parent rules => (cascaded asScheme rules).getD parent) s)) w
  | [], _, _ => rfl
  | bs :: chain, s, h => by
    simp only [List.map_cons, List.foldl_cons]
    rw [var_same p w bs (h bs (by simp))]
    cases hc : cascaded asScheme bs with
    | none => exact computed_same p w chain s fun b hb => h b (by simp [hb])
    | some s' => exact computed_same p w chain s' fun b hb => h b (by simp [hb])

/-- C202: for every element, at the end of any chain of elements from the root, each with any list of matching rules: if `color-scheme` is declared for
the root and all blocks are as `Fine` says, every colour is, after `light-dark()` and `color-scheme` have been compiled and the variables have been
substituted, the colour that `light-dark()` would be, whatever the user prefers. -/
theorem light_dark_same_partial {C : Type} (prefersDark : Bool) (root : List Block) (chain : List (List Block))
    (hf : ∀ rules ∈ root :: chain, ∀ b ∈ rules, Fine b) (hroot : (cascaded asScheme root).isSome) (x : Col C) :
    substAll (fun w => computed (asVar w) .initial ((root :: chain).map fun rules => applying prefersDark (rules.flatMap minifyRule))) x.print =
      [x.used (usedDark prefersDark (computed asScheme {} (root :: chain)))] := by
  obtain ⟨s, hs⟩ := Option.isSome_iff_exists.1 hroot
  have : (fun w => computed (asVar w) .initial ((root :: chain).map fun rules => applying prefersDark (rules.flatMap minifyRule))) =
      value (usedDark prefersDark (computed asScheme {} (root :: chain))) := by
    funext w
    simp only [computed, List.map_cons, List.foldl_cons]
    rw [var_same prefersDark w root (hf root (by simp)), hs]
    exact computed_same prefersDark w chain s fun b hb => hf b (by simp [hb])
  rw [this, subst_print]

/-- C202: the used colour scheme itself, and with it the controls and scroll bars, stays, in all blocks. -/
theorem color_scheme_same (prefersDark : Bool) (chain : List (List Block)) :
    computed asScheme {} (chain.map fun rules => applying prefersDark (rules.flatMap minifyRule)) = computed asScheme {} chain := by
  simp only [computed]
  generalize ({} : Scheme) = s
  induction chain generalizing s with
  | nil => rfl
  | cons bs chain ih => simp only [List.map_cons, List.foldl_cons, scheme_same, ih]

/-! ## Examples and what is wrong -/

/-- `light`, `dark`, `light dark`. -/
def light : Scheme := ⟨true, false, false⟩
/-- `dark`. -/
def dark : Scheme := ⟨false, true, false⟩
/-- `light dark`. -/
def both : Scheme := ⟨true, true, false⟩

/-- `light-dark(1, 2)` for an element, after compilation. -/
def compiled (p : Bool) (chain : List (List Block)) : List Nat :=
  substAll (fun w => computed (asVar w) .initial (chain.map fun rules => applying p (rules.flatMap minifyRule))) (Col.print (.lightDark (.plain 1) (.plain 2)))

/-- The same without compilation. -/
def native (p : Bool) (chain : List (List Block)) : Nat := (Col.lightDark (.plain 1) (.plain 2)).used (usedDark p (computed asScheme {} chain))

theorem fine_one (s : Scheme) (h : s.light = true ∨ s.dark = true) : Fine ⟨[.other 0, .scheme s], []⟩ where
  noVar := by simp
  notNormal := by simp [schemes, asScheme, h]
  important := by simp [schemes]
  last := by
    have : schemes [.other 0, .scheme s] = [s] := rfl
    simp [this]

/-- A root with `light dark`, and an element for which `dark` is overridden by `light dark` in a later rule. -/
example : compiled true [[⟨[.other 0, .scheme both], []⟩], [⟨[.other 0, .scheme light], []⟩, ⟨[.other 0, .scheme both], []⟩]] = [2] ∧
    compiled false [[⟨[.other 0, .scheme both], []⟩], [⟨[.other 0, .scheme dark], []⟩, ⟨[.other 0, .scheme both], []⟩]] = [1] := by decide

/-- Without `color-scheme`, `light-dark()` is its first colour; after compilation, both colours are there, which is invalid. -/
theorem no_scheme_wrong : native false [[]] = 1 ∧ compiled false [[]] = [1, 2] := by decide

/-- `normal` does not reset the variables: an element in a dark one stays dark. -/
theorem normal_wrong : native false [[⟨[.scheme dark], []⟩], [⟨[.scheme {}], []⟩]] = 1 ∧
    compiled false [[⟨[.scheme dark], []⟩], [⟨[.scheme {}], []⟩]] = [2] := by decide

/-- The dark rule is not important, so `color-scheme: light dark !important` is always light. -/
theorem important_wrong : native true [[⟨[], [.scheme both]⟩]] = 2 ∧ compiled true [[⟨[], [.scheme both]⟩]] = [1] := by decide

/-- The dark rule of a declaration that is overridden in the same block still applies: `color-scheme: light dark; color-scheme: light` is dark. -/
theorem overridden_wrong : native true [[⟨[.scheme both, .scheme light], []⟩]] = 1 ∧ compiled true [[⟨[.scheme both, .scheme light], []⟩]] = [2] := by decide

end Verif.LightDark
