import Verif.Named.Lemmas
/-! C210-C213: `@property` and `@font-feature-values`. -/

namespace Verif.Named

variable {D S : Type}

/-! ### C210 -/

theorem registered_append (valid : D → Bool) (n : Nat) (a b : List (Item D)) :
    registered valid n (a ++ b) = (registered valid n b).or (registered valid n a) := by
  induction a with
  | nil => simp [registered]
  | cons x a ih =>
    cases x with
    | ffv f bd => simpa [registered] using ih
    | property m d =>
      simp only [List.cons_append, registered, ih]
      cases registered valid n b <;> simp

/-- No group of the list has a `@property` rule for `n`. -/
def NoGroupProp (n : Nat) (rs : List (Rule D S)) : Prop :=
  ∀ g is, Rule.group g is ∈ rs → ∀ m d, Item.property m d ∈ is → m ≠ n

theorem registered_none (valid : D → Bool) (n : Nat) (is : List (Item D)) (h : ∀ m d, Item.property m d ∈ is → m ≠ n) :
    registered valid n is = none := by
  induction is with
  | nil => rfl
  | cons x is ih =>
    have ih' := ih (fun m d hm => h m d (List.mem_cons_of_mem _ hm))
    cases x with
    | ffv f b => simpa [registered] using ih'
    | property m d =>
      have := h m d List.mem_cons_self
      simp [registered, ih', this]

theorem registered_active_none (valid : D → Bool) (env : Nat → Bool) (n : Nat) (rs : List (Rule D S))
    (h1 : NoGroupProp n rs) (h2 : ∀ m d, Rule.item (.property m d) ∈ rs → m ≠ n) :
    registered valid n (active env rs) = none := by
  apply registered_none
  intro m d hm
  induction rs with
  | nil => simp [active] at hm
  | cons r rs ih =>
    have ih' := ih (fun g is hg => h1 g is (List.mem_cons_of_mem _ hg)) (fun m d hg => h2 m d (List.mem_cons_of_mem _ hg))
    cases r with
    | item i =>
      simp only [active, List.mem_cons] at hm
      rcases hm with rfl | hm
      · exact h2 m d List.mem_cons_self
      · exact ih' hm
    | group g is =>
      simp only [active, List.mem_append] at hm
      rcases hm with hm | hm
      · by_cases he : env g = true
        · simp only [he, if_true] at hm
          exact h1 g is List.mem_cons_self m d hm
        · simp only [he] at hm; cases hm
      · exact ih' hm
    | style s => exact ih' hm
    | ignored => exact ih' hm
    | other => exact ih' hm

/-- The invariant of the loop for `@property`. -/
structure PInv (st : St D S) : Prop where
  /-- An entry points to the rule. -/
  ptr : ∀ n i, IMap.get n st.props = some i → ∃ d, st.rules[i]? = some (Rule.item (.property n d))
  /-- Every rule has an entry. -/
  all : ∀ (i n : Nat) (d : D), st.rules[i]? = some (Rule.item (.property n d)) → IMap.get n st.props = some i

theorem getElem?_push {α : Type} (l : List α) (a x : α) (i : Nat) :
    (l ++ [a])[i]? = some x ↔ l[i]? = some x ∨ (i = l.length ∧ a = x) := by
  rcases Nat.lt_trichotomy i l.length with hl | hl | hl
  · rw [List.getElem?_append_left hl]
    constructor
    · exact Or.inl
    · rintro (h | ⟨h, _⟩)
      · exact h
      · omega
  · subst hl
    simp
  · rw [List.getElem?_eq_none (by simp; omega), List.getElem?_eq_none (Nat.le_of_lt hl)]
    simp; omega

theorem getElem?_set_iff {α : Type} (l : List α) (k : Nat) (a x y : α) (i : Nat) (hk : l[k]? = some y) :
    (l.set k a)[i]? = some x ↔ (i ≠ k ∧ l[i]? = some x) ∨ (i = k ∧ a = x) := by
  have hlt : k < l.length := by
    rcases Nat.lt_or_ge k l.length with hl | hl
    · exact hl
    · rw [List.getElem?_eq_none hl] at hk; cases hk
  by_cases h : i = k
  · subst h
    simp [List.getElem?_set_self hlt]
  · rw [List.getElem?_set_ne (fun e => h e.symm)]
    simp [h]

theorem pinv_push (st : St D S) (r : Rule D S) (fs : List Nat) (h : PInv st) (hr : ∀ n d, r ≠ Rule.item (.property n d)) :
    PInv { st with rules := st.rules ++ [r], ffvs := fs } := by
  constructor
  · intro n i hg
    obtain ⟨d, hd⟩ := h.ptr n i hg
    exact ⟨d, (getElem?_push _ _ _ _).2 (Or.inl hd)⟩
  · intro i n d hi
    rcases (getElem?_push _ _ _ _).1 hi with hi | ⟨_, hi⟩
    · exact h.all i n d hi
    · exact absurd hi (hr n d)

theorem findFfv_some (rs : List (Rule D S)) (F : List Nat) (is : List Nat) (i : Nat) (a : Body)
    (h : findFfv rs F is = some (i, a)) : i ∈ is ∧ rs[i]? = some (Rule.item (.ffv F a)) := by
  induction is with
  | nil => cases h
  | cons j is ih =>
    unfold findFfv at h
    split at h
    · rename_i f b hj
      by_cases hf : f = F
      · simp only [hf, if_true, Option.some.injEq, Prod.mk.injEq] at h
        obtain ⟨rfl, rfl⟩ := h
        exact ⟨List.mem_cons_self, hf ▸ hj⟩
      · simp only [hf, if_false] at h
        exact ⟨List.mem_cons_of_mem _ (ih h).1, (ih h).2⟩
    · exact ⟨List.mem_cons_of_mem _ (ih h).1, (ih h).2⟩

theorem step_ffv (c : Ctx S) (st : St D S) (F : List Nat) (b : Body) : step c st (.item (.ffv F b)) =
    match findFfv st.rules F st.ffvs with
    | some (i, a) => { st with rules := st.rules.set i (.item (.ffv F (a.merge b))) }
    | none => { st with rules := st.rules ++ [.item (.ffv F b)], ffvs := st.ffvs ++ [st.rules.length] } := rfl

theorem step_prop (c : Ctx S) (st : St D S) (n : Nat) (d : D) : step c st (.item (.property n d)) =
    if c.unused n then st
    else
      match IMap.get n st.props with
      | some i => { st with rules := st.rules.set i (.item (.property n d)) }
      | none =>
        { st with rules := st.rules ++ [.item (.property n d)], props := IMap.insert n st.rules.length st.props } := rfl

theorem pinv_step (c : Ctx S) (st : St D S) (r : Rule D S) (h : PInv st) : PInv (step c st r) := by
  cases r with
  | style s =>
    have hs := shuf_style c s st.rules
    constructor
    · intro n i hg
      obtain ⟨d, hd⟩ := h.ptr n i hg
      exact ⟨d, (hs.keep i _ rfl).1 hd⟩
    · intro i n d hi
      exact h.all i n d ((hs.keep i _ rfl).2 hi)
  | group g is => exact pinv_push st _ st.ffvs h (by intro n d e; cases e)
  | ignored => exact pinv_push st _ st.ffvs h (by intro n d e; cases e)
  | other => exact pinv_push st _ st.ffvs h (by intro n d e; cases e)
  | item it =>
    cases it with
    | ffv F b =>
      rw [step_ffv]
      split
      · rename_i i a hf
        obtain ⟨_, hi⟩ := findFfv_some _ _ _ _ _ hf
        constructor
        · intro n j hg
          obtain ⟨d, hd⟩ := h.ptr n j hg
          refine ⟨d, (getElem?_set_iff _ _ _ _ _ _ hi).2 (Or.inl ⟨?_, hd⟩)⟩
          rintro rfl
          rw [hi] at hd; cases hd
        · intro j n d hj
          rcases (getElem?_set_iff _ _ _ _ _ _ hi).1 hj with ⟨_, hj⟩ | ⟨_, hj⟩
          · exact h.all j n d hj
          · cases hj
      · exact pinv_push st _ _ h (by intro n d e; cases e)
    | property n d =>
      rw [step_prop]
      by_cases hu : c.unused n = true
      · simp only [hu, if_true]; exact h
      · simp only [hu]
        simp only [Bool.false_eq_true, if_false]
        split
        · rename_i i hg
          obtain ⟨d0, hi⟩ := h.ptr n i hg
          constructor
          · intro m j hm
            obtain ⟨d', hd⟩ := h.ptr m j hm
            by_cases hj : j = i
            · subst hj
              have e : m = n := by rw [hi] at hd; injection hd with e; injection e with e; injection e with e; exact e.symm
              subst e
              exact ⟨d, (getElem?_set_iff _ _ _ _ _ _ hi).2 (Or.inr ⟨rfl, rfl⟩)⟩
            · exact ⟨d', (getElem?_set_iff _ _ _ _ _ _ hi).2 (Or.inl ⟨hj, hd⟩)⟩
          · intro j m d' hj
            rcases (getElem?_set_iff _ _ _ _ _ _ hi).1 hj with ⟨_, hj⟩ | ⟨hj, e⟩
            · exact h.all j m d' hj
            · subst hj
              injection e with e; injection e with e1 e2
              subst e1; exact hg
        · rename_i hg
          constructor
          · intro m j hm
            by_cases hmn : n = m
            · subst hmn
              rw [get_insert_self] at hm
              cases hm
              exact ⟨d, (getElem?_push _ _ _ _).2 (Or.inr ⟨rfl, rfl⟩)⟩
            · rw [get_insert_ne _ _ hmn] at hm
              obtain ⟨d', hd⟩ := h.ptr m j hm
              exact ⟨d', (getElem?_push _ _ _ _).2 (Or.inl hd)⟩
          · intro j m d' hj
            rcases (getElem?_push _ _ _ _).1 hj with hj | ⟨hj', e⟩
            · have := h.all j m d' hj
              have hmn : n ≠ m := by rintro rfl; rw [hg] at this; cases this
              show IMap.get m (IMap.insert n _ _) = _
              rw [get_insert_ne _ _ hmn]; exact this
            · injection e with e; injection e with e1 e2
              subst e1
              rw [hj']
              exact get_insert_self _ _ _

theorem mem_set_sub {α : Type} {l : List α} {k : Nat} {a x : α} (h : x ∈ l.set k a) : x ∈ l ∨ x = a := List.mem_or_eq_of_mem_set h

/-- What one turn of the loop does to the registration of `n`. -/
theorem reg_step (c : Ctx S) (valid : D → Bool) (env : Nat → Bool) (n : Nat) (st : St D S) (r : Rule D S) (h : PInv st)
    (hn : NoGroupProp n st.rules) (hr : NoGroupProp n [r]) (hv : ∀ d, r = .item (.property n d) → valid d = true)
    (hu : c.unused n = false) :
    registered valid n (active env (step c st r).rules) =
        (registered valid n (active env [r])).or (registered valid n (active env st.rules)) ∧
      NoGroupProp n (step c st r).rules := by
  have hpush : ∀ r' : Rule D S, registered valid n (active env (st.rules ++ [r'])) =
      (registered valid n (active env [r'])).or (registered valid n (active env st.rules)) := by
    intro r'; rw [active_append, registered_append]
  have hgpush : NoGroupProp n (st.rules ++ [r]) := by
    intro g is hg
    rcases List.mem_append.1 hg with hg | hg
    · exact hn g is hg
    · exact hr g is hg
  cases r with
  | style s =>
    have hs := shuf_style c s st.rules
    constructor
    · show registered valid n (active env (styleStep c s st.rules)) = _
      rw [hs.active]
      simp [active, registered]
    · intro g is hg
      obtain ⟨i, hi⟩ := List.mem_iff_getElem?.1 hg
      exact hn g is (List.mem_iff_getElem?.2 ⟨i, (hs.keep i _ rfl).2 hi⟩)
  | group g is => exact ⟨hpush _, hgpush⟩
  | ignored => exact ⟨hpush _, hgpush⟩
  | other => exact ⟨hpush _, hgpush⟩
  | item it =>
    cases it with
    | ffv F b =>
      rw [step_ffv]
      split
      · rename_i i a hf
        obtain ⟨_, hi⟩ := findFfv_some _ _ _ _ _ hf
        obtain ⟨e1, e2⟩ := split_at _ _ _ hi (Rule.item (.ffv F (a.merge b)) : Rule D S)
        constructor
        · show registered valid n (active env (st.rules.set i _)) = _
          rw [e2]
          conv => rhs; rw [e1]
          rw [active_append, active_append, registered_append, registered_append]
          simp [active, registered]
        · intro g is hg
          rcases mem_set_sub hg with hg | hg
          · exact hn g is hg
          · cases hg
      · exact ⟨hpush _, hgpush⟩
    | property m d =>
      rw [step_prop]
      by_cases hm : m = n
      · subst hm
        simp only [hu]
        have hvd : valid d = true := hv d rfl
        have e0 : registered valid m (active env [(Rule.item (.property m d) : Rule D S)]) = some d := by
          simp [active, registered, hvd]
        simp only [Bool.false_eq_true, if_false]
        split
        · rename_i i hg
          obtain ⟨d0, hi⟩ := h.ptr m i hg
          obtain ⟨e1, e2⟩ := split_at _ _ _ hi (Rule.item (.property m d) : Rule D S)
          constructor
          · show registered valid m (active env (st.rules.set i _)) = _
            rw [e2, e0, active_append, registered_append]
            have hnone : registered valid m (active env (st.rules.drop (i + 1))) = none := by
              apply registered_active_none
              · intro g is hgm; exact hn g is (List.mem_of_mem_drop hgm)
              · rintro m' d' hmem rfl
                obtain ⟨k, hk⟩ := List.mem_iff_getElem?.1 hmem
                rw [List.getElem?_drop] at hk
                have := h.all _ _ _ hk
                rw [hg] at this
                injection this with this
                omega
            simp [active, registered, hnone, hvd]
          · intro g is hgm
            rcases mem_set_sub hgm with hgm | hgm
            · exact hn g is hgm
            · cases hgm
        · exact ⟨hpush _, hgpush⟩
      · by_cases hum : c.unused m = true
        · simp only [hum, if_true]
          exact ⟨by simp [active, registered, hm], hn⟩
        · simp only [hum]
          simp only [Bool.false_eq_true, if_false]
          split
          · rename_i i hg
            obtain ⟨d0, hi⟩ := h.ptr m i hg
            obtain ⟨e1, e2⟩ := split_at _ _ _ hi (Rule.item (.property m d) : Rule D S)
            constructor
            · show registered valid n (active env (st.rules.set i _)) = _
              rw [e2]
              conv => rhs; rw [e1]
              rw [active_append, active_append, registered_append, registered_append]
              simp [active, registered, hm]
            · intro g is hgm
              rcases mem_set_sub hgm with hgm | hgm
              · exact hn g is hgm
              · cases hgm
          · exact ⟨hpush _, hgpush⟩

theorem reg_fold (c : Ctx S) (valid : D → Bool) (env : Nat → Bool) (n : Nat) (hu : c.unused n = false) (rs : List (Rule D S)) :
    ∀ st : St D S, PInv st → NoGroupProp n st.rules → NoGroupProp n rs →
      (∀ d, Rule.item (.property n d) ∈ rs → valid d = true) →
      registered valid n (active env (rs.foldl (step c) st).rules) =
        (registered valid n (active env rs)).or (registered valid n (active env st.rules)) ∧ PInv (rs.foldl (step c) st) := by
  induction rs with
  | nil => intro st h _ _ _; exact ⟨by simp [active, registered], h⟩
  | cons r rs ih =>
    intro st h hn hrs hv
    obtain ⟨h1, h2⟩ := reg_step c valid env n st r h hn (fun g is hg => hrs g is (by simp at hg; simp [hg]))
      (fun d e => hv d (by simp [e])) hu
    obtain ⟨h3, h4⟩ := ih (step c st r) (pinv_step c st r h) h2 (fun g is hg => hrs g is (List.mem_cons_of_mem _ hg))
      (fun d hd => hv d (List.mem_cons_of_mem _ hd))
    refine ⟨?_, h4⟩
    show registered valid n (active env (rs.foldl (step c) (step c st r)).rules) = _
    rw [h3, h1]
    have : active env (r :: rs) = active env [r] ++ active env rs := active_append env [r] rs
    rw [this, registered_append]
    cases registered valid n (active env rs) <;> simp

theorem pinv_init : PInv (⟨[], [], []⟩ : St D S) := ⟨(by intro n i h; cases h), (by intro i n d h; simp at h)⟩

/-- C210 (partial): whatever the pass does with style rules, it keeps the registration of a custom property that is used, under
all conditions, if the `@property` rules for it are valid and not in group rules. Both are needed: `C210_invalid`, `C210_group`. -/
theorem C210_partial (c : Ctx S) (valid : D → Bool) (env : Nat → Bool) (n : Nat) (rs : List (Rule D S)) (hu : c.unused n = false)
    (hv : ∀ d, Rule.item (.property n d) ∈ rs → valid d = true)
    (hg : ∀ g is, Rule.group g is ∈ rs → ∀ m d, Item.property m d ∈ is → m ≠ n) :
    registered valid n (active env (minify c rs)) = registered valid n (active env rs) := by
  have := (reg_fold c valid env n hu rs ⟨[], [], []⟩ pinv_init (by intro g is h; cases h) hg hv).1
  simpa [active, registered, minify] using this

theorem pinv_fold (c : Ctx S) (rs : List (Rule D S)) : ∀ st : St D S, PInv st → PInv (rs.foldl (step c) st) := by
  induction rs with
  | nil => intro st h; exact h
  | cons r rs ih => intro st h; exact ih _ (pinv_step c st r h)

/-- C210: at the top level of the output there is at most one `@property` rule for a name. -/
theorem C210_once (c : Ctx S) (rs : List (Rule D S)) (n i j : Nat) (d d' : D)
    (hi : (minify c rs)[i]? = some (Rule.item (.property n d))) (hj : (minify c rs)[j]? = some (Rule.item (.property n d'))) : i = j := by
  have h := pinv_fold c rs ⟨[], [], []⟩ pinv_init
  have h1 := h.all i n d hi
  have h2 := h.all j n d' hj
  rw [h1] at h2
  exact Option.some.inj h2

/-- A context for the examples: style rules are numbers, equal ones are merged, nothing is unused but 9. -/
def c0 : Ctx Nat where
  drop := fun s => s == 7
  empty := fun _ => false
  merge := fun a b => if a = b then some a else none
  dup := fun _ => none
  extra := fun s => if s = 5 then [some 6, none] else []
  unused := fun n => n == 9

/-- `@property --1 {a} .x{} .x{} @property --2 {b} .y{} @property --1 {c} @property --9 {d}`. -/
def ex1 : List (Rule Nat Nat) :=
  [.item (.property 1 10), .style 3, .style 3, .item (.property 2 20), .style 5, .item (.property 1 30), .item (.property 9 40)]

example : minify c0 ex1 = [.item (.property 1 30), .style 3, .item (.property 2 20), .style 5, .style 6, .other] := rfl
example : registered (fun _ => true) 1 (active (fun _ => true) (minify c0 ex1)) = some 30 := rfl
example : registered (fun _ => true) 1 (active (fun _ => true) (minify c0 ex1)) =
    registered (fun _ => true) 1 (active (fun _ => true) ex1) :=
  C210_partial c0 _ _ 1 ex1 rfl (by intros; rfl) (by intro g is h; simp [ex1] at h)

/-- The full statement fails: lightningcss accepts `@property` rules that are invalid (say, `initial-value: 3em`, which depends on
the font size, with `syntax: "<length>"`), and lets one replace a valid rule. -/
theorem C210_invalid :
    registered (fun d => d != 30) 1 (active (fun _ => true) ex1) = some 10 ∧
      registered (fun d => d != 30) 1 (active (fun _ => true) (minify c0 ex1)) = none := by
  decide

/-- The full statement fails: `@property --1 {a} @media .. { @property --1 {b} } @property --1 {c}`: the last rule moves to the place
of the first, so the one in the group comes to win. -/
theorem C210_group :
    let rs : List (Rule Nat Nat) := [.item (.property 1 10), .group 0 [.property 1 20], .item (.property 1 30)]
    registered (fun _ => true) 1 (active (fun _ => true) rs) = some 30 ∧
      registered (fun _ => true) 1 (active (fun _ => true) (minify c0 rs)) = some 20 := by
  decide


/-! ### C211 -/

theorem feature_append (f t nm : Nat) (a b : List (Item D)) :
    featureValue f t nm (a ++ b) = (featureValue f t nm b).or (featureValue f t nm a) := by
  induction a with
  | nil => simp [featureValue]
  | cons x a ih =>
    cases x with
    | property m d => simpa [featureValue] using ih
    | ffv F bd =>
      simp only [List.cons_append, featureValue, ih]
      cases featureValue f t nm b <;> simp

/-- No group of the list has a `@font-feature-values` rule for `f`. -/
def NoGroupFfv (f : Nat) (rs : List (Rule D S)) : Prop :=
  ∀ g is, Rule.group g is ∈ rs → ∀ F b, Item.ffv F b ∈ is → f ∉ F

theorem feature_none (f t nm : Nat) (is : List (Item D)) (h : ∀ F b, Item.ffv F b ∈ is → f ∉ F) : featureValue f t nm is = none := by
  induction is with
  | nil => rfl
  | cons x is ih =>
    have ih' := ih (fun m d hm => h m d (List.mem_cons_of_mem _ hm))
    cases x with
    | property m d => simpa [featureValue] using ih'
    | ffv F b =>
      have := h F b List.mem_cons_self
      simp [featureValue, ih', this]

theorem feature_active_none (env : Nat → Bool) (f t nm : Nat) (rs : List (Rule D S))
    (h1 : NoGroupFfv f rs) (h2 : ∀ F b, Rule.item (.ffv F b) ∈ rs → f ∉ F) :
    featureValue f t nm (active env rs) = none := by
  apply feature_none
  intro m d hm
  induction rs with
  | nil => simp [active] at hm
  | cons r rs ih =>
    have ih' := ih (fun g is hg => h1 g is (List.mem_cons_of_mem _ hg)) (fun m d hg => h2 m d (List.mem_cons_of_mem _ hg))
    cases r with
    | item i =>
      simp only [active, List.mem_cons] at hm
      rcases hm with rfl | hm
      · exact h2 m d List.mem_cons_self
      · exact ih' hm
    | group g is =>
      simp only [active, List.mem_append] at hm
      rcases hm with hm | hm
      · by_cases he : env g = true
        · simp only [he, if_true] at hm
          exact h1 g is List.mem_cons_self m d hm
        · simp only [he] at hm; cases hm
      · exact ih' hm
    | style s => exact ih' hm
    | ignored => exact ih' hm
    | other => exact ih' hm

/-- The invariant of the loop for `@font-feature-values`. -/
structure FInv (st : St D S) : Prop where
  /-- Every index points to a rule. -/
  ptr : ∀ i ∈ st.ffvs, ∃ F b, st.rules[i]? = some (Rule.item (.ffv F b))
  /-- Every rule has an index. -/
  all : ∀ (i : Nat) (F : List Nat) (b : Body), st.rules[i]? = some (Rule.item (.ffv F b)) → i ∈ st.ffvs
  /-- Family lists are distinct. -/
  once : ∀ (i j : Nat) (F : List Nat) (b b' : Body), st.rules[i]? = some (Rule.item (.ffv F b)) → st.rules[j]? = some (Rule.item (.ffv F b')) → i = j
  /-- Keys are distinct. -/
  wf : ∀ (i : Nat) (F : List Nat) (b : Body), st.rules[i]? = some (Rule.item (.ffv F b)) → WfBody b

theorem findFfv_none (rs : List (Rule D S)) (F : List Nat) (is : List Nat) (h : findFfv rs F is = none) (i : Nat) (hi : i ∈ is)
    (b : Body) : rs[i]? ≠ some (Rule.item (.ffv F b)) := by
  induction is with
  | nil => cases hi
  | cons j is ih =>
    unfold findFfv at h
    split at h
    · rename_i f b' hj
      by_cases hf : f = F
      · simp only [hf, if_true] at h; cases h
      · simp only [hf, if_false] at h
        rcases List.mem_cons.1 hi with rfl | hi
        · rw [hj]; intro e; cases e; exact hf rfl
        · exact ih h hi
    · rename_i hj
      rcases List.mem_cons.1 hi with rfl | hi
      · exact hj F b
      · exact ih h hi

theorem finv_push (st : St D S) (r : Rule D S) (ps : IMap Nat Nat) (h : FInv st) (hr : ∀ F b, r ≠ Rule.item (.ffv F b)) :
    FInv { st with rules := st.rules ++ [r], props := ps } := by
  have back : ∀ (i : Nat) (F : List Nat) (b : Body), (st.rules ++ [r])[i]? = some (Rule.item (.ffv F b)) → st.rules[i]? = some (Rule.item (.ffv F b)) := by
    intro i F b hi
    rcases (getElem?_push _ _ _ _).1 hi with hi | ⟨_, hi⟩
    · exact hi
    · exact absurd hi (hr F b)
  constructor
  · intro i hg
    obtain ⟨F, b, hd⟩ := h.ptr i hg
    exact ⟨F, b, (getElem?_push _ _ _ _).2 (Or.inl hd)⟩
  · intro i n d hi
    exact h.all i n d (back _ _ _ hi)
  · intro i j F b b' hi hj
    exact h.once i j F b b' (back _ _ _ hi) (back _ _ _ hj)
  · intro i F b hi
    exact h.wf i F b (back _ _ _ hi)

theorem finv_set (st : St D S) (k : Nat) (n : Nat) (d d' : D) (h : FInv st) (hk : st.rules[k]? = some (Rule.item (.property n d))) :
    FInv { st with rules := st.rules.set k (.item (.property n d')) } := by
  have key : ∀ (i : Nat) (F : List Nat) (b : Body), (st.rules.set k (.item (.property n d')))[i]? = some (Rule.item (.ffv F b)) ↔
      st.rules[i]? = some (Rule.item (.ffv F b)) := by
    intro i F b
    rw [getElem?_set_iff _ _ _ _ _ _ hk]
    constructor
    · rintro (⟨_, h⟩ | ⟨_, h⟩)
      · exact h
      · cases h
    · intro hi
      refine Or.inl ⟨?_, hi⟩
      rintro rfl
      rw [hk] at hi; cases hi
  constructor
  · intro i hg
    obtain ⟨F, b, hd⟩ := h.ptr i hg
    exact ⟨F, b, (key _ _ _).2 hd⟩
  · intro i F b hi
    exact h.all i F b ((key _ _ _).1 hi)
  · intro i j F b b' hi hj
    exact h.once i j F b b' ((key _ _ _).1 hi) ((key _ _ _).1 hj)
  · intro i F b hi
    exact h.wf i F b ((key _ _ _).1 hi)

theorem finv_step (c : Ctx S) (st : St D S) (r : Rule D S) (hp : PInv st) (h : FInv st)
    (hw : ∀ F b, r = .item (.ffv F b) → WfBody b) : FInv (step c st r) := by
  cases r with
  | style s =>
    have hs := shuf_style c s st.rules
    constructor
    · intro i hg
      obtain ⟨F, b, hd⟩ := h.ptr i hg
      exact ⟨F, b, (hs.keep i _ rfl).1 hd⟩
    · intro i n d hi
      exact h.all i n d ((hs.keep i _ rfl).2 hi)
    · intro i j F b b' hi hj
      exact h.once i j F b b' ((hs.keep i _ rfl).2 hi) ((hs.keep j _ rfl).2 hj)
    · intro i F b hi
      exact h.wf i F b ((hs.keep i _ rfl).2 hi)
  | group g is => exact finv_push st _ st.props h (by intro n d e; cases e)
  | ignored => exact finv_push st _ st.props h (by intro n d e; cases e)
  | other => exact finv_push st _ st.props h (by intro n d e; cases e)
  | item it =>
    cases it with
    | property n d =>
      rw [step_prop]
      by_cases hu : c.unused n = true
      · simp only [hu, if_true]; exact h
      · simp only [hu]
        simp only [Bool.false_eq_true, if_false]
        split
        · rename_i i hg
          obtain ⟨d0, hi⟩ := hp.ptr n i hg
          exact finv_set st i n d0 d h hi
        · exact finv_push st _ _ h (by intro n d e; cases e)
    | ffv F b =>
      rw [step_ffv]
      split
      · rename_i i a hf
        obtain ⟨_, hi⟩ := findFfv_some _ _ _ _ _ hf
        have key : ∀ (j : Nat) (G : List Nat) (e : Body), (st.rules.set i (.item (.ffv F (a.merge b))))[j]? = some (Rule.item (.ffv G e)) →
            ∃ e', st.rules[j]? = some (Rule.item (.ffv G e')) := by
          intro j G e hj
          rcases (getElem?_set_iff _ _ _ _ _ _ hi).1 hj with ⟨_, hj⟩ | ⟨rfl, hj2⟩
          · exact ⟨e, hj⟩
          · cases hj2; exact ⟨a, hi⟩
        constructor
        · intro j hj
          obtain ⟨G, e, hd⟩ := h.ptr j hj
          by_cases hji : j = i
          · exact ⟨F, _, (getElem?_set_iff _ _ _ _ _ _ hi).2 (Or.inr ⟨hji, rfl⟩)⟩
          · exact ⟨G, e, (getElem?_set_iff _ _ _ _ _ _ hi).2 (Or.inl ⟨hji, hd⟩)⟩
        · intro j G e hj
          obtain ⟨e', hj'⟩ := key j G e hj
          exact h.all j G e' hj'
        · intro j k G e e' hj hk
          obtain ⟨x, hj'⟩ := key j G e hj
          obtain ⟨y, hk'⟩ := key k G e' hk
          exact h.once j k G x y hj' hk'
        · intro j G e hj
          rcases (getElem?_set_iff _ _ _ _ _ _ hi).1 hj with ⟨_, hj⟩ | ⟨_, hj⟩
          · exact h.wf j G e hj
          · cases hj
            exact (merge_wf_look b a (h.wf i F a hi) (hw F b rfl).2 0 0).1
      · rename_i hf
        constructor
        · intro j hj
          rcases List.mem_append.1 hj with hj | hj
          · obtain ⟨G, e, hd⟩ := h.ptr j hj
            exact ⟨G, e, (getElem?_push _ _ _ _).2 (Or.inl hd)⟩
          · simp only [List.mem_singleton] at hj
            exact ⟨F, b, (getElem?_push _ _ _ _).2 (Or.inr ⟨hj, rfl⟩)⟩
        · intro j G e hj
          rcases (getElem?_push _ _ _ _).1 hj with hj | ⟨hj, _⟩
          · exact List.mem_append_left _ (h.all j G e hj)
          · exact List.mem_append_right _ (by simp [hj])
        · intro j k G e e' hj hk
          rcases (getElem?_push _ _ _ _).1 hj with hj | ⟨hj', hje⟩ <;> rcases (getElem?_push _ _ _ _).1 hk with hk | ⟨hk', hke⟩
          · exact h.once j k G e e' hj hk
          · cases hke
            exact absurd hj (findFfv_none _ _ _ hf j (h.all j _ _ hj) e)
          · cases hje
            exact absurd hk (findFfv_none _ _ _ hf k (h.all k _ _ hk) e')
          · rw [hj', hk']
        · intro j G e hj
          rcases (getElem?_push _ _ _ _).1 hj with hj | ⟨_, hj⟩
          · exact h.wf j G e hj
          · cases hj; exact hw F b rfl

/-- The family lists with `f` in the list are all `F`. -/
def OneList (f : Nat) (F : List Nat) (rs : List (Rule D S)) : Prop := ∀ G b, Rule.item (.ffv G b) ∈ rs → f ∈ G → G = F

theorem feat_step (c : Ctx S) (env : Nat → Bool) (f t nm : Nat) (F : List Nat) (st : St D S) (r : Rule D S) (hp : PInv st)
    (h : FInv st) (hn : NoGroupFfv f st.rules) (hr : NoGroupFfv f [r]) (ho : OneList f F st.rules) (hro : OneList f F [r])
    (hw : ∀ F b, r = .item (.ffv F b) → WfBody b) :
    featureValue f t nm (active env (step c st r).rules) =
        (featureValue f t nm (active env [r])).or (featureValue f t nm (active env st.rules)) ∧
      NoGroupFfv f (step c st r).rules ∧ OneList f F (step c st r).rules := by
  have hpush : ∀ r' : Rule D S, featureValue f t nm (active env (st.rules ++ [r'])) =
      (featureValue f t nm (active env [r'])).or (featureValue f t nm (active env st.rules)) := by
    intro r'; rw [active_append, feature_append]
  have hgpush : NoGroupFfv f (st.rules ++ [r]) := by
    intro g is hg
    rcases List.mem_append.1 hg with hg | hg
    · exact hn g is hg
    · exact hr g is hg
  have hopush : OneList f F (st.rules ++ [r]) := by
    intro g is hg
    rcases List.mem_append.1 hg with hg | hg
    · exact ho g is hg
    · exact hro g is hg
  cases r with
  | style s =>
    have hs := shuf_style c s st.rules
    refine ⟨?_, ?_, ?_⟩
    · show featureValue f t nm (active env (styleStep c s st.rules)) = _
      rw [hs.active]
      simp [active, featureValue]
    · intro g is hg
      obtain ⟨i, hi⟩ := List.mem_iff_getElem?.1 hg
      exact hn g is (List.mem_iff_getElem?.2 ⟨i, (hs.keep i _ rfl).2 hi⟩)
    · intro g is hg
      obtain ⟨i, hi⟩ := List.mem_iff_getElem?.1 hg
      exact ho g is (List.mem_iff_getElem?.2 ⟨i, (hs.keep i _ rfl).2 hi⟩)
  | group g is => exact ⟨hpush _, hgpush, hopush⟩
  | ignored => exact ⟨hpush _, hgpush, hopush⟩
  | other => exact ⟨hpush _, hgpush, hopush⟩
  | item it =>
    cases it with
    | property m d =>
      rw [step_prop]
      by_cases hum : c.unused m = true
      · simp only [hum, if_true]
        exact ⟨by simp [active, featureValue], hn, ho⟩
      · simp only [hum]
        simp only [Bool.false_eq_true, if_false]
        split
        · rename_i i hg
          obtain ⟨d0, hi⟩ := hp.ptr m i hg
          obtain ⟨e1, e2⟩ := split_at _ _ _ hi (Rule.item (.property m d) : Rule D S)
          refine ⟨?_, ?_, ?_⟩
          · show featureValue f t nm (active env (st.rules.set i _)) = _
            rw [e2]
            conv => rhs; rw [e1]
            rw [active_append, active_append, feature_append, feature_append]
            simp [active, featureValue]
          · intro g is hgm
            rcases mem_set_sub hgm with hgm | hgm
            · exact hn g is hgm
            · cases hgm
          · intro g is hgm
            rcases mem_set_sub hgm with hgm | hgm
            · exact ho g is hgm
            · cases hgm
        · exact ⟨hpush _, hgpush, hopush⟩
    | ffv G b =>
      rw [step_ffv]
      split
      · rename_i i a hf
        obtain ⟨_, hi⟩ := findFfv_some _ _ _ _ _ hf
        obtain ⟨e1, e2⟩ := split_at _ _ _ hi (Rule.item (.ffv G (a.merge b)) : Rule D S)
        have hiw := h.wf i G a hi
        have hbw := hw G b rfl
        refine ⟨?_, ?_, ?_⟩
        · show featureValue f t nm (active env (st.rules.set i _)) = _
          rw [e2]
          conv => rhs; rw [e1]
          rw [active_append, active_append, feature_append, feature_append]
          simp only [active, featureValue]
          by_cases hfG : f ∈ G
          · have hnone : featureValue f t nm (active env (st.rules.drop (i + 1))) = none := by
              apply feature_active_none
              · intro g is hgm; exact hn g is (List.mem_of_mem_drop hgm)
              · intro G' b' hmem hfG'
                have hG' := ho G' b' (List.mem_of_mem_drop hmem) hfG'
                have hG := ho G a (List.mem_iff_getElem?.2 ⟨i, hi⟩) hfG
                subst hG hG'
                obtain ⟨k, hk⟩ := List.mem_iff_getElem?.1 hmem
                rw [List.getElem?_drop] at hk
                have := h.once _ _ _ _ _ hi hk
                omega
            simp only [hnone, hfG, if_true]
            obtain ⟨m1, m2⟩ := merge_wf_look b a hiw hbw.2 t nm
            rw [inBody_look _ _ _ m1, m2, inBody_look t nm a hiw]
            cases inBody t nm b <;> simp
          · simp only [hfG, if_false, Option.none_or]
        · intro g is hgm
          rcases mem_set_sub hgm with hgm | hgm
          · exact hn g is hgm
          · cases hgm
        · intro g is hgm hfg
          rcases mem_set_sub hgm with hgm | hgm
          · exact ho g is hgm hfg
          · cases hgm
            exact ho G a (List.mem_iff_getElem?.2 ⟨i, hi⟩) hfg
      · exact ⟨hpush _, hgpush, hopush⟩

theorem feat_fold (c : Ctx S) (env : Nat → Bool) (f t nm : Nat) (F : List Nat) (rs : List (Rule D S)) :
    ∀ st : St D S, PInv st → FInv st → NoGroupFfv f st.rules → NoGroupFfv f rs → OneList f F st.rules → OneList f F rs →
      (∀ F b, Rule.item (.ffv F b) ∈ rs → WfBody b) →
      featureValue f t nm (active env (rs.foldl (step c) st).rules) =
        (featureValue f t nm (active env rs)).or (featureValue f t nm (active env st.rules)) := by
  induction rs with
  | nil => intro st _ _ _ _ _ _ _; simp [active, featureValue]
  | cons r rs ih =>
    intro st hp h hn hrs ho hro hw
    have hwr : ∀ F b, r = .item (.ffv F b) → WfBody b := fun F b e => hw F b (by simp [e])
    obtain ⟨h1, h2, h2'⟩ := feat_step c env f t nm F st r hp h hn (fun g is hg => hrs g is (by simp at hg; simp [hg])) ho
      (fun g is hg => hro g is (by simp at hg; simp [hg])) hwr
    have h3 := ih (step c st r) (pinv_step c st r hp) (finv_step c st r hp h hwr) h2 (fun g is hg => hrs g is (List.mem_cons_of_mem _ hg))
      h2' (fun g is hg => hro g is (List.mem_cons_of_mem _ hg)) (fun F b hb => hw F b (List.mem_cons_of_mem _ hb))
    show featureValue f t nm (active env (rs.foldl (step c) (step c st r)).rules) = _
    rw [h3, h1]
    have : active env (r :: rs) = active env [r] ++ active env rs := active_append env [r] rs
    rw [this, feature_append]
    cases featureValue f t nm (active env rs) <;> simp

theorem finv_init : FInv (⟨[], [], []⟩ : St D S) :=
  ⟨(by intro i h; cases h), (by intro i F b h; simp at h), (by intro i j F b b' h; simp at h), (by intro i F b h; simp at h)⟩

/-- C211 (partial): the pass keeps the value of every name of every family, if the top level rules for the family have the same
family list (in the same order), none is in a group rule, and the rules come from the parser (no name twice in a block, no block
twice). The first is needed: `C211_overlap`. -/
theorem C211_partial (c : Ctx S) (env : Nat → Bool) (f t nm : Nat) (F : List Nat) (rs : List (Rule D S))
    (hF : ∀ G b, Rule.item (.ffv G b) ∈ rs → f ∈ G → G = F)
    (hg : ∀ g is, Rule.group g is ∈ rs → ∀ G b, Item.ffv G b ∈ is → f ∉ G)
    (hw : ∀ G b, Rule.item (.ffv G b) ∈ rs → (b.map (·.1)).Nodup ∧ ∀ x ∈ b, (x.2.map (·.1)).Nodup) :
    featureValue f t nm (active env (minify c rs)) = featureValue f t nm (active env rs) := by
  have := feat_fold c env f t nm F rs ⟨[], [], []⟩ pinv_init finv_init (by intro g is h; cases h) hg (by intro g is h; cases h) hF hw
  simpa [active, featureValue, minify] using this

/-- `@font-feature-values F1, F2 { @0 { n1: 1; n2: 2 } } .x{} @font-feature-values F1, F2 { @0 { n1: 3; n3: 4 } @1 { n1: 5 } }`. -/
def ex2 : List (Rule Nat Nat) :=
  [.item (.ffv [1, 2] [(0, [(1, [1]), (2, [2])])]), .style 3, .item (.ffv [1, 2] [(0, [(1, [3]), (3, [4])]), (1, [(1, [5])])])]

example : minify c0 ex2 = [.item (.ffv [1, 2] [(0, [(1, [3]), (2, [2]), (3, [4])]), (1, [(1, [5])])]), .style 3] := rfl
example : featureValue 2 0 1 (active (fun _ => true) (minify c0 ex2)) = some [3] := rfl
example : featureValue 2 0 1 (active (fun _ => true) (minify c0 ex2)) = featureValue 2 0 1 (active (fun _ => true) ex2) := by
  refine C211_partial c0 _ 2 0 1 [1, 2] ex2 ?_ ?_ ?_
  · intro G b h _
    simp only [ex2, List.mem_cons, List.not_mem_nil, or_false, Rule.item.injEq, Item.ffv.injEq, reduceCtorEq, false_or] at h
    rcases h with ⟨h, _⟩ | ⟨h, _⟩ <;> exact h
  · intro g is h; simp [ex2] at h
  · intro G b h
    simp only [ex2, List.mem_cons, List.not_mem_nil, or_false, Rule.item.injEq, Item.ffv.injEq, reduceCtorEq, false_or] at h
    rcases h with ⟨_, rfl⟩ | ⟨_, rfl⟩ <;> decide

/-- The full statement fails: `@font-feature-values A, B { @0 { n: 1 } } @font-feature-values A { @0 { n: 2 } }
@font-feature-values A, B { @0 { n: 3 } }`: the last rule is merged into the first, and the one in between comes to win for `A`. -/
theorem C211_overlap :
    let rs : List (Rule Nat Nat) :=
      [.item (.ffv [1, 2] [(0, [(1, [1])])]), .item (.ffv [1] [(0, [(1, [2])])]), .item (.ffv [1, 2] [(0, [(1, [3])])])]
    featureValue 1 0 1 (active (fun _ => true) rs) = some [3] ∧
      featureValue 1 0 1 (active (fun _ => true) (minify c0 rs)) = some [2] := by
  decide

/-! ### C212 -/

theorem parseInts_ok (is : List Int) : parseInts (is.map Tok.int) = (is, []) := by
  induction is with
  | nil => rfl
  | cons i is ih => simp [parseInts, ih]

theorem parseInts_bad (is : List Int) : parseInts (is.map Tok.int ++ [Tok.bad]) = (is, []) := by
  induction is with
  | nil => rfl
  | cons i is ih => simp [parseInts, ih]

/-- What `validInts` says, in words: one or more integers and nothing else. -/
theorem validInts_iff (ts : List Tok) (is : List Int) : validInts ts = some is ↔ is ≠ [] ∧ ts = is.map Tok.int := by
  induction ts generalizing is with
  | nil => cases is <;> simp [validInts]
  | cons x ts ih =>
    cases x with
    | bad => cases is <;> simp [validInts]
    | int i =>
      cases ts with
      | nil =>
        simp only [validInts, Option.some.injEq]
        constructor
        · rintro rfl; simp
        · rintro ⟨_, h⟩
          cases is with
          | nil => cases h
          | cons a is => cases is <;> simp_all
      | cons y ts =>
        simp only [validInts, Option.map_eq_some_iff]
        constructor
        · rintro ⟨v, hv, rfl⟩
          obtain ⟨h1, h2⟩ := (ih v).1 hv
          exact ⟨by simp, by simp [h2]⟩
        · rintro ⟨_, h⟩
          cases is with
          | nil => cases h
          | cons a is =>
            simp only [List.map_cons, List.cons.injEq, Tok.int.injEq] at h
            obtain ⟨rfl, h⟩ := h
            refine ⟨is, (ih is).2 ⟨?_, h⟩, rfl⟩
            rintro rfl
            cases h

/-- A value with one token after its integers that is not one. -/
def stray (ts : List Tok) : Prop := ∃ is : List Int, is ≠ [] ∧ ts = is.map Tok.int ++ [Tok.bad]

theorem parseInts_inv (ts : List Tok) (is : List Int) (h : parseInts ts = (is, [])) :
    ts = is.map Tok.int ∨ ts = is.map Tok.int ++ [Tok.bad] := by
  induction ts generalizing is with
  | nil => simp [parseInts] at h; subst h; simp
  | cons x ts ih =>
    cases x with
    | bad => simp only [parseInts, Prod.mk.injEq] at h; obtain ⟨h1, h2⟩ := h; subst h1; subst h2; exact Or.inr rfl
    | int i =>
      simp only [parseInts, Prod.mk.injEq] at h
      obtain ⟨h1, h2⟩ := h
      subst h1
      rcases ih (parseInts ts).1 (Prod.ext rfl h2) with e | e
      · left; simpa using e
      · right; simpa using e

/-- C212: exactly which values are accepted: those css-fonts allows, and those with one stray token at the end, which is dropped. -/
theorem C212_value (ts : List Tok) (is : List Int) :
    parseFfvValue ts = some is ↔ validInts ts = some is ∨ (is ≠ [] ∧ ts = is.map Tok.int ++ [Tok.bad]) := by
  rw [validInts_iff]
  unfold parseFfvValue
  constructor
  · intro h
    simp only [] at h
    by_cases h1 : (parseInts ts).1.isEmpty = true
    · simp [h1] at h
    · by_cases h2 : (parseInts ts).2.isEmpty = true
      · simp only [h1, h2, if_true, Bool.false_eq_true, if_false, Option.some.injEq] at h
        have hne : is ≠ [] := by rintro rfl; rw [h] at h1; simp at h1
        have e : parseInts ts = (is, []) := Prod.ext h (List.isEmpty_iff.1 h2)
        rcases parseInts_inv ts is e with e | e
        · exact Or.inl ⟨hne, e⟩
        · exact Or.inr ⟨hne, e⟩
      · simp [h1, h2] at h
  · rintro (⟨h1, rfl⟩ | ⟨h1, rfl⟩)
    · simp [parseInts_ok, h1]
    · simp [parseInts_bad, h1]

theorem parseFfvValue_eq (ts : List Tok) (h : ¬ stray ts) : parseFfvValue ts = validInts ts := by
  cases hv : validInts ts with
  | some is => exact (C212_value ts is).2 (Or.inl hv)
  | none =>
    cases hp : parseFfvValue ts with
    | none => rfl
    | some is =>
      rcases (C212_value ts is).1 hp with h1 | h1
      · rw [hv] at h1; cases h1
      · exact absurd ⟨is, h1⟩ h

theorem inBody_append (t nm : Nat) (a b : List (Nat × List (Nat × List Int))) :
    inBody t nm (a ++ b) = (inBody t nm b).or (inBody t nm a) := by
  induction a with
  | nil => simp [inBody]
  | cons x a ih =>
    obtain ⟨t', ds⟩ := x
    simp only [List.cons_append, inBody, ih]
    cases inBody t nm b <;> simp

theorem foldl_decls (decls : List (Nat × List Tok)) (ds : IMap Nat (List Int)) (h : ∀ d ∈ decls, ¬ stray d.2) :
    decls.foldl (fun ds d => match parseFfvValue d.2 with | some v => IMap.insert d.1 v ds | none => ds) ds =
      ds.extend (decls.filterMap (fun d => (validInts d.2).map (fun v => (d.1, v)))) := by
  induction decls generalizing ds with
  | nil => rfl
  | cons d decls ih =>
    simp only [List.foldl_cons, parseFfvValue_eq d.2 (h d List.mem_cons_self)]
    rw [ih _ (fun x hx => h x (List.mem_cons_of_mem _ hx))]
    cases hv : validInts d.2 with
    | none => simp [hv]
    | some v => simp [hv, IMap.extend]

theorem wf_parse (blocks : List (Nat × List (Nat × List Tok))) (m : Body) (hm : WfBody m) :
    WfBody (blocks.foldl (fun m b => parseBlock m b.1 b.2) m) := by
  induction blocks generalizing m with
  | nil => exact hm
  | cons b blocks ih =>
    apply ih
    refine wf_insert _ _ _ hm ?_
    have h0 : Uniq ((IMap.get b.1 m).getD []) := by
      cases hg : IMap.get b.1 m with
      | none => simp [Uniq]
      | some x => exact hm.2 _ (get_mem _ _ _ hg)
    generalize (IMap.get b.1 m).getD [] = ds at h0
    generalize b.2 = decls
    induction decls generalizing ds with
    | nil => exact h0
    | cons d decls ihd =>
      simp only [List.foldl_cons]
      apply ihd
      split
      · exact uniq_insert _ _ _ h0
      · exact h0

/-- C212: no name comes twice in a block, and no block twice, in what the parser returns (what C211 asks for). -/
theorem C212_unique (blocks : List (Nat × List (Nat × List Tok))) :
    ((parseFfv blocks).map (·.1)).Nodup ∧ ∀ x ∈ parseFfv blocks, (x.2.map (·.1)).Nodup :=
  wf_parse blocks [] ⟨by simp [Uniq], by intro x h; cases h⟩

/-- C212 (partial): with error recovery, a `@font-feature-values` rule gives every name the value of its last valid declaration in
the blocks of the type, if no value ends in a stray token. Missing: values that do (`C212_stray`). -/
theorem C212_partial (blocks : List (Nat × List (Nat × List Tok)))
    (h : ∀ b ∈ blocks, ∀ d ∈ b.2, ¬ ∃ is : List Int, is ≠ [] ∧ d.2 = is.map Tok.int ++ [Tok.bad]) (t nm : Nat) :
    inBody t nm (parseFfv blocks) = inBody t nm (validBlocks blocks) := by
  have key : ∀ m : Body, WfBody m → inBody t nm (blocks.foldl (fun m b => parseBlock m b.1 b.2) m) =
      (inBody t nm (validBlocks blocks)).or (inBody t nm m) := by
    induction blocks with
    | nil => intro m _; simp [validBlocks, inBody]
    | cons b blocks ih =>
      intro m hm
      have hw : WfBody (parseBlock m b.1 b.2) := wf_parse [b] m hm
      simp only [List.foldl_cons]
      rw [ih (fun x hx => h x (List.mem_cons_of_mem _ hx)) _ hw]
      have hv : validBlocks (b :: blocks) =
          (b.1, b.2.filterMap (fun d => (validInts d.2).map (fun v => (d.1, v)))) :: validBlocks blocks := rfl
      rw [hv]
      simp only [inBody]
      rw [inBody_look _ _ _ hw, inBody_look _ _ _ hm]
      have e : parseBlock m b.1 b.2 = IMap.insert b.1
          (((IMap.get b.1 m).getD []).extend (b.2.filterMap (fun d => (validInts d.2).map (fun v => (d.1, v))))) m := by
        exact congrArg (fun x => IMap.insert b.1 x m) (foldl_decls b.2 _ (fun d hd => h b List.mem_cons_self d hd))
      rw [e]
      by_cases ht : b.1 = t
      · subst ht
        simp only [look, get_insert_self, Option.bind_some, get_extend, if_true]
        cases inBody b.1 nm (validBlocks blocks) with
        | some x => simp
        | none => cases IMap.get b.1 m <;> simp [IMap.get]
      · simp only [look, get_insert_ne _ _ ht, ht, if_false]
        cases inBody t nm (validBlocks blocks) <;> simp
  have := key [] ⟨by simp [Uniq], by intro x h; cases h⟩
  rw [show inBody t nm ([] : Body) = none from rfl, Option.or_none] at this
  exact this

/-- `@0 { n1: 1 2; n1: foo; n2: } @1 { n1: 3 } @0 { n1: 4 }`. -/
def ex3 : List (Nat × List (Nat × List Tok)) :=
  [(0, [(1, [.int 1, .int 2]), (1, [.bad]), (2, [])]), (1, [(1, [.int 3])]), (0, [(1, [.int 4])])]

example : parseFfv ex3 = [(0, [(1, [4])]), (1, [(1, [3])])] := by decide
example : inBody 0 1 (parseFfv ex3) = some [4] := by decide
example : inBody 0 1 (parseFfv ex3) = inBody 0 1 (validBlocks ex3) := by
  refine C212_partial ex3 ?_ 0 1
  intro b hb d hd
  rintro ⟨is, h1, h2⟩
  have e1 : d.2.getLast? = some Tok.bad := by rw [h2]; simp
  have e2 : 2 ≤ d.2.length := by
    rw [h2]; cases is with
    | nil => exact absurd rfl h1
    | cons a is => simp
  have : ∀ b ∈ ex3, ∀ d ∈ b.2, ¬ (d.2.getLast? = some Tok.bad ∧ 2 ≤ d.2.length) := by decide
  exact this b hb d hd ⟨e1, e2⟩

/-- The full statement fails: `n1: 1; n1: 2 foo` sets `n1` to 2 instead of 1, since the second declaration is accepted. -/
theorem C212_stray :
    let bs : List (Nat × List (Nat × List Tok)) := [(0, [(1, [.int 1]), (1, [.int 2, .bad])])]
    inBody 0 1 (parseFfv bs) = some [2] ∧ inBody 0 1 (validBlocks bs) = some [1] := by
  decide

/-! ### C213 -/

/-- The last valid `syntax`, `inherits` and `initial-value` of a block (css-properties-values-api: invalid and unknown descriptors are
ignored, but do not invalidate the rule). -/
def lastSyntax {Y V : Type} (ds : List (Desc Y V)) : Option Y :=
  (ds.filterMap (fun d => match d with | .syntax y => y | _ => none)).getLast?

@[inherit_doc lastSyntax]
def lastInherits {Y V : Type} (ds : List (Desc Y V)) : Option Bool :=
  (ds.filterMap (fun d => match d with | .inherits b => b | _ => none)).getLast?

@[inherit_doc lastSyntax]
def lastInitial {Y V : Type} (ds : List (Desc Y V)) : Option V :=
  (ds.filterMap (fun d => match d with | .initial v => some v | _ => none)).getLast?

/-- css-properties-values-api, the `@property` rule: `syntax` and `inherits` are required, `initial-value` is unless the syntax is
`*`, and the whole of it has to match the syntax (`whole`). -/
def specProperty {Y V C : Type} (universal : Y → Bool) (whole : Y → V → Option C) (ds : List (Desc Y V)) :
    Option (Y × Bool × Option C) :=
  match lastSyntax ds, lastInherits ds, lastInitial ds with
  | some y, some b, none => if universal y then some (y, b, none) else none
  | some y, some b, some v => (whole y v).map (fun x => (y, b, some x))
  | _, _, _ => none

theorem getLast?_or {α : Type} (l : List α) (x : α) (y : Option α) :
    l.getLast?.or (some x) = (x :: l).getLast?.or y := by
  rw [List.getLast?_cons]; cases l.getLast? <;> simp

/-- A descriptor that is known and valid. -/
def good {Y V : Type} : Desc Y V → Bool
  | .syntax y => y.isSome
  | .inherits b => b.isSome
  | .initial _ => true
  | .unknown => false

theorem parseDescs_eq {Y V : Type} (ds : List (Desc Y V)) (y : Option Y) (b : Option Bool) (v : Option V) :
    parseDescs (y, b, v) ds = if ds.all good then
      some ((lastSyntax ds).or y, (lastInherits ds).or b, (lastInitial ds).or v) else none := by
  induction ds generalizing y b v with
  | nil => simp [parseDescs, lastSyntax, lastInherits, lastInitial]
  | cons d ds ih =>
    cases d with
    | «syntax» x =>
      cases x with
      | none => simp [parseDescs, good]
      | some x =>
        simp only [parseDescs, ih, List.all_cons, good, Option.isSome_some, Bool.true_and]
        by_cases h : ds.all good = true
        · simp only [h, if_true, Option.some.injEq, Prod.mk.injEq]; exact ⟨getLast?_or _ _ _, rfl, rfl⟩
        · simp [h]
    | inherits x =>
      cases x with
      | none => simp [parseDescs, good]
      | some x =>
        simp only [parseDescs, ih, List.all_cons, good, Option.isSome_some, Bool.true_and]
        by_cases h : ds.all good = true
        · simp only [h, if_true, Option.some.injEq, Prod.mk.injEq]; exact ⟨rfl, getLast?_or _ _ _, rfl⟩
        · simp [h]
    | initial x =>
      simp only [parseDescs, ih, List.all_cons, good, Bool.true_and]
      by_cases h : ds.all good = true
      · simp only [h, if_true, Option.some.injEq, Prod.mk.injEq]; exact ⟨rfl, rfl, getLast?_or _ _ _⟩
      · simp [h]
    | unknown => simp [parseDescs, good]

/-- C213 (partial): a `@property` rule whose descriptors are all known and valid is accepted exactly if css-properties-values-api
says it is valid, and with the same syntax, inheritance and initial value, if the initial value either fails to match or is matched as
a whole. Missing: rules with other descriptors (`C213_unknown`), values with more after them (`C213_rest`). -/
theorem C213_partial {Y V C : Type} (c : SynCtx Y V C) (whole : Y → V → Option C) (ds : List (Desc Y V))
    (h : ∀ d ∈ ds, good d = true) (hw : ∀ y v, c.value y v = whole y v) :
    parseProperty c ds = specProperty c.universal whole ds := by
  have ha : ds.all good = true := by simpa [List.all_eq_true] using h
  unfold parseProperty specProperty
  rw [parseDescs_eq, if_pos ha]
  simp only [Option.or_none]
  cases lastSyntax ds <;> cases lastInherits ds <;> cases lastInitial ds <;> simp [hw]

/-- C213: whatever else is in it, a rule that is accepted has all of the required descriptors, and what it has is what
css-properties-values-api says, up to what is after the initial value. -/
theorem C213_sound {Y V C : Type} (c : SynCtx Y V C) (ds : List (Desc Y V)) (r : Y × Bool × Option C)
    (h : parseProperty c ds = some r) : specProperty c.universal c.value ds = some r := by
  unfold parseProperty at h
  rw [parseDescs_eq] at h
  by_cases ha : ds.all good = true
  · rw [if_pos ha] at h
    unfold specProperty
    simp only [Option.or_none] at h
    revert h
    cases lastSyntax ds <;> cases lastInherits ds <;> cases lastInitial ds <;> simp
  · rw [if_neg ha] at h; simp at h

/-- Syntaxes for the examples: `*` (0) and `<number>` (1); values are lists of numbers. -/
def syn0 : SynCtx Nat (List Nat) (List Nat) where
  universal := fun y => y == 0
  value := fun y v => if y = 0 then some v else v.head?.map (fun n => [n])

/-- The whole value has to match. -/
def whole0 (y : Nat) (v : List Nat) : Option (List Nat) := if y = 0 then some v else if v.length = 1 then some v else none

example : parseProperty syn0 [.syntax (some 0), .inherits (some true), .syntax (some 1), .initial [5]] = some (1, true, some [5]) := rfl
example : parseProperty syn0 [.syntax (some 1), .inherits (some true)] = none := rfl
example : parseProperty syn0 [.syntax (some 0), .inherits (some true)] = some (0, true, none) := rfl
example : parseProperty { syn0 with value := whole0 } [.syntax (some 1), .inherits (some false), .initial [5]] =
    specProperty syn0.universal whole0 [.syntax (some 1), .inherits (some false), .initial [5]] :=
  C213_partial _ _ _ (by decide) (fun _ _ => rfl)

/-- The full statement fails: an unknown descriptor makes the rule an error. -/
theorem C213_unknown :
    let ds : List (Desc Nat (List Nat)) := [.syntax (some 0), .inherits (some true), .unknown]
    parseProperty syn0 ds = none ∧ specProperty syn0.universal whole0 ds = some (0, true, none) := ⟨rfl, rfl⟩

/-- The full statement fails: `syntax: "<number>"; initial-value: 5 6` is taken for `initial-value: 5`. -/
theorem C213_rest :
    let ds : List (Desc Nat (List Nat)) := [.syntax (some 1), .inherits (some true), .initial [5, 6]]
    parseProperty syn0 ds = some (1, true, some [5]) ∧ specProperty syn0.universal whole0 ds = none := ⟨rfl, rfl⟩

end Verif.Named
