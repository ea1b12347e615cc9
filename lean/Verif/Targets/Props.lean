import Verif.Targets.Lemmas
/-! # C10–C16: browser targets, feature flags, vendor prefixes. -/
namespace Verif.Targets

/-! ## C12 -/

/-- `b` has the browsers of `a` or fewer, each at the same or a higher version. -/
def Newer (a b : Browsers) : Prop := ∀ x v', b x = some v' → ∃ v, a x = some v ∧ v ≤ v'

/-- C12: raising versions or removing browsers keeps a feature compatible. -/
theorem C12_monotone (f : CompatFeature) (a b : Browsers) (h : Newer a b) (hc : f.isCompatible a = true) :
    f.isCompatible b = true := by
  unfold CompatFeature.isCompatible at *
  rw [List.all_eq_true] at *
  intro g hg
  have := hc g hg
  rw [Guard.pass_iff] at *
  cases g with
  | atLeast x v =>
    intro w hw
    obtain ⟨v0, h0, hle⟩ := h x w hw
    exact Nat.le_trans (this v0 h0) hle
  | absent bs =>
    intro x hx
    cases hb : b x with
    | none => rfl
    | some w =>
      obtain ⟨v0, h0, _⟩ := h x w hb
      simp [this x hx] at h0
  | never => exact this

/-- C12, companion: a feature is compatible with a set of browsers exactly when it is with each one alone. -/
theorem C12_per_browser (f : CompatFeature) (br : Browsers) :
    f.isCompatible br = true ↔ ∀ b, f.isCompatible (br.only b) = true := by
  constructor
  · intro h b
    refine C12_monotone f br _ (fun x v hx => ?_) h
    rw [only_eq_some] at hx
    exact ⟨v, hx.1 ▸ hx.2, Nat.le_refl _⟩
  · intro h
    unfold CompatFeature.isCompatible
    rw [List.all_eq_true]
    intro g hg
    have hp : ∀ b, g.pass (br.only b) = true := fun b => List.all_eq_true.1 (h b) g hg
    rw [Guard.pass_iff]
    cases g with
    | atLeast x v =>
      intro w hw
      exact (Guard.pass_iff _ _).1 (hp x) w ((only_eq_some ..).2 ⟨rfl, hw⟩)
    | absent bs =>
      intro x hx
      have := (Guard.pass_iff _ _).1 (hp x) x hx
      simpa [Browsers.only] using this
    | never => exact absurd (hp .chrome) (by simp [Guard.pass])

/-- C12, companion: "partially compatible" means that at least one of the targets supports the feature. -/
theorem C12_partially (f : CompatFeature) (br : Browsers) :
    f.isPartiallyCompatible br = true ↔ ∃ b v, br b = some v ∧ f.isCompatible (br.only b) = true := by
  unfold CompatFeature.isPartiallyCompatible
  rw [List.any_eq_true]
  constructor
  · rintro ⟨b, _, h⟩
    rw [Bool.and_eq_true, Option.isSome_iff_exists] at h
    obtain ⟨⟨v, hv⟩, hc⟩ := h
    exact ⟨b, v, hv, hc⟩
  · rintro ⟨b, v, hv, hc⟩
    exact ⟨b, by cases b <;> simp, by simp [hv, hc]⟩

/-- C12 is not vacuous: oklab colours, Safari 15.4 → 16. -/
example : Newer (fun b => if b = .safari then some 984064 else if b = .ie then none else some 7864320)
    (fun b => if b = .safari then some 1048576 else none) ∧
    CompatFeature.oklabColors.isCompatible (fun b => if b = .safari then some 984064 else none) = true ∧
    CompatFeature.oklabColors.isCompatible (fun b => if b = .safari then some 984063 else none) = false := by
  refine ⟨?_, by decide, by decide⟩
  intro x v h
  by_cases hx : x = .safari
  · subst hx; simp at h; subst h; exact ⟨984064, by simp, by omega⟩
  · simp [hx] at h

/-! ## C11 -/

/-- All bits of `flag` are set in `s`. -/
def AllIn (flag s : Flags) : Prop := ∀ i, flag.getLsbD i = true → s.getLsbD i = true

/-- C11: a feature is compiled iff it is included, or it is not excluded and some target browser lacks it. -/
theorem C11_should_compile (t : Targets) (f : CompatFeature) (flag : Flags) :
    t.shouldCompile f flag = true ↔
      AllIn flag t.incl ∨
      (¬ AllIn flag t.excl ∧ ∃ br b, t.browsers = some br ∧ f.isCompatible (br.only b) = false) := by
  unfold Targets.shouldCompile Targets.isCompatible
  rw [Bool.or_eq_true, Bool.and_eq_true, contains_iff]
  apply or_congr Iff.rfl
  rw [Bool.not_eq_true', Bool.not_eq_true', ← Bool.not_eq_true, contains_iff]
  apply and_congr Iff.rfl
  cases t.browsers with
  | none => simp
  | some br =>
    simp only [Option.some.injEq]
    constructor
    · intro h
      have h2 : ¬ ∀ b, f.isCompatible (br.only b) = true := by rw [← C12_per_browser]; simp [h]
      rw [Classical.not_forall] at h2
      obtain ⟨b, hb⟩ := h2
      exact ⟨br, b, rfl, by simpa using hb⟩
    · rintro ⟨_, b, rfl, hb⟩
      cases hc : f.isCompatible br with
      | false => rfl
      | true => rw [(C12_per_browser f br).1 hc b] at hb; simp at hb

/-- C11: without browsers and without included features nothing is compiled: not a feature (with a non-empty flag), not
selectors, and no prefix is added. -/
theorem C11_no_targets (t : Targets) (hb : t.browsers = none) (hi : t.incl = 0#32) :
    (∀ f (flag : Flags), flag ≠ 0#32 → t.shouldCompile f flag = false) ∧ t.shouldCompileSelectors = false ∧
    ∀ p f, t.prefixes p f = p := by
  refine ⟨fun f flag hf => ?_, ?_, fun p f => ?_⟩
  · rw [← Bool.not_eq_true, C11_should_compile]
    rintro (h | ⟨_, br, b, h, _⟩)
    · apply hf
      rw [flags_eq_zero]
      intro i
      cases hi' : flag.getLsbD i with
      | false => rfl
      | true => have := h i hi'; simp [hi] at this
    · simp [hb] at h
  · simp [Targets.shouldCompileSelectors, hb, hi, Flags.intersects]
  · unfold Targets.prefixes
    split
    · have : t.incl.contains .vendorPrefixes = false := by rw [hi]; decide
      simp [this, hb]
    · rfl

/-- C11: selectors are compiled iff one of the selector features is included, or none is excluded and there are
browser targets. -/
theorem C11_selectors (t : Targets) :
    t.shouldCompileSelectors = true ↔
      (∃ i < 5, t.incl.getLsbD i = true) ∨ ((∀ i < 5, t.excl.getLsbD i = false) ∧ t.browsers ≠ none) := by
  have key : ∀ a : Flags, a.intersects .selectors = true ↔ ∃ i < 5, a.getLsbD i = true := by
    intro a
    have hs : ∀ i, Flags.selectors.getLsbD i = decide (i < 5) := by
      intro i
      by_cases h : i < 32
      · have : ∀ i : Fin 32, Flags.selectors.getLsbD i = decide (i.val < 5) := by decide
        exact this ⟨i, h⟩
      · rw [BitVec.getLsbD_of_ge _ _ (by omega)]
        simp; omega
    unfold Flags.intersects
    rw [Bool.not_eq_true', ← Bool.not_eq_true, beq_iff_eq, flags_eq_zero]
    rw [Classical.not_forall]
    simp only [BitVec.getLsbD_and, hs]
    constructor
    · rintro ⟨i, hi⟩
      simp at hi
      exact ⟨i, hi.2, hi.1⟩
    · rintro ⟨i, h5, hi⟩
      exact ⟨i, by simp [hi, h5]⟩
  unfold Targets.shouldCompileSelectors
  rw [Bool.or_eq_true, Bool.and_eq_true, key, Bool.not_eq_true', ← Bool.not_eq_true, key]
  apply or_congr Iff.rfl
  apply and_congr
  · constructor
    · intro h i hi
      cases he : t.excl.getLsbD i with
      | false => rfl
      | true => exact absurd ⟨i, hi, he⟩ h
    · rintro h ⟨i, hi, he⟩
      simp [h i hi] at he
  · cases t.browsers <;> simp

example : (⟨some (fun b => if b = .ie then some 720896 else none), 0#32, 0#32⟩ : Targets).shouldCompile .nesting (1#32) =
    true ∧
  (⟨some (fun b => if b = .ie then some 720896 else none), 0#32, 1#32⟩ : Targets).shouldCompile .nesting (1#32) = false ∧
  (⟨none, 1#32, 1#32⟩ : Targets).shouldCompile .nesting (1#32) = true := by decide

/-! ## C10 -/

mutual
/-- Specification: the features excluded at each non-`@supports` rule are the ones excluded initially and those of all
enclosing `@supports` blocks. -/
def Nest.expected (excl : Flags) : Nest → List Flags
  | .other => [excl]
  | .supports f body => Nest.expectedAll (excl ||| f) body
/-- A list of rules, each starting from the same exclusions. -/
def Nest.expectedAll (excl : Flags) : List Nest → List Flags
  | [] => []
  | n :: ns => n.expected excl ++ Nest.expectedAll excl ns
end

mutual
theorem run_spec (s : Scope) (n : Nest) :
    n.run s = (s, (n.expected s.current.excl).map fun e => { s.current with excl := e }) := by
  match n with
  | .other => rfl
  | .supports f body =>
    have h := runAll_spec (s.enter f).2 body
    have he := enter_excl s f
    unfold Nest.run Nest.expected
    cases hs : s.enter f with
    | mk ins s' =>
      rw [hs] at h he
      dsimp only at h he ⊢
      rw [h]
      dsimp only
      rw [he]
      congr 1
      cases ins with
      | true => simpa [hs] using enter_exit s f (by rw [hs])
      | false => simpa [hs] using enter_not_inserted s f (by rw [hs])
theorem runAll_spec (s : Scope) (ns : List Nest) :
    Nest.runAll s ns = (s, (Nest.expectedAll s.current.excl ns).map fun e => { s.current with excl := e }) := by
  match ns with
  | [] => rfl
  | n :: ns =>
    unfold Nest.runAll Nest.expectedAll
    rw [run_spec s n]
    dsimp only
    rw [runAll_spec s ns]
    simp
end

/-- C10: walking over any nest of rules leaves the targets exactly as they were, and every rule in it sees the original
targets with just the features of its enclosing `@supports` blocks excluded in addition. -/
theorem C10_supports_scope (t : Targets) (rules : List Nest) :
    (Nest.runAll (.new t) rules).1 = .new t ∧
    (Nest.runAll (.new t) rules).2 = (Nest.expectedAll t.excl rules).map fun e => { t with excl := e } := by
  rw [runAll_spec]
  exact ⟨rfl, rfl⟩

/-- A nest with re-entered and overlapping features. -/
example : Nest.expectedAll 1#32 [.supports 3#32 [.other, .supports 6#32 [.other]], .other] = [3#32, 7#32, 1#32] := by
  decide

/-! ## C13 -/

/-- C13: the prefixes for a set of browsers are the unprefixed form and the union of the prefixes needed by each
browser alone. -/
theorem C13_union (f : PrefixFeature) (br : Browsers) (p : Prefix) :
    (f.prefixesFor br).has p = true ↔ p = .none ∨ ∃ b, (br b) ≠ none ∧ (f.prefixesFor (br.only b)).has p = true := by
  rw [prefixesFor_has]
  constructor
  · rintro (h | ⟨r, hr, ha, hp⟩)
    · exact .inl h
    · rw [applies_iff] at ha
      obtain ⟨v, hv, hb⟩ := ha
      refine .inr ⟨r.browser, by simp [hv], ?_⟩
      rw [prefixesFor_has]
      exact .inr ⟨r, hr, (applies_iff ..).2 ⟨v, (only_eq_some ..).2 ⟨rfl, hv⟩, hb⟩, hp⟩
  · rintro (h | ⟨b, _, h⟩)
    · exact .inl h
    · rw [prefixesFor_has] at h
      rcases h with h | ⟨r, hr, ha, hp⟩
      · exact .inl h
      · rw [applies_iff] at ha
        obtain ⟨v, hv, hb⟩ := ha
        rw [only_eq_some] at hv
        exact .inr ⟨r, hr, (applies_iff ..).2 ⟨v, by rw [hv.1]; exact hv.2, hb⟩, hp⟩

/-- C13: adding browsers never removes a prefix. -/
theorem C13_monotone (f : PrefixFeature) (a b : Browsers) (h : ∀ x v, a x = some v → b x = some v) (p : Prefix)
    (hp : (f.prefixesFor a).has p = true) : (f.prefixesFor b).has p = true := by
  rw [prefixesFor_has] at *
  rcases hp with hp | ⟨r, hr, ha, he⟩
  · exact .inl hp
  · rw [applies_iff] at ha
    obtain ⟨v, hv, hb⟩ := ha
    exact .inr ⟨r, hr, (applies_iff ..).2 ⟨v, h _ _ hv, hb⟩, he⟩

/-- The prefixes a browser's engine has ever understood. -/
def engine : Browser → List Prefix
  | .firefox => [.none, .moz]
  | .ie => [.none, .ms]
  | .edge => [.none, .ms, .webkit]
  | .opera => [.none, .o, .webkit]
  | _ => [.none, .webkit]

theorem rules_engine (f : PrefixFeature) : f.rules.all (fun r => (engine r.browser).contains r.pre) = true := by
  cases f <;> decide +kernel

/-- C13: a prefix is only added for a browser whose engine knows it. -/
theorem C13_engine (f : PrefixFeature) (br : Browsers) (p : Prefix) (h : (f.prefixesFor br).has p = true)
    (hn : p ≠ .none) : ∃ b, br b ≠ none ∧ p ∈ engine b := by
  rw [prefixesFor_has] at h
  rcases h with h | ⟨r, hr, ha, he⟩
  · exact absurd h hn
  · rw [applies_iff] at ha
    obtain ⟨v, hv, _⟩ := ha
    refine ⟨r.browser, by simp [hv], ?_⟩
    have := List.all_eq_true.1 (rules_engine f) r hr
    rw [← he]
    simpa using this

/-- C13 for `Targets::prefixes`: an author's explicit prefix is never changed; excluding vendor prefixes keeps what is
there; including them gives all; otherwise the browsers decide. In every case the unprefixed form survives. -/
theorem C13_targets (t : Targets) (p : PrefixSet) (f : PrefixFeature) :
    (p.has .none = false → t.prefixes p f = p) ∧
    (t.excl.contains .vendorPrefixes = true → t.prefixes p f = p) ∧
    (p.has .none = true → (t.prefixes p f).has .none = true) ∧
    (p.has .none = true → t.excl.contains .vendorPrefixes = false → t.incl.contains .vendorPrefixes = false →
      ∀ br, t.browsers = some br → t.prefixes p f = f.prefixesFor br) := by
  unfold Targets.prefixes
  refine ⟨fun h => by simp [h], fun h => by simp [h], fun h => ?_, fun h h1 h2 br hb => by simp [h, h1, h2, hb]⟩
  split
  · split
    · rfl
    · split
      · rw [prefixesFor_has]; exact .inl rfl
      · exact h
  · exact h

example : (PrefixFeature.userSelect.prefixesFor
      (fun b => if b = .safari then some 1114112 else if b = .chrome then some 7864320 else none)).has .webkit = true ∧
    (PrefixFeature.userSelect.prefixesFor (fun b => if b = .chrome then some 7864320 else none)).has .webkit = false := by
  decide

/-! ## C14 -/

/-- The browserslist names of a browser. -/
def aliases : Browser → List Str
  | .android => [cs!"android"]
  | .chrome => [cs!"chrome", cs!"and_chr"]
  | .edge => [cs!"edge"]
  | .firefox => [cs!"firefox", cs!"and_ff"]
  | .ie => [cs!"ie"]
  | .iosSaf => [cs!"ios_saf"]
  | .opera => [cs!"opera", cs!"op_mob"]
  | .safari => [cs!"safari"]
  | .samsung => [cs!"samsung"]

theorem browserOf_iff (n : Str) (b : Browser) : browserOf n = some b ↔ n ∈ aliases b := by
  constructor
  · intro h
    unfold browserOf at h
    repeat' split at h
    all_goals first | (simp only [Option.some.injEq] at h; subst h; simp_all [aliases]) | simp at h
  · intro h
    cases b <;> simp only [aliases, List.mem_cons, List.not_mem_nil, or_false] at h <;>
      first | (subst h; rfl) | (rcases h with h | h <;> (subst h; rfl))

/-- The versions given for browser `b` in a list of resolved (name, version) pairs. -/
def VersionOf (ds : List (Str × Str)) (b : Browser) (v : Nat) : Prop :=
  ∃ d ∈ ds, d.1 ∈ aliases b ∧ parseVersion d.2 = some v

/-- `o` is the least element of a set of versions. -/
def IsLeast (P : Nat → Prop) : Option Nat → Prop
  | none => ∀ v, ¬ P v
  | some m => P m ∧ ∀ v, P v → m ≤ v

theorem fold_distrib (ds : List (Str × Str)) (done : List (Str × Str)) (st : Browsers × Bool)
    (h1 : ∀ b, IsLeast (VersionOf done b) (st.1 b)) (h2 : st.2 = true ↔ ∃ b, st.1 b ≠ none) :
    (∀ b, IsLeast (VersionOf (done ++ ds) b) ((ds.foldl distribStep st).1 b)) ∧
    ((ds.foldl distribStep st).2 = true ↔ ∃ b, (ds.foldl distribStep st).1 b ≠ none) := by
  induction ds generalizing done st with
  | nil => simpa using ⟨h1, h2⟩
  | cons d ds ih =>
    rw [List.foldl_cons]
    have := ih (done ++ [d]) (distribStep st d)
    rw [List.append_assoc, List.singleton_append] at this
    have hv : ∀ b v, VersionOf (done ++ [d]) b v ↔
        VersionOf done b v ∨ (browserOf d.1 = some b ∧ parseVersion d.2 = some v) := by
      intro b v
      simp only [VersionOf, List.mem_append, List.mem_singleton, ← browserOf_iff]
      constructor
      · rintro ⟨x, hx | rfl, hr⟩
        · exact .inl ⟨x, hx, hr⟩
        · exact .inr hr
      · rintro (⟨x, hx, hr⟩ | hr)
        · exact ⟨x, .inl hx, hr⟩
        · exact ⟨d, .inr rfl, hr⟩
    apply this
    · intro b
      have hb := h1 b
      unfold distribStep
      cases hn : browserOf d.1 with
      | none =>
        dsimp only
        have : VersionOf (done ++ [d]) b = VersionOf done b := by
          funext v; apply propext; rw [hv]; simp [hn]
        rw [this]; exact hb
      | some b' =>
        dsimp only
        unfold updateBrowser
        cases hp : parseVersion d.2 with
        | none =>
          dsimp only
          have : VersionOf (done ++ [d]) b = VersionOf done b := by
            funext v; apply propext; rw [hv]; simp [hp]
          rw [this]; exact hb
        | some w =>
          dsimp only
          by_cases hbb : b = b'
          · subst hbb
            cases hst : st.1 b with
            | none =>
              rw [hst] at hb
              simp only [IsLeast, if_true] at hb ⊢
              refine ⟨(hv _ _).2 (.inr ⟨hn, hp⟩), fun v hvv => ?_⟩
              rcases (hv _ _).1 hvv with h | ⟨_, h⟩
              · exact absurd h (hb v)
              · rw [hp] at h; simp at h; omega
            | some old =>
              rw [hst] at hb
              dsimp only
              split
              · simp only [if_true, IsLeast] at hb ⊢
                refine ⟨(hv _ _).2 (.inr ⟨hn, hp⟩), fun v hvv => ?_⟩
                rcases (hv _ _).1 hvv with h | ⟨_, h⟩
                · have := hb.2 v h; omega
                · rw [hp] at h; simp at h; omega
              · simp only [IsLeast, hst] at hb ⊢
                refine ⟨(hv _ _).2 (.inl hb.1), fun v hvv => ?_⟩
                rcases (hv _ _).1 hvv with h | ⟨_, h⟩
                · exact hb.2 v h
                · rw [hp] at h; simp at h; omega
          · have hsame : VersionOf (done ++ [d]) b = VersionOf done b := by
              funext v; apply propext; rw [hv]; simp [hn, Ne.symm hbb]
            rw [hsame]
            split
            · simpa [hbb] using hb
            · split
              · simpa [hbb] using hb
              · exact hb
    · unfold distribStep
      cases hn : browserOf d.1 with
      | none => exact h2
      | some b' =>
        dsimp only
        unfold updateBrowser
        cases hp : parseVersion d.2 with
        | none => exact h2
        | some w =>
          dsimp only
          split
          · exact ⟨fun _ => ⟨b', by simp⟩, fun _ => rfl⟩
          · split
            · exact ⟨fun _ => ⟨b', by simp⟩, fun _ => rfl⟩
            · exact h2

/-- C14: the target of every browser is the lowest version listed for it or one of its aliases (unparseable versions do
not count), and there are no targets at all exactly when nothing usable is listed. -/
theorem C14_lowest_version (ds : List (Str × Str)) :
    match fromDistribs ds with
    | some br => (∀ b, IsLeast (VersionOf ds b) (br b)) ∧ ∃ b, br b ≠ none
    | none => ∀ b v, ¬ VersionOf ds b v := by
  have h := fold_distrib ds [] (Browsers.empty, false)
    (fun b v => by simp [VersionOf]) (by simp [Browsers.empty])
  rw [List.nil_append] at h
  unfold fromDistribs
  cases hr : ds.foldl distribStep (Browsers.empty, false) with
  | mk br hasAny =>
    rw [hr] at h
    cases hasAny with
    | true => exact ⟨h.1, h.2.1 rfl⟩
    | false =>
      intro b v hv
      have hb : IsLeast (VersionOf ds b) (br b) := h.1 b
      cases hbr : br b with
      | none => rw [hbr] at hb; exact hb v hv
      | some m => have h2 := h.2.2 ⟨b, by simp [hbr]⟩; simp at h2

example : browserOf cs!"and_chr" = some .chrome ∧ parseVersion cs!"15.2-15.3" = some ((15 * 65536) + 2 * 256) ∧
    parseVersion cs!"all" = none := by decide

/-! ## C15 -/

/-- `s` is a non-empty string of decimal digits with value `n`. -/
inductive Decimal : Str → Nat → Prop where
  | one (c : Char) (d : Nat) : d < 10 → c = Char.ofNat (48 + d) → Decimal [c] d
  | snoc (s : Str) (n : Nat) (c : Char) (d : Nat) : Decimal s n → d < 10 → c = Char.ofNat (48 + d) →
      Decimal (s ++ [c]) (n * 10 + d)

theorem digit_ofNat (d : Nat) (h : d < 10) : digit (Char.ofNat (48 + d)) = some d := by
  have : ∀ d : Fin 10, digit (Char.ofNat (48 + d)) = some d.val := by decide
  exact this ⟨d, h⟩

theorem ofNat_ne (d : Nat) (h : d < 10) : Char.ofNat (48 + d) ≠ '-' ∧ Char.ofNat (48 + d) ≠ '.' ∧
    Char.ofNat (48 + d) ≠ '+' := by
  have : ∀ d : Fin 10, Char.ofNat (48 + d) ≠ '-' ∧ Char.ofNat (48 + d) ≠ '.' ∧ Char.ofNat (48 + d) ≠ '+' := by decide
  exact this ⟨d, h⟩

theorem Decimal.chars {s n} (h : Decimal s n) : '-' ∉ s ∧ '.' ∉ s ∧ '+' ∉ s ∧ s ≠ [] := by
  induction h with
  | one c d hd hc => subst hc; obtain ⟨h1, h2, h3⟩ := ofNat_ne d hd; simp [Ne.symm h1, Ne.symm h2, Ne.symm h3]
  | snoc s n c d _ hd hc ih => subst hc; obtain ⟨h1, h2, h3⟩ := ofNat_ne d hd; simp [ih, Ne.symm h1, Ne.symm h2, Ne.symm h3]

theorem parseDigits_snoc (s : Str) (c : Char) (d : Nat) (hc : digit c = some d) (acc : Nat) :
    parseDigits acc (s ++ [c]) =
      match parseDigits acc s with
      | none => none
      | some n => if n * 10 + d < 2 ^ 32 then some (n * 10 + d) else none := by
  induction s generalizing acc with
  | nil => simp [parseDigits, hc]
  | cons x xs ih =>
    rw [List.cons_append, parseDigits, parseDigits]
    cases digit x with
    | none => rfl
    | some e =>
      dsimp only
      split
      · rw [ih]
      · rfl

theorem Decimal.parse {s n} (h : Decimal s n) (hn : n < 2 ^ 32) : parseDigits 0 s = some n := by
  induction h with
  | one c d hd hc => subst hc; simp [parseDigits, digit_ofNat d hd, hn]
  | snoc s n c d _ hd hc ih =>
    subst hc
    rw [parseDigits_snoc s _ d (digit_ofNat d hd), ih (by omega)]
    simp [hn]

theorem Decimal.parseU32 {s n} (h : Decimal s n) (hn : n < 2 ^ 32) : parseU32 s = some n := by
  have hp := h.parse hn
  have hc := h.chars
  match s with
  | [] => exact absurd rfl hc.2.2.2
  | c :: cs =>
    have : c ≠ '+' := by rintro rfl; exact hc.2.2.1 (by simp)
    unfold Verif.Targets.parseU32
    split
    · simp at *
    · next h => simp at h; exact absurd h.1 this
    · next h => simp at h; exact absurd h.1 this
    · next h => simp at h; rw [← h.1, ← h.2]; exact hp

/-- The text of a version with the given parts; `suffix` is empty or starts with `-` (as in `15.2-15.3`, `4.4.3-4.4.4`). -/
def versionText (major minor patch suffix : Str) : Str := major ++ '.' :: (minor ++ '.' :: (patch ++ suffix))

/-- C15, for components below 256: a version string is encoded as major·2¹⁶ + minor·2⁸ + patch, whatever follows a dash.
Missing for the full property: components of 256 and more, which the code truncates (`C15_counterexample`). -/
theorem C15_encoding_partial (ma mi pa suf : Str) (a b c : Nat) (ha : Decimal ma a) (hb : Decimal mi b) (hc : Decimal pa c)
    (hs : suf = [] ∨ ∃ r, suf = '-' :: r) (ha' : a < 256) (hb' : b < 256) (hc' : c < 256) :
    parseVersion (versionText ma mi pa suf) = some (a * 65536 + b * 256 + c) := by
  have h1 := ha.chars
  have h2 := hb.chars
  have h3 := hc.chars
  have hcore : '-' ∉ ma ++ '.' :: (mi ++ '.' :: pa) := by simp [h1.1, h2.1, h3.1]
  have hsplit : ∃ rest, splitOn '-' (versionText ma mi pa suf) = (ma ++ '.' :: (mi ++ '.' :: pa)) :: rest := by
    rcases hs with rfl | ⟨r, rfl⟩
    · refine ⟨[], ?_⟩
      rw [versionText, List.append_nil, splitOn_none _ _ hcore]
    · refine ⟨splitOn '-' r, ?_⟩
      have : versionText ma mi pa ('-' :: r) = (ma ++ '.' :: (mi ++ '.' :: pa)) ++ '-' :: r := by simp [versionText]
      rw [this, splitOn_append _ _ _ hcore]
  obtain ⟨rest, hr⟩ := hsplit
  unfold parseVersion
  rw [hr]
  dsimp only
  rw [splitOn_append _ _ _ h1.2.1, splitOn_append _ _ _ h2.2.1, splitOn_none _ _ h3.2.1]
  dsimp only
  rw [ha.parseU32 (by omega)]
  dsimp only [nextOr0]
  rw [hb.parseU32 (by omega), hc.parseU32 (by omega)]
  simp only [Option.getD_some]
  rw [Nat.mod_eq_of_lt ha', Nat.mod_eq_of_lt hb', Nat.mod_eq_of_lt hc']

/-- C15: comparing encodings compares versions, component by component. -/
theorem C15_order_partial (ma mi pa suf ma' mi' pa' suf' : Str) (a b c a' b' c' : Nat)
    (ha : Decimal ma a) (hb : Decimal mi b) (hc : Decimal pa c) (hs : suf = [] ∨ ∃ r, suf = '-' :: r)
    (ha' : Decimal ma' a') (hb' : Decimal mi' b') (hc' : Decimal pa' c') (hs' : suf' = [] ∨ ∃ r, suf' = '-' :: r)
    (hlt : a < 256 ∧ b < 256 ∧ c < 256) (hlt' : a' < 256 ∧ b' < 256 ∧ c' < 256) :
    ∃ v v', parseVersion (versionText ma mi pa suf) = some v ∧ parseVersion (versionText ma' mi' pa' suf') = some v' ∧
      (v < v' ↔ a < a' ∨ (a = a' ∧ (b < b' ∨ (b = b' ∧ c < c')))) := by
  refine ⟨_, _, C15_encoding_partial ma mi pa suf a b c ha hb hc hs hlt.1 hlt.2.1 hlt.2.2,
    C15_encoding_partial ma' mi' pa' suf' a' b' c' ha' hb' hc' hs' hlt'.1 hlt'.2.1 hlt'.2.2, ?_⟩
  omega

/-- The code truncates components to 8 bits: version 256 is encoded like version 0. -/
theorem C15_counterexample : parseVersion cs!"256.0.0" = some 0 ∧ parseVersion cs!"255.0.0" = some (255 * 65536) := by
  decide

example : Decimal cs!"15" 15 ∧ Decimal cs!"2" 2 :=
  ⟨.snoc _ 1 _ 5 (.one _ 1 (by omega) rfl) (by omega) rfl, .one _ 2 (by omega) rfl⟩

/-! ## C16 -/

/-- C16: a non-empty prefix set survives JSON. -/
theorem C16_json_roundtrip (s : PrefixSet) (h : s ≠ .empty) : PrefixSet.deserialize s.serialize = s := by
  obtain ⟨a, b, c, d, e⟩ := s
  revert h
  cases a <;> cases b <;> cases c <;> cases d <;> cases e <;> decide

/-- C16, companion: reading a list of names does not depend on order or repetitions; unknown names are ignored. -/
theorem C16_deserialize (vs : List Str) (h : vs ≠ []) (p : Prefix) :
    (PrefixSet.deserialize vs).has p = true ↔ prefixText p ∈ vs := by
  unfold PrefixSet.deserialize
  have : vs.isEmpty = false := by cases vs <;> simp_all
  rw [if_neg (by simp [this]), foldl_prefixStep_has]
  cases p <;> simp [PrefixSet.has, PrefixSet.empty]

/-- The empty set is the one exception: it reads back as "no prefix". -/
theorem C16_empty_counterexample : PrefixSet.deserialize PrefixSet.empty.serialize ≠ .empty := by decide

end Verif.Targets
