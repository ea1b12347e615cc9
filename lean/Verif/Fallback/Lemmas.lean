import Verif.Fallback.Spec
import Verif.Targets.Props
import Mathlib.Data.List.Forall2
namespace Verif.Fallback
open Verif.Targets

/-! ## Support -/

theorem oklab_lab {b : Browser} {v : Nat} (h : Supports b v .oklabColors) : Supports b v .labColors := by
  unfold Supports CompatFeature.isCompatible at *
  rw [List.all_eq_true] at *
  simp only [CompatFeature.guards, List.mem_cons, forall_eq_or_imp, List.not_mem_nil, false_imp_iff, implies_true, and_true, Guard.pass_iff] at *
  cases b <;> simp [one] at * <;> omega

theorem lab_color {b : Browser} {v : Nat} (h : Supports b v .labColors) : Supports b v .colorFunction := by
  unfold Supports CompatFeature.isCompatible at *
  rw [List.all_eq_true] at *
  simp only [CompatFeature.guards, List.mem_cons, forall_eq_or_imp, List.not_mem_nil, false_imp_iff, implies_true, and_true, Guard.pass_iff] at *
  cases b <;> simp [one] at * <;> omega

theorem p3_color {b : Browser} {v : Nat} (h : Supports b v .p3Colors) : Supports b v .colorFunction := by
  unfold Supports CompatFeature.isCompatible at *
  rw [List.all_eq_true] at *
  simp only [CompatFeature.guards, List.mem_cons, forall_eq_or_imp, List.not_mem_nil, false_imp_iff, implies_true, and_true, Guard.pass_iff] at *
  cases b <;> simp [one] at * <;> omega

/-- A feature that is not compiled is supported by every target, unless it is excluded. -/
theorem not_compiles {t : Targets} {f : CompatFeature} (hf : ColorFeature f) (h : compiles t f = false) {b : Browser} {v : Nat} (ht : IsTarget t b v)
    (hx : Flagged t.excl f → Supports b v f) : Supports b v f := by
  unfold compiles Targets.shouldCompile at h
  rw [Bool.or_eq_false_iff, Bool.and_eq_false_iff] at h
  rcases h.2 with h2 | h2
  · apply hx
    have h2 : t.excl.contains (flagOf f) = true := by simpa using h2
    rw [contains_iff] at h2
    rcases hf with rfl | rfl | rfl | rfl <;> exact h2 _ (by decide)
  · obtain ⟨br, w, hb, hw, hle⟩ := ht
    unfold Targets.isCompatible at h2
    rw [hb] at h2
    refine C12_monotone f br _ ?_ (by simpa using h2)
    intro x v' hx'
    unfold one at hx'
    split at hx'
    · rename_i he; subst he
      cases hx'
      exact ⟨w, hw, hle⟩
    · cases hx'

/-- A feature that every target supports is not compiled, unless that is asked for. -/
theorem compiles_false {t : Targets} {f : CompatFeature} (hf : ColorFeature f) (hi : ¬ Flagged t.incl f) (h : ∀ b v, IsTarget t b v → Supports b v f) : compiles t f = false := by
  unfold compiles Targets.shouldCompile
  rw [Bool.or_eq_false_iff, Bool.and_eq_false_iff]
  constructor
  · rw [Bool.eq_false_iff]
    intro hc
    rw [contains_iff] at hc
    apply hi
    rcases hf with rfl | rfl | rfl | rfl <;> exact hc _ (by decide)
  · right
    unfold Targets.isCompatible
    cases hb : t.browsers with
    | none => rfl
    | some br =>
      have : f.isCompatible br = true := by
        rw [C12_per_browser]
        intro b
        cases hv : br b with
        | none =>
          refine C12_monotone f Browsers.empty _ ?_ (by rcases hf with rfl | rfl | rfl | rfl <;> decide)
          intro x v' hx
          rw [only_eq_some] at hx
          rw [hx.1] at hx
          simp [hv] at hx
        | some v =>
          have := h b v ⟨br, v, hb, hv, Nat.le_refl _⟩
          unfold Supports at this
          have e : br.only b = one b v := by
            funext x
            unfold Browsers.only one
            rw [hv]
          rw [e]; exact this
      simpa using this

/-! ## Kinds -/

/-- The kinds of one color without `light-dark()`. -/
def kindsOf (t : Targets) (s : Space) : Kinds := match start t s with
  | none => .empty
  | some f => reduce t f

/-- The color spaces that occur in a color. -/
def Color.spaces {V : Type} : Color V → List Space
  | .keyword _ => []
  | .leaf s _ => [s]
  | .lightDark l d => l.spaces ++ d.spaces

theorem possible_rgb {V : Type} (t : Targets) (c : Color V) : (possible t c).rgb = true ↔ ∃ s ∈ c.spaces, (kindsOf t s).rgb = true := by
  induction c with
  | keyword => simp [possible, Color.spaces, Kinds.empty]
  | leaf s v => simp [Color.spaces]; rfl
  | lightDark l d hl hd => simp only [possible, Kinds.union, Bool.or_eq_true, hl, hd, Color.spaces, List.mem_append, or_and_right, exists_or]

theorem possible_p3 {V : Type} (t : Targets) (c : Color V) : (possible t c).p3 = true ↔ ∃ s ∈ c.spaces, (kindsOf t s).p3 = true := by
  induction c with
  | keyword => simp [possible, Color.spaces, Kinds.empty]
  | leaf s v => simp [Color.spaces]; rfl
  | lightDark l d hl hd => simp only [possible, Kinds.union, Bool.or_eq_true, hl, hd, Color.spaces, List.mem_append, or_and_right, exists_or]

theorem possible_lab {V : Type} (t : Targets) (c : Color V) : (possible t c).lab = true ↔ ∃ s ∈ c.spaces, (kindsOf t s).lab = true := by
  induction c with
  | keyword => simp [possible, Color.spaces, Kinds.empty]
  | leaf s v => simp [Color.spaces]; rfl
  | lightDark l d hl hd => simp only [possible, Kinds.union, Bool.or_eq_true, hl, hd, Color.spaces, List.mem_append, or_and_right, exists_or]

theorem possible_oklab {V : Type} (t : Targets) (c : Color V) : (possible t c).oklab = true ↔ ∃ s ∈ c.spaces, (kindsOf t s).oklab = true := by
  induction c with
  | keyword => simp [possible, Color.spaces, Kinds.empty]
  | leaf s v => simp [Color.spaces]; rfl
  | lightDark l d hl hd => simp only [possible, Kinds.union, Bool.or_eq_true, hl, hd, Color.spaces, List.mem_append, or_and_right, exists_or]

theorem necessary_bits (k : Kinds) : ((k.diff k.highest).rgb = true ↔ k.rgb = true ∧ (k.p3 = true ∨ k.lab = true ∨ k.oklab = true)) ∧
    ((k.diff k.highest).p3 = true ↔ k.p3 = true ∧ (k.lab = true ∨ k.oklab = true)) ∧
    ((k.diff k.highest).lab = true ↔ k.lab = true ∧ k.oklab = true) ∧ (k.diff k.highest).oklab = false := by
  obtain ⟨a, b, c, d⟩ := k
  cases a <;> cases b <;> cases c <;> cases d <;> decide

theorem foldl_needs {V : Type} (t : Targets) (cs : List (Color V)) (acc : Kinds) :
    ((cs.foldl (fun f c => f.union (necessary t c)) acc).rgb = true ↔ acc.rgb = true ∨ ∃ c ∈ cs, (necessary t c).rgb = true) ∧
    ((cs.foldl (fun f c => f.union (necessary t c)) acc).p3 = true ↔ acc.p3 = true ∨ ∃ c ∈ cs, (necessary t c).p3 = true) ∧
    ((cs.foldl (fun f c => f.union (necessary t c)) acc).lab = true ↔ acc.lab = true ∨ ∃ c ∈ cs, (necessary t c).lab = true) := by
  induction cs generalizing acc with
  | nil => simp
  | cons c cs ih =>
    simp only [List.foldl_cons, List.mem_cons, exists_eq_or_imp]
    obtain ⟨h1, h2, h3⟩ := ih (acc.union (necessary t c))
    rw [h1, h2, h3]
    simp only [Kinds.union, Bool.or_eq_true, or_assoc, and_self]

theorem needs_rgb {V : Type} (t : Targets) (cs : List (Color V)) : (needs t cs).rgb = true ↔ ∃ c ∈ cs, (necessary t c).rgb = true := by
  unfold needs; rw [(foldl_needs t cs .empty).1]; simp [Kinds.empty]
theorem needs_p3 {V : Type} (t : Targets) (cs : List (Color V)) : (needs t cs).p3 = true ↔ ∃ c ∈ cs, (necessary t c).p3 = true := by
  unfold needs; rw [(foldl_needs t cs .empty).2.1]; simp [Kinds.empty]
theorem needs_lab {V : Type} (t : Targets) (cs : List (Color V)) : (needs t cs).lab = true ↔ ∃ c ∈ cs, (necessary t c).lab = true := by
  unfold needs; rw [(foldl_needs t cs .empty).2.2]; simp [Kinds.empty]

/-- Facts about the kinds of one color. -/
theorem kindsOf_facts (t : Targets) (s : Space) :
    ((kindsOf t s).rgb = true → (kindsOf t s).p3 = true ∨ (kindsOf t s).lab = true) ∧
    ((kindsOf t s).p3 = true → (kindsOf t s).rgb = false → (kindsOf t s).lab = true ∧ compiles t .p3Colors = false) ∧
    ((kindsOf t s).lab = true → (kindsOf t s).rgb = false → (kindsOf t s).p3 = false → compiles t .labColors = false) ∧
    ((kindsOf t s).oklab = true → s = .oklab ∧ (kindsOf t s).lab = true) ∧
    ((kindsOf t s).lab = true → (kindsOf t s).oklab = false → s ≠ .oklab ∧ (s = .lab → compiles t .labColors = true)) ∧
    ((kindsOf t s).lab = true → s = .p3 → compiles t .p3Colors = false) ∧
    (kindsOf t s = .empty → (s = .lab → compiles t .labColors = false) ∧ (s = .oklab → compiles t .oklabColors = false) ∧ (s = .p3 → compiles t .p3Colors = false) ∧
      (s = .predefined → compiles t .colorFunction = false)) ∧
    ((kindsOf t s).lab = true → s ≠ .rgba ∧ s ≠ .float) := by
  unfold kindsOf start reduce
  cases s <;> cases ho : compiles t .oklabColors <;> cases hl : compiles t .labColors <;> cases hp : compiles t .p3Colors <;> cases hc : compiles t .colorFunction <;>
    cases hpl : partially t .labColors <;> cases hpp : partially t .p3Colors <;> simp_all [Kinds.empty, Kinds.highest]

theorem understands_spaces {V : Type} {b : Browser} {v : Nat} {c : Color V} : Understands b v c ↔ ∀ s ∈ c.spaces, Notation b v s := by
  induction c with
  | keyword => simp [Understands, Color.spaces]
  | leaf s w => simp [Understands, Color.spaces]
  | lightDark l d hl hd =>
    simp only [Understands, Color.spaces, List.mem_append, hl, hd]
    constructor
    · rintro ⟨h1, h2⟩ s (h | h) <;> first | exact h1 s h | exact h2 s h
    · exact fun h => ⟨fun s hs => h s (Or.inl hs), fun s hs => h s (Or.inr hs)⟩

/-! ## Conversion -/

theorem convert_concrete {V : Type} (conv : Kind → Space → V → V) (k : Kind) {c : Color V} (h : c.Concrete) : ∃ c', c.convert conv k = some c' := by
  induction c with
  | keyword => exact h.elim
  | leaf s v => exact ⟨_, rfl⟩
  | lightDark l d hl hd =>
    obtain ⟨l', hl⟩ := hl h.1
    obtain ⟨d', hd⟩ := hd h.2
    exact ⟨.lightDark l' d', by simp [Color.convert, hl, hd]⟩

theorem convert_not {V : Type} (conv : Kind → Space → V → V) (k : Kind) {c : Color V} (h : ¬ c.Concrete) : c.convert conv k = none := by
  induction c with
  | keyword => rfl
  | leaf s v => exact absurd trivial h
  | lightDark l d hl hd =>
    by_cases h1 : l.Concrete
    · have h2 : ¬ d.Concrete := fun h2 => h ⟨h1, h2⟩
      obtain ⟨l', hl'⟩ := convert_concrete conv k h1
      simp [Color.convert, hl', hd h2]
    · simp [Color.convert, hl h1]

theorem convert_version {V : Type} (conv : Kind → Space → V → V) (k : Kind) : ∀ {c c' : Color V}, c.convert conv k = some c' → VersionOf conv k c c'
  | .keyword _, _, h => by simp [Color.convert] at h
  | .leaf s v, c', h => by
    simp only [Color.convert, Option.some.injEq] at h
    subst h
    cases k
    · exact .rgb rfl
    · exact .p3 rfl
    · exact .lab rfl
  | .lightDark l d, c', h => by
    simp only [Color.convert, Option.bind_eq_bind, Option.bind_eq_some_iff, Option.some.injEq] at h
    obtain ⟨l', hl, d', hd, rfl⟩ := h
    exact .lightDark (convert_version conv k hl) (convert_version conv k hd)

theorem fallback_version {V : Type} (conv : Kind → Space → V → V) (m : Mode) (k : Kind) {c c' : Color V} (hp : m = .keepFailed → c.Plain) (h : fallback conv m k c = some c') : VersionOf conv k c c' := by
  unfold fallback at h
  cases m with
  | direct => exact convert_version conv k h
  | keepRgba =>
    simp only at h
    split at h
    · cases h; exact .kept
    · exact convert_version conv k h
  | keepFailed =>
    rcases hp rfl with hc | ⟨n, rfl⟩
    · obtain ⟨d, hd⟩ := convert_concrete conv k hc
      simp only [hd, Option.getD_some, Option.some.injEq] at h
      subst h
      exact convert_version conv k hd
    · simp only [Color.convert, Option.getD_none, Option.some.injEq] at h
      subst h
      exact .keyword

theorem mapM_forall₂ {α β : Type} {f : α → Option β} {R : α → β → Prop} : ∀ {xs : List α} {ys : List β}, (∀ x ∈ xs, ∀ y, f x = some y → R x y) → xs.mapM f = some ys → List.Forall₂ R xs ys
  | [], ys, _, h => by simp at h; subst h; exact .nil
  | x :: xs, ys, hr, h => by
    simp only [List.mapM_cons, Option.pure_def, Option.bind_eq_bind, Option.bind_eq_some_iff, Option.some.injEq] at h
    obtain ⟨y, hy, ys', hys, rfl⟩ := h
    exact .cons (hr x (by simp) y hy) (mapM_forall₂ (fun z hz => hr z (by simp [hz])) hys)

theorem mapM_some {α β : Type} {f : α → Option β} : ∀ {xs : List α}, (∀ x ∈ xs, ∃ y, f x = some y) → ∃ ys, xs.mapM f = some ys
  | [], _ => ⟨[], by simp⟩
  | x :: xs, h => by
    obtain ⟨y, hy⟩ := h x (by simp)
    obtain ⟨ys, hys⟩ := mapM_some (fun z hz => h z (by simp [hz]) : ∀ z ∈ xs, ∃ y, f z = some y)
    exact ⟨y :: ys, by simp [hy, hys]⟩

theorem mapM_none {α β : Type} {f : α → Option β} : ∀ {xs : List α} {x : α}, x ∈ xs → f x = none → xs.mapM f = none
  | y :: xs, x, h, hx => by
    simp only [List.mapM_cons, Option.pure_def, Option.bind_eq_bind]
    rcases List.mem_cons.mp h with rfl | h
    · simp [hx]
    · cases f y with
      | none => rfl
      | some z => simp [mapM_none h hx]

/-- The parts of the result. -/
theorem getFallbacks_some {V : Type} {conv : Kind → Space → V → V} {m : Mode} {t : Targets} {cs : List (Color V)} {res : List (List (Color V))} {last : List (Color V)}
    (h : getFallbacks conv m t cs = some (res, last)) :
    ∃ r p, res = r ++ p ∧ (((needs t cs).rgb = true ∧ ∃ x, version conv m .rgb cs = some x ∧ r = [x]) ∨ ((needs t cs).rgb = false ∧ r = [])) ∧
      (((needs t cs).p3 = true ∧ ∃ x, version conv m .p3 cs = some x ∧ p = [x]) ∨ ((needs t cs).p3 = false ∧ p = [])) ∧
      (((needs t cs).lab = true ∧ version conv m .lab cs = some last) ∨ ((needs t cs).lab = false ∧ last = cs)) := by
  unfold getFallbacks at h
  simp only [Option.bind_eq_some_iff, Option.some.injEq, Prod.mk.injEq] at h
  obtain ⟨r, hr, p, hp, l, hl, e, rfl⟩ := h
  refine ⟨r, p, e.symm, ?_, ?_, ?_⟩
  · cases hn : (needs t cs).rgb with
    | true => left; simp only [hn, if_true, Option.map_eq_some_iff] at hr; obtain ⟨x, hx, rfl⟩ := hr; exact ⟨rfl, x, hx, rfl⟩
    | false => right; simp [hn] at hr; exact ⟨rfl, hr⟩
  · cases hn : (needs t cs).p3 with
    | true => left; simp only [hn, if_true, Option.map_eq_some_iff] at hp; obtain ⟨x, hx, rfl⟩ := hp; exact ⟨rfl, x, hx, rfl⟩
    | false => right; simp [hn] at hp; exact ⟨rfl, hp⟩
  · cases hn : (needs t cs).lab with
    | true => left; simp only [hn, if_true] at hl; exact ⟨rfl, hl⟩
    | false => right; simp [hn] at hl; exact ⟨rfl, hl.symm⟩

/-- A version is understood if the notation of its space is. -/
theorem version_understood {V : Type} {conv : Kind → Space → V → V} {k : Kind} {b : Browser} {v : Nat} (hk : Notation b v k.space) {c c' : Color V} (h : VersionOf conv k c c') : Understands b v c' := by
  induction h with
  | keyword => trivial
  | kept => trivial
  | rgb _ => trivial
  | p3 e => subst e; exact hk
  | lab e => subst e; exact hk
  | lightDark _ _ h1 h2 => exact ⟨h1, h2⟩

theorem versions_understood {V : Type} {conv : Kind → Space → V → V} {k : Kind} {b : Browser} {v : Nat} (hk : Notation b v k.space) {cs xs : List (Color V)} (h : List.Forall₂ (VersionOf conv k) cs xs) :
    UnderstandsAll b v xs := by
  induction h with
  | nil => intro c hc; simp at hc
  | cons h _ ih =>
    intro c hc
    rcases List.mem_cons.mp hc with rfl | hc
    · exact version_understood hk h
    · exact ih c hc

theorem version_forall₂ {V : Type} {conv : Kind → Space → V → V} {m : Mode} {k : Kind} {cs xs : List (Color V)} (hp : m = .keepFailed → ∀ c ∈ cs, c.Plain) (h : version conv m k cs = some xs) :
    List.Forall₂ (VersionOf conv k) cs xs :=
  mapM_forall₂ (fun _ hc _ hy => fallback_version conv m k (fun hm => hp hm _ hc) hy) h

/-- Without an assumption: a color that is not concrete may be kept. -/
theorem fallback_kept {V : Type} (conv : Kind → Space → V → V) (m : Mode) (k : Kind) {c c' : Color V} (h : fallback conv m k c = some c') : VersionOf conv k c c' ∨ (c' = c ∧ ¬ c.Concrete) := by
  by_cases hc : c.Concrete
  · exact Or.inl (fallback_version conv m k (fun _ => Or.inl hc) h)
  · cases m with
    | direct => exact Or.inl (fallback_version conv _ k (fun h => by cases h) h)
    | keepRgba => exact Or.inl (fallback_version conv _ k (fun h => by cases h) h)
    | keepFailed =>
      right
      simp only [fallback, convert_not conv k hc, Option.getD_none, Option.some.injEq] at h
      exact ⟨h.symm, hc⟩

theorem version_kept {V : Type} {conv : Kind → Space → V → V} {m : Mode} {k : Kind} {cs xs : List (Color V)} (h : version conv m k cs = some xs) :
    List.Forall₂ (fun c c' => VersionOf conv k c c' ∨ (c' = c ∧ ¬ c.Concrete)) cs xs :=
  mapM_forall₂ (fun _ _ _ hy => fallback_kept conv m k hy) h

theorem kept_understood {V : Type} {conv : Kind → Space → V → V} {k : Kind} {b : Browser} {v : Nat} (hk : Notation b v k.space) {cs xs : List (Color V)}
    (h : List.Forall₂ (fun c c' => VersionOf conv k c c' ∨ (c' = c ∧ ¬ c.Concrete)) cs xs) (hb : UnderstandsAll b v cs) : UnderstandsAll b v xs := by
  induction h with
  | nil => intro c hc; simp at hc
  | cons h _ ih =>
    intro c hc
    rcases List.mem_cons.mp hc with rfl | hc
    · rcases h with h | ⟨rfl, -⟩
      · exact version_understood hk h
      · exact hb _ (by simp)
    · exact ih (fun d hd => hb d (by simp [hd])) c hc

end Verif.Fallback
