import Verif.Fallback.Lemmas
import Verif.Fallback.TokenSpec
import Mathlib.Data.List.Induction
/-!
# Properties C101–C103: color fallbacks in custom properties
-/
namespace Verif.Fallback
open Verif.Targets

mutual
/-- The color spaces of a token that is not an unresolved color. -/
def Tok.spaces {V : Type} : Tok V → List Space
  | .color c => c.spaces
  | .func _ args => tokSpaces args
  | .var _ fb => tokSpaces fb
  | .env _ fb => tokSpaces fb
  | .unresolved _ _ => []
  | .other _ => []
/-- The color spaces of a token list, without unresolved colors. -/
def tokSpaces {V : Type} : List (Tok V) → List Space
  | [] => []
  | x :: xs => x.spaces ++ tokSpaces xs
end

theorem possible_bit {V : Type} (get : Kinds → Bool) (he : get .empty = false) (hu : ∀ a b, get (a.union b) = (get a || get b)) (t : Targets) (c : Color V) :
    get (possible t c) = true ↔ ∃ s ∈ c.spaces, get (kindsOf t s) = true := by
  induction c with
  | keyword => simp [possible, Color.spaces, he]
  | leaf s v => simp [Color.spaces]; rfl
  | lightDark l d hl hd => simp only [possible, hu, Bool.or_eq_true, hl, hd, Color.spaces, List.mem_append, or_and_right, exists_or]

mutual
theorem Tok.kinds_bit {V : Type} (get : Kinds → Bool) (he : get .empty = false) (hu : ∀ a b, get (a.union b) = (get a || get b)) (t : Targets) :
    ∀ x : Tok V, get (x.kinds t) = true ↔ ∃ s ∈ x.spaces, get (kindsOf t s) = true
  | .color c => by simp only [Tok.kinds, Tok.spaces]; exact possible_bit get he hu t c
  | .func _ args => by simp only [Tok.kinds, Tok.spaces]; exact tokKinds_bit get he hu t args
  | .var _ args => by simp only [Tok.kinds, Tok.spaces]; exact tokKinds_bit get he hu t args
  | .env _ args => by simp only [Tok.kinds, Tok.spaces]; exact tokKinds_bit get he hu t args
  | .unresolved _ _ => by simp [Tok.kinds, Tok.spaces, he]
  | .other _ => by simp [Tok.kinds, Tok.spaces, he]
theorem tokKinds_bit {V : Type} (get : Kinds → Bool) (he : get .empty = false) (hu : ∀ a b, get (a.union b) = (get a || get b)) (t : Targets) :
    ∀ xs : List (Tok V), get (tokKinds t xs) = true ↔ ∃ s ∈ tokSpaces xs, get (kindsOf t s) = true
  | [] => by simp [tokKinds, tokSpaces, he]
  | x :: xs => by
    simp only [tokKinds, tokSpaces, hu, Bool.or_eq_true, Tok.kinds_bit get he hu t x, tokKinds_bit get he hu t xs, List.mem_append, or_and_right, exists_or]
end

theorem tok_rgb {V : Type} (t : Targets) (xs : List (Tok V)) : (tokKinds t xs).rgb = true ↔ ∃ s ∈ tokSpaces xs, (kindsOf t s).rgb = true :=
  tokKinds_bit Kinds.rgb rfl (fun _ _ => rfl) t xs
theorem tok_p3 {V : Type} (t : Targets) (xs : List (Tok V)) : (tokKinds t xs).p3 = true ↔ ∃ s ∈ tokSpaces xs, (kindsOf t s).p3 = true :=
  tokKinds_bit Kinds.p3 rfl (fun _ _ => rfl) t xs
theorem tok_lab {V : Type} (t : Targets) (xs : List (Tok V)) : (tokKinds t xs).lab = true ↔ ∃ s ∈ tokSpaces xs, (kindsOf t s).lab = true :=
  tokKinds_bit Kinds.lab rfl (fun _ _ => rfl) t xs
theorem tok_oklab {V : Type} (t : Targets) (xs : List (Tok V)) : (tokKinds t xs).oklab = true ↔ ∃ s ∈ tokSpaces xs, (kindsOf t s).oklab = true :=
  tokKinds_bit Kinds.oklab rfl (fun _ _ => rfl) t xs

mutual
theorem Tok.version_some {V : Type} (conv : Kind → Space → V → V) (k : Kind) : ∀ x : Tok V, x.Concrete → ∃ y, x.version conv k = some y
  | .color c, h => by
    simp only [Tok.version, fallback]
    split
    · exact ⟨_, rfl⟩
    · simp only [Tok.Concrete] at h
      obtain ⟨c', hc⟩ := convert_concrete conv k h
      exact ⟨.color c', by rw [hc]; rfl⟩
  | .func n args, h => by
    obtain ⟨y, hy⟩ := tokVersion_some conv k args (by simpa only [Tok.Concrete] using h)
    exact ⟨.func n y, by simp only [Tok.version, hy]; rfl⟩
  | .var n args, h => by
    obtain ⟨y, hy⟩ := tokVersion_some conv k args (by simpa only [Tok.Concrete] using h)
    exact ⟨.var n y, by simp only [Tok.version, hy]; rfl⟩
  | .env n args, h => by
    obtain ⟨y, hy⟩ := tokVersion_some conv k args (by simpa only [Tok.Concrete] using h)
    exact ⟨.env n y, by simp only [Tok.version, hy]; rfl⟩
  | .unresolved l d, _ => ⟨.unresolved l d, by simp only [Tok.version]⟩
  | .other s, _ => ⟨.other s, by simp only [Tok.version]⟩
theorem tokVersion_some {V : Type} (conv : Kind → Space → V → V) (k : Kind) : ∀ xs : List (Tok V), TokConcrete xs → ∃ ys, tokVersion conv k xs = some ys
  | [], _ => ⟨[], by simp only [tokVersion]⟩
  | x :: xs, h => by
    simp only [TokConcrete] at h
    obtain ⟨y, hy⟩ := Tok.version_some conv k x h.1
    obtain ⟨ys, hys⟩ := tokVersion_some conv k xs h.2
    exact ⟨y :: ys, by simp only [tokVersion, hy, hys]; rfl⟩
end

mutual
theorem Tok.version_rel {V : Type} (conv : Kind → Space → V → V) (k : Kind) : ∀ (x y : Tok V), x.version conv k = some y → x.Rel (VersionOf conv k) y
  | .color c, y, h => by
    simp only [Tok.version, Option.map_eq_some_iff] at h
    obtain ⟨c', hc, rfl⟩ := h
    simp only [Tok.Rel]
    exact fallback_version conv .keepRgba k (fun h => by cases h) hc
  | .func n args, y, h => by
    simp only [Tok.version, Option.map_eq_some_iff] at h
    obtain ⟨c', hc, rfl⟩ := h
    simp only [Tok.Rel]
    exact ⟨trivial, tokVersion_rel conv k args c' hc⟩
  | .var n args, y, h => by
    simp only [Tok.version, Option.map_eq_some_iff] at h
    obtain ⟨c', hc, rfl⟩ := h
    simp only [Tok.Rel]
    exact ⟨trivial, tokVersion_rel conv k args c' hc⟩
  | .env n args, y, h => by
    simp only [Tok.version, Option.map_eq_some_iff] at h
    obtain ⟨c', hc, rfl⟩ := h
    simp only [Tok.Rel]
    exact ⟨trivial, tokVersion_rel conv k args c' hc⟩
  | .unresolved l d, y, h => by
    simp only [Tok.version, Option.some.injEq] at h
    subst h
    simp only [Tok.Rel, and_self]
  | .other s, y, h => by
    simp only [Tok.version, Option.some.injEq] at h
    subst h
    simp only [Tok.Rel]
theorem tokVersion_rel {V : Type} (conv : Kind → Space → V → V) (k : Kind) : ∀ (xs ys : List (Tok V)), tokVersion conv k xs = some ys → TokRel (VersionOf conv k) xs ys
  | [], ys, h => by
    simp only [tokVersion, Option.some.injEq] at h
    subst h
    simp only [TokRel]
  | x :: xs, ys, h => by
    simp only [tokVersion, Option.bind_eq_some_iff, Option.some.injEq] at h
    obtain ⟨y, hy, zs, hz, rfl⟩ := h
    simp only [TokRel]
    exact ⟨Tok.version_rel conv k x y hy, tokVersion_rel conv k xs zs hz⟩
end

mutual
/-- Colors of resolved tokens are understood after a change that makes them so. -/
theorem Tok.rel_understood {V : Type} {R : Color V → Color V → Prop} {b : Browser} {v : Nat} (hR : ∀ c c', R c c' → Understands b v c') :
    ∀ (x y : Tok V), x.Resolved → x.Rel R y → y.Understood b v
  | .color c, .color c', _, h => by simp only [Tok.Understood]; simp only [Tok.Rel] at h; exact hR _ _ h
  | .func n xs, .func n' ys, hr, h => by
    simp only [Tok.Understood]; simp only [Tok.Rel] at h; simp only [Tok.Resolved] at hr; exact rel_understood hR xs ys hr h.2
  | .var n xs, .var n' ys, hr, h => by
    simp only [Tok.Understood]; simp only [Tok.Rel] at h; simp only [Tok.Resolved] at hr; exact rel_understood hR xs ys hr h.2
  | .env n xs, .env n' ys, hr, h => by
    simp only [Tok.Understood]; simp only [Tok.Rel] at h; simp only [Tok.Resolved] at hr; exact rel_understood hR xs ys hr h.2
  | .unresolved _ _, _, hr, _ => by simp only [Tok.Resolved] at hr
  | .other _, .other _, _, _ => by simp only [Tok.Understood]
  | .color _, .func _ _, _, h | .color _, .var _ _, _, h | .color _, .env _ _, _, h | .color _, .unresolved _ _, _, h | .color _, .other _, _, h
  | .func _ _, .color _, _, h | .func _ _, .var _ _, _, h | .func _ _, .env _ _, _, h | .func _ _, .unresolved _ _, _, h | .func _ _, .other _, _, h
  | .var _ _, .color _, _, h | .var _ _, .func _ _, _, h | .var _ _, .env _ _, _, h | .var _ _, .unresolved _ _, _, h | .var _ _, .other _, _, h
  | .env _ _, .color _, _, h | .env _ _, .func _ _, _, h | .env _ _, .var _ _, _, h | .env _ _, .unresolved _ _, _, h | .env _ _, .other _, _, h
  | .other _, .color _, _, h | .other _, .func _ _, _, h | .other _, .var _ _, _, h | .other _, .env _ _, _, h | .other _, .unresolved _ _, _, h => by simp only [Tok.Rel] at h
theorem rel_understood {V : Type} {R : Color V → Color V → Prop} {b : Browser} {v : Nat} (hR : ∀ c c', R c c' → Understands b v c') :
    ∀ (xs ys : List (Tok V)), TokResolved xs → TokRel R xs ys → TokUnderstood b v ys
  | [], [], _, _ => by simp only [TokUnderstood]
  | x :: xs, y :: ys, hr, h => by
    simp only [TokUnderstood]; simp only [TokRel] at h; simp only [TokResolved] at hr
    exact ⟨Tok.rel_understood hR x y hr.1 h.1, rel_understood hR xs ys hr.2 h.2⟩
  | [], _ :: _, _, h => by simp only [TokRel] at h
  | _ :: _, [], _, h => by simp only [TokRel] at h
end

mutual
theorem Tok.understood_spaces {V : Type} {b : Browser} {v : Nat} : ∀ x : Tok V, x.Resolved → (x.Understood b v ↔ ∀ s ∈ x.spaces, Notation b v s)
  | .color c, _ => by simp only [Tok.Understood, Tok.spaces]; exact understands_spaces
  | .func _ args, h => by simp only [Tok.Understood, Tok.spaces]; exact tokUnderstood_spaces args (by simpa only [Tok.Resolved] using h)
  | .var _ args, h => by simp only [Tok.Understood, Tok.spaces]; exact tokUnderstood_spaces args (by simpa only [Tok.Resolved] using h)
  | .env _ args, h => by simp only [Tok.Understood, Tok.spaces]; exact tokUnderstood_spaces args (by simpa only [Tok.Resolved] using h)
  | .unresolved _ _, h => by simp only [Tok.Resolved] at h
  | .other _, _ => by simp [Tok.Understood, Tok.spaces]
theorem tokUnderstood_spaces {V : Type} {b : Browser} {v : Nat} : ∀ xs : List (Tok V), TokResolved xs → (TokUnderstood b v xs ↔ ∀ s ∈ tokSpaces xs, Notation b v s)
  | [], _ => by simp [TokUnderstood, tokSpaces]
  | x :: xs, h => by
    simp only [TokResolved] at h
    simp only [TokUnderstood, tokSpaces, Tok.understood_spaces x h.1, tokUnderstood_spaces xs h.2, List.mem_append]
    constructor
    · rintro ⟨h1, h2⟩ s (h | h) <;> first | exact h1 s h | exact h2 s h
    · exact fun h => ⟨fun s hs => h s (Or.inl hs), fun s hs => h s (Or.inr hs)⟩
end

/-- A browser uses one value. -/
theorem used_unique {α : Type} {b : Browser} {v : Nat} {base : α} : ∀ {rules : List (Kind × α)} {x y : α}, Used b v base rules x → Used b v base rules y → x = y := by
  have key : ∀ {rules : List (Kind × α)} {x : α}, Used b v base rules x → (rules = [] → x = base) ∧
      ∀ rs k z, rules = rs ++ [(k, z)] → (Holds b v k → x = z) ∧ (¬ Holds b v k → Used b v base rs x) := by
    intro rules x h
    cases h with
    | base => exact ⟨fun _ => rfl, fun rs k z h => by simp at h⟩
    | yes hk =>
      refine ⟨fun h => by simp at h, fun rs k z h => ?_⟩
      obtain ⟨rfl, h2⟩ := List.append_inj' h rfl
      simp only [List.cons.injEq, Prod.mk.injEq, and_true] at h2
      obtain ⟨rfl, rfl⟩ := h2
      exact ⟨fun _ => rfl, fun hn => absurd hk hn⟩
    | no hk hu =>
      refine ⟨fun h => by simp at h, fun rs k z h => ?_⟩
      obtain ⟨rfl, h2⟩ := List.append_inj' h rfl
      simp only [List.cons.injEq, Prod.mk.injEq, and_true] at h2
      obtain ⟨rfl, rfl⟩ := h2
      exact ⟨fun hn => absurd hn hk, fun _ => hu⟩
  intro rules
  induction rules using List.reverseRecOn with
  | nil =>
    intro x y hx hy
    rw [(key hx).1 rfl, (key hy).1 rfl]
  | append_singleton rs r ih =>
    intro x y hx hy
    obtain ⟨k, z⟩ := r
    by_cases hk : Holds b v k
    · rw [((key hx).2 rs k z rfl).1 hk, ((key hy).2 rs k z rfl).1 hk]
    · exact ih (((key hx).2 rs k z rfl).2 hk) (((key hy).2 rs k z rfl).2 hk)

/-- A browser uses some value. -/
theorem used_exists {α : Type} (b : Browser) (v : Nat) (base : α) (rules : List (Kind × α)) : ∃ x, Used b v base rules x := by
  induction rules using List.reverseRecOn with
  | nil => exact ⟨base, .base⟩
  | append_singleton rs r ih =>
    obtain ⟨k, z⟩ := r
    by_cases hk : Holds b v k
    · exact ⟨z, .yes hk⟩
    · obtain ⟨x, hx⟩ := ih
      exact ⟨x, .no hk hx⟩

theorem lowest_cases (f : Kinds) :
    (f.rgb = true ∧ f.lowest = ⟨true, false, false, false⟩) ∨
    (f.rgb = false ∧ f.p3 = true ∧ f.lowest = ⟨false, true, false, false⟩) ∨
    (f.rgb = false ∧ f.p3 = false ∧ f.lab = true ∧ f.lowest = ⟨false, false, true, false⟩) ∨
    (f.rgb = false ∧ f.p3 = false ∧ f.lab = false ∧ f.oklab = true ∧ f.lowest = ⟨false, false, false, true⟩) ∨
    (f = .empty ∧ f.lowest = .empty) := by
  obtain ⟨a, b, c, d⟩ := f
  cases a <;> cases b <;> cases c <;> cases d <;> decide

/-- The parts of the result. -/
theorem tokFallbacks_some {V : Type} {conv : Kind → Space → V → V} {e : Bool} {t : Targets} {ts : List (Tok V)} {res : List (Kind × List (Tok V))} {base : List (Tok V)}
    (h : tokFallbacks conv e t ts = some (res, base)) :
    ∃ p l, res = p ++ l ∧
      ((((tokKinds t ts).diff (tokKinds t ts).lowest).p3 = true ∧ ∃ x, tokVersion conv .p3 ts = some x ∧ p = [(Kind.p3, x)]) ∨ (((tokKinds t ts).diff (tokKinds t ts).lowest).p3 = false ∧ p = [])) ∧
      (((((tokKinds t ts).diff (tokKinds t ts).lowest).lab = true ∨ (e = true ∧ (tokKinds t ts).lowest ≠ .empty ∧ (tokKinds t ts).lowest ≠ ⟨false, false, true, false⟩)) ∧
          ∃ x, tokVersion conv .lab ts = some x ∧ l = [(Kind.lab, x)]) ∨
        (¬ (((tokKinds t ts).diff (tokKinds t ts).lowest).lab = true ∨ (e = true ∧ (tokKinds t ts).lowest ≠ .empty ∧ (tokKinds t ts).lowest ≠ ⟨false, false, true, false⟩)) ∧ l = [])) ∧
      lowestVersion conv (tokKinds t ts).lowest ts = some base := by
  unfold tokFallbacks at h
  simp only [Option.bind_eq_some_iff, Option.some.injEq, Prod.mk.injEq] at h
  obtain ⟨p, hp, l, hl, b, hb, e', rfl⟩ := h
  refine ⟨p, l, e'.symm, ?_, ?_, hb⟩
  · split at hp
    · rename_i hn
      left
      simp only [Option.map_eq_some_iff] at hp
      obtain ⟨x, hx, rfl⟩ := hp
      exact ⟨hn, x, hx, rfl⟩
    · rename_i hn
      right
      simp only [Option.some.injEq] at hp
      exact ⟨by simpa using hn, hp.symm⟩
  · split at hl
    · rename_i hn
      left
      simp only [Option.map_eq_some_iff] at hl
      obtain ⟨x, hx, rfl⟩ := hl
      exact ⟨by simpa using hn, x, hx, rfl⟩
    · rename_i hn
      right
      simp only [Option.some.injEq] at hl
      refine ⟨?_, hl.symm⟩
      intro hc; apply hn
      simpa using hc

/-- The value that a browser uses is the original one or a version. -/
theorem used_cases {α : Type} {b : Browser} {v : Nat} {base x : α} {rules : List (Kind × α)} (h : Used b v base rules x) : x = base ∨ ∃ k, (k, x) ∈ rules ∧ Holds b v k := by
  induction h with
  | base => exact Or.inl rfl
  | yes hk => exact Or.inr ⟨_, by simp, hk⟩
  | no _ _ ih =>
    rcases ih with ih | ⟨k, hk, hh⟩
    · exact Or.inl ih
    · exact Or.inr ⟨k, by simp [hk], hh⟩

theorem notation_holds {b : Browser} {v : Nat} {k : Kind} (h : Holds b v k) : Notation b v k.space := by
  cases k <;> exact h

/-! ## C101 -/

/-- **C101 (partial).** Computing the `@supports` fallbacks of a token list does not crash if its color values have no keywords. Not covered: `light-dark()` with keywords; see `C101_crash`. -/
theorem C101_no_crash_partial {V : Type} (conv : Kind → Space → V → V) (e : Bool) (t : Targets) (ts : List (Tok V)) (h : TokConcrete ts) : ∃ r, tokFallbacks conv e t ts = some r := by
  have hv := fun k => tokVersion_some conv k ts h
  obtain ⟨x, hx⟩ := hv .rgb
  obtain ⟨y, hy⟩ := hv .p3
  obtain ⟨z, hz⟩ := hv .lab
  have hlow : ∃ base, lowestVersion conv (tokKinds t ts).lowest ts = some base := by
    rcases lowest_cases (tokKinds t ts) with ⟨-, hl⟩ | ⟨-, -, hl⟩ | ⟨-, -, -, hl⟩ | ⟨-, -, hlab, hok, -⟩ | ⟨-, hl⟩
    · exact ⟨x, by rw [hl]; simpa [lowestVersion] using hx⟩
    · exact ⟨y, by rw [hl]; simpa [lowestVersion] using hy⟩
    · exact ⟨z, by rw [hl]; simpa [lowestVersion] using hz⟩
    · exfalso
      obtain ⟨s, hs, hk⟩ := (tok_oklab t ts).1 hok
      have := (tok_lab t ts).2 ⟨s, hs, ((kindsOf_facts t s).2.2.2.1 hk).2⟩
      rw [this] at hlab; cases hlab
    · exact ⟨ts, by rw [hl]; simp [lowestVersion, Kinds.empty]⟩
  obtain ⟨base, hb⟩ := hlow
  unfold tokFallbacks
  simp only [hy, hz, hb]
  split <;> split <;> simp

/-- **C101, what goes wrong.** `--x: light-dark(currentColor, lab(50% 0 0))` crashes for Chrome 90. -/
theorem C101_crash : tokFallbacks (fun _ _ v => v) false ⟨some (one .chrome (90 * 65536)), 0#32, 0#32⟩ [.color (.lightDark (.keyword cs!"currentcolor") (.leaf .lab ()))] = none := by rfl

/-! ## C102 -/

/-- **C102 (partial).** In every browser that is a target, in the asked version or a newer one, the value that takes effect has only colors that the browser understands. Not covered: values with colors in a `light-dark()` that
could not be computed because it has a `var()`; see `C102_unresolved`. -/
theorem C102_covered_partial {V : Type} (conv : Kind → Space → V → V) (e : Bool) (t : Targets) (ts : List (Tok V)) (hr : TokResolved ts) {res : List (Kind × List (Tok V))} {base used : List (Tok V)}
    (h : tokFallbacks conv e t ts = some (res, base)) {b : Browser} {v : Nat} (ht : IsTarget t b v) (hx : ∀ f, ColorFeature f → Flagged t.excl f → Supports b v f)
    (hu : Used b v base res used) : TokUnderstood b v used := by
  have sup : ∀ f, ColorFeature f → compiles t f = false → Supports b v f := fun f hf hc => not_compiles hf hc ht (hx f hf)
  have ver : ∀ k x, tokVersion conv k ts = some x → Notation b v k.space → TokUnderstood b v x := fun k x hk hn =>
    rel_understood (fun c c' hc => version_understood hn hc) ts x hr (tokVersion_rel conv k ts x hk)
  obtain ⟨p, l, rfl, hp, hl, hb⟩ := tokFallbacks_some h
  rcases used_cases hu with rfl | ⟨k, hk, hh⟩
  · rcases lowest_cases (tokKinds t ts) with ⟨-, he⟩ | ⟨h1, h2, he⟩ | ⟨h1, h2, h3, he⟩ | ⟨-, -, -, -, he⟩ | ⟨he, he'⟩
    · rw [he] at hb
      exact ver .rgb _ (by simpa [lowestVersion] using hb) trivial
    · rw [he] at hb
      refine ver .p3 _ (by simpa [lowestVersion] using hb) ?_
      obtain ⟨s, hs, hk⟩ := (tok_p3 t ts).1 h2
      have nr : (kindsOf t s).rgb = false := by
        by_contra hn
        rw [(tok_rgb t ts).2 ⟨s, hs, by simpa using hn⟩] at h1; cases h1
      exact sup _ (Or.inr (Or.inr (Or.inl rfl))) ((kindsOf_facts t s).2.1 hk nr).2
    · rw [he] at hb
      refine ver .lab _ (by simpa [lowestVersion] using hb) ?_
      obtain ⟨s, hs, hk⟩ := (tok_lab t ts).1 h3
      have nr : (kindsOf t s).rgb = false := by
        by_contra hn
        rw [(tok_rgb t ts).2 ⟨s, hs, by simpa using hn⟩] at h1; cases h1
      have np : (kindsOf t s).p3 = false := by
        by_contra hn
        rw [(tok_p3 t ts).2 ⟨s, hs, by simpa using hn⟩] at h2; cases h2
      exact sup _ (Or.inl rfl) ((kindsOf_facts t s).2.2.1 hk nr np)
    · rw [he] at hb
      simp [lowestVersion] at hb
    · rw [he'] at hb
      simp [lowestVersion, Kinds.empty] at hb
      subst hb
      rw [tokUnderstood_spaces _ hr]
      intro s hs
      have ek : kindsOf t s = .empty := by
        have h1 : (kindsOf t s).rgb = false := by
          by_contra hn
          have := (tok_rgb t ts).2 ⟨s, hs, by simpa using hn⟩
          rw [he] at this; cases this
        have h2 : (kindsOf t s).p3 = false := by
          by_contra hn
          have := (tok_p3 t ts).2 ⟨s, hs, by simpa using hn⟩
          rw [he] at this; cases this
        have h3 : (kindsOf t s).lab = false := by
          by_contra hn
          have := (tok_lab t ts).2 ⟨s, hs, by simpa using hn⟩
          rw [he] at this; cases this
        have h4 : (kindsOf t s).oklab = false := by
          by_contra hn
          have := (tok_oklab t ts).2 ⟨s, hs, by simpa using hn⟩
          rw [he] at this; cases this
        revert h1 h2 h3 h4
        generalize kindsOf t s = k
        obtain ⟨k1, k2, k3, k4⟩ := k
        simp only [Kinds.empty, Kinds.mk.injEq]
        intro a b c d; exact ⟨a, b, c, d⟩
      obtain ⟨g1, g2, g3, g4⟩ := (kindsOf_facts t s).2.2.2.2.2.2.1 ek
      cases s with
      | rgba => trivial
      | float => trivial
      | lab => exact sup _ (Or.inl rfl) (g1 rfl)
      | oklab => exact sup _ (Or.inr (Or.inl rfl)) (g2 rfl)
      | p3 => exact sup _ (Or.inr (Or.inr (Or.inl rfl))) (g3 rfl)
      | predefined => exact sup _ (Or.inr (Or.inr (Or.inr rfl))) (g4 rfl)
  · rcases List.mem_append.mp hk with hk | hk
    · rcases hp with ⟨-, x, hv, rfl⟩ | ⟨-, rfl⟩
      · simp only [List.mem_singleton, Prod.mk.injEq] at hk
        obtain ⟨rfl, rfl⟩ := hk
        exact ver _ _ hv (notation_holds hh)
      · simp at hk
    · rcases hl with ⟨-, x, hv, rfl⟩ | ⟨-, rfl⟩
      · simp only [List.mem_singleton, Prod.mk.injEq] at hk
        obtain ⟨rfl, rfl⟩ := hk
        exact ver _ _ hv (notation_holds hh)
      · simp at hk

/-- **C102, what goes wrong.** `--x: light-dark(var(--y), lab(50% 0 0))` gets no fallback for Chrome 90. -/
theorem C102_unresolved : tokFallbacks (fun _ _ v => v) false ⟨some (one .chrome (90 * 65536)), 0#32, 0#32⟩ [.unresolved [.other cs!"var(--y)"] [.color (.leaf .lab ())]] =
      some ([], [.unresolved [.other cs!"var(--y)"] [.color (.leaf .lab ())]]) ∧
    ¬ TokUnderstood .chrome (90 * 65536) [Tok.unresolved [.other cs!"var(--y)"] [.color (.leaf .lab ())]] := by
  refine ⟨by rfl, fun h => ?_⟩
  simp only [TokUnderstood, Tok.Understood, and_true] at h
  exact absurd h.2 (by unfold Understands Notation Supports; decide)

/-! ## C103 -/

theorem exact_of_lab {V : Type} {conv : Kind → Space → V → V} {c c' : Color V} (h : VersionOf conv .lab c c') : Exact conv c c' := by
  induction h with
  | keyword => exact .same
  | kept => exact .same
  | rgb h => cases h
  | p3 h => cases h
  | lab _ => exact .lab
  | lightDark _ _ h1 h2 => exact .lightDark h1 h2

theorem exact_of_p3 {V : Type} {conv : Kind → Space → V → V} {c c' : Color V} (h : VersionOf conv .p3 c c') (hs : ∀ s ∈ c.spaces, s = .rgba ∨ s = .float ∨ s = .p3) : Exact conv c c' := by
  induction h with
  | keyword => exact .same
  | kept => exact .same
  | rgb h => cases h
  | p3 _ => exact .p3 (hs _ (by simp [Color.spaces]))
  | lab h => cases h
  | lightDark _ _ h1 h2 =>
    simp only [Color.spaces, List.mem_append] at hs
    exact .lightDark (h1 fun s h => hs s (Or.inl h)) (h2 fun s h => hs s (Or.inr h))

mutual
theorem Tok.rel_mono {V : Type} {R Q : Color V → Color V → Prop} (P : Space → Prop) (hR : ∀ c c', (∀ s ∈ c.spaces, P s) → R c c' → Q c c') :
    ∀ (x y : Tok V), (∀ s ∈ x.spaces, P s) → x.Rel R y → x.Rel Q y
  | .color c, .color c', hs, h => by simp only [Tok.Rel] at h ⊢; exact hR _ _ (by simpa only [Tok.spaces] using hs) h
  | .func n xs, .func n' ys, hs, h => by
    simp only [Tok.Rel] at h ⊢; exact ⟨h.1, rel_mono P hR xs ys (by simpa only [Tok.spaces] using hs) h.2⟩
  | .var n xs, .var n' ys, hs, h => by
    simp only [Tok.Rel] at h ⊢; exact ⟨h.1, rel_mono P hR xs ys (by simpa only [Tok.spaces] using hs) h.2⟩
  | .env n xs, .env n' ys, hs, h => by
    simp only [Tok.Rel] at h ⊢; exact ⟨h.1, rel_mono P hR xs ys (by simpa only [Tok.spaces] using hs) h.2⟩
  | .unresolved _ _, .unresolved _ _, _, h => by simp only [Tok.Rel] at h ⊢; exact h
  | .other _, .other _, _, h => by simp only [Tok.Rel] at h ⊢; exact h
  | .color _, .func _ _, _, h | .color _, .var _ _, _, h | .color _, .env _ _, _, h | .color _, .unresolved _ _, _, h | .color _, .other _, _, h
  | .func _ _, .color _, _, h | .func _ _, .var _ _, _, h | .func _ _, .env _ _, _, h | .func _ _, .unresolved _ _, _, h | .func _ _, .other _, _, h
  | .var _ _, .color _, _, h | .var _ _, .func _ _, _, h | .var _ _, .env _ _, _, h | .var _ _, .unresolved _ _, _, h | .var _ _, .other _, _, h
  | .env _ _, .color _, _, h | .env _ _, .func _ _, _, h | .env _ _, .var _ _, _, h | .env _ _, .unresolved _ _, _, h | .env _ _, .other _, _, h
  | .unresolved _ _, .color _, _, h | .unresolved _ _, .func _ _, _, h | .unresolved _ _, .var _ _, _, h | .unresolved _ _, .env _ _, _, h | .unresolved _ _, .other _, _, h
  | .other _, .color _, _, h | .other _, .func _ _, _, h | .other _, .var _ _, _, h | .other _, .env _ _, _, h | .other _, .unresolved _ _, _, h => by simp only [Tok.Rel] at h
theorem rel_mono {V : Type} {R Q : Color V → Color V → Prop} (P : Space → Prop) (hR : ∀ c c', (∀ s ∈ c.spaces, P s) → R c c' → Q c c') :
    ∀ (xs ys : List (Tok V)), (∀ s ∈ tokSpaces xs, P s) → TokRel R xs ys → TokRel Q xs ys
  | [], [], _, _ => by simp only [TokRel]
  | x :: xs, y :: ys, hs, h => by
    simp only [TokRel] at h ⊢
    simp only [tokSpaces, List.mem_append] at hs
    exact ⟨Tok.rel_mono P hR x y (fun s h => hs s (Or.inl h)) h.1, rel_mono P hR xs ys (fun s h => hs s (Or.inr h)) h.2⟩
  | [], _ :: _, _, h => by simp only [TokRel] at h
  | _ :: _, [], _, h => by simp only [TokRel] at h
end

mutual
theorem Tok.rel_refl {V : Type} {R : Color V → Color V → Prop} (hR : ∀ c, R c c) : ∀ x : Tok V, x.Rel R x
  | .color c => by simp only [Tok.Rel]; exact hR c
  | .func _ xs => by simp only [Tok.Rel]; exact ⟨trivial, rel_refl hR xs⟩
  | .var _ xs => by simp only [Tok.Rel]; exact ⟨trivial, rel_refl hR xs⟩
  | .env _ xs => by simp only [Tok.Rel]; exact ⟨trivial, rel_refl hR xs⟩
  | .unresolved _ _ => by simp only [Tok.Rel, and_self]
  | .other _ => by simp only [Tok.Rel]
theorem rel_refl {V : Type} {R : Color V → Color V → Prop} (hR : ∀ c, R c c) : ∀ xs : List (Tok V), TokRel R xs xs
  | [] => by simp only [TokRel]
  | x :: xs => by simp only [TokRel]; exact ⟨Tok.rel_refl hR x, rel_refl hR xs⟩
end

mutual
theorem Tok.allSpaces_iff {V : Type} (P : Space → Prop) : ∀ x : Tok V, x.AllSpaces P ↔ ∀ s ∈ x.spaces, P s
  | .color c => by simp only [Tok.AllSpaces, Tok.spaces]; exact colorAllSpaces_iff P c
  | .func _ xs => by simp only [Tok.AllSpaces, Tok.spaces]; exact tokAllSpaces_iff P xs
  | .var _ xs => by simp only [Tok.AllSpaces, Tok.spaces]; exact tokAllSpaces_iff P xs
  | .env _ xs => by simp only [Tok.AllSpaces, Tok.spaces]; exact tokAllSpaces_iff P xs
  | .unresolved _ _ => by simp [Tok.AllSpaces, Tok.spaces]
  | .other _ => by simp [Tok.AllSpaces, Tok.spaces]
theorem tokAllSpaces_iff {V : Type} (P : Space → Prop) : ∀ xs : List (Tok V), TokAllSpaces P xs ↔ ∀ s ∈ tokSpaces xs, P s
  | [] => by simp [TokAllSpaces, tokSpaces]
  | x :: xs => by
    simp only [TokAllSpaces, tokSpaces, List.mem_append, Tok.allSpaces_iff P x, tokAllSpaces_iff P xs]
    exact ⟨fun h s hs => hs.elim (h.1 s) (h.2 s), fun h => ⟨fun s hs => h s (Or.inl hs), fun s hs => h s (Or.inr hs)⟩⟩
theorem colorAllSpaces_iff {V : Type} (P : Space → Prop) : ∀ c : Color V, c.AllSpaces P ↔ ∀ s ∈ c.spaces, P s
  | .keyword _ => by simp [Color.AllSpaces, Color.spaces]
  | .leaf _ _ => by simp [Color.AllSpaces, Color.spaces]
  | .lightDark l d => by
    simp only [Color.AllSpaces, Color.spaces, List.mem_append, colorAllSpaces_iff P l, colorAllSpaces_iff P d]
    exact ⟨fun h s hs => hs.elim (h.1 s) (h.2 s), fun h => ⟨fun s hs => h s (Or.inl hs), fun s hs => h s (Or.inr hs)⟩⟩
end

theorem flag_only (i : Nat) (h : (flagOf .colorFunction).getLsbD i = true) : i = 10 := by
  have hi : i < 32 := by
    by_contra hn
    rw [BitVec.getLsbD_of_ge _ _ (by omega)] at h; cases h
  revert h
  have : ∀ j : Fin 32, (flagOf .colorFunction).getLsbD j = true → (j : Nat) = 10 := by decide
  exact this ⟨i, hi⟩

/-- If Display P3 is not compiled then `color()` is not. -/
theorem p3_compiles {t : Targets} (hi : ∀ f, ColorFeature f → ¬ Flagged t.incl f) (he : Flagged t.excl .p3Colors → Flagged t.excl .colorFunction) (h : compiles t .p3Colors = false) :
    compiles t .colorFunction = false := by
  by_cases hx : Flagged t.excl .p3Colors
  · have hf := he hx
    unfold compiles Targets.shouldCompile
    rw [Bool.or_eq_false_iff, Bool.and_eq_false_iff]
    constructor
    · rw [Bool.eq_false_iff]
      intro hc
      rw [contains_iff] at hc
      exact hi _ (Or.inr (Or.inr (Or.inr rfl))) (hc 10 (by decide))
    · left
      have : t.excl.contains (flagOf .colorFunction) = true := by
        rw [contains_iff]
        intro i h
        rw [flag_only i h]; exact hf
      simpa using this
  · exact compiles_false (Or.inr (Or.inr (Or.inr rfl))) (hi _ (Or.inr (Or.inr (Or.inr rfl)))) fun b v hb =>
      p3_color (not_compiles (Or.inr (Or.inr (Or.inl rfl))) h hb fun hf => absurd hf hx)

theorem kindsOf_p3 {t : Targets} (h : compiles t .p3Colors = false → compiles t .colorFunction = false) : kindsOf t .p3 = .empty ∨ kindsOf t .p3 = ⟨true, true, false, false⟩ := by
  unfold kindsOf start reduce
  cases hp : compiles t .p3Colors <;> cases hc : compiles t .colorFunction <;> simp_all [Kinds.highest]

/-- **C103 (partial).** A browser, target or not, that understands the colors of a value in `@keyframes` or `@font-palette-values` gets them exactly: unchanged or converted to a space that has room for them. Not covered:
values of custom properties elsewhere (`C103_custom`); colors in `color()` other than Display P3 (`C103_color`); unresolved colors; flags to compile features although they are supported. -/
theorem C103_best_partial {V : Type} (conv : Kind → Space → V → V) (t : Targets) (ts : List (Tok V)) (hr : TokResolved ts) (hp : TokAllSpaces (· ≠ .predefined) ts)
    (hi : ∀ f, ColorFeature f → ¬ Flagged t.incl f) (he : Flagged t.excl .p3Colors → Flagged t.excl .colorFunction) {res : List (Kind × List (Tok V))} {base used : List (Tok V)}
    (h : tokFallbacks conv true t ts = some (res, base)) {b : Browser} {v : Nat} (hb : TokUnderstood b v ts) (hu : Used b v base res used) : TokRel (Exact conv) ts used := by
  rw [tokAllSpaces_iff] at hp
  rw [tokUnderstood_spaces ts hr] at hb
  have lab : ∀ x, tokVersion conv .lab ts = some x → TokRel (Exact conv) ts x := fun x hx =>
    rel_mono (fun _ => True) (fun c c' _ h => exact_of_lab h) ts x (fun _ _ => trivial) (tokVersion_rel conv .lab ts x hx)
  obtain ⟨p, l, rfl, hp3, hl, hbase⟩ := tokFallbacks_some h
  rcases hl with ⟨-, x, hx, rfl⟩ | ⟨hl, rfl⟩
  · by_cases hlab : Holds b v .lab
    · rw [used_unique hu (.yes hlab)]
      exact lab x hx
    · -- only colors of the sRGB and P3 gamuts
      have sp : ∀ s ∈ tokSpaces ts, s = .rgba ∨ s = .float ∨ s = .p3 := by
        intro s hs
        have := hb s hs
        cases s with
        | rgba => simp
        | float => simp
        | p3 => simp
        | lab => exact absurd this hlab
        | oklab => exact absurd (oklab_lab this) hlab
        | predefined => exact absurd rfl (hp _ hs)
      have kp := kindsOf_p3 (t := t) (p3_compiles hi he)
      have ks : ∀ s ∈ tokSpaces ts, kindsOf t s = .empty ∨ (s = .p3 ∧ kindsOf t s = ⟨true, true, false, false⟩) := by
        intro s hs
        rcases sp s hs with rfl | rfl | rfl
        · exact Or.inl rfl
        · exact Or.inl rfl
        · exact kp.imp id fun h => ⟨rfl, h⟩
      have key : tokKinds t ts = .empty ∨ (Space.p3 ∈ tokSpaces ts ∧ tokKinds t ts = ⟨true, true, false, false⟩) := by
        have g3 : (tokKinds t ts).lab = false := by
          by_contra hn
          obtain ⟨s, hs, hk⟩ := (tok_lab t ts).1 (by simpa using hn)
          rcases ks s hs with e | ⟨-, e⟩ <;> rw [e] at hk <;> cases hk
        have g4 : (tokKinds t ts).oklab = false := by
          by_contra hn
          obtain ⟨s, hs, hk⟩ := (tok_oklab t ts).1 (by simpa using hn)
          rcases ks s hs with e | ⟨-, e⟩ <;> rw [e] at hk <;> cases hk
        by_cases hex : ∃ s ∈ tokSpaces ts, s = .p3 ∧ kindsOf t s = ⟨true, true, false, false⟩
        · right
          obtain ⟨s, hs, rfl, e⟩ := hex
          refine ⟨hs, ?_⟩
          have g1 := (tok_rgb t ts).2 ⟨_, hs, by rw [e]⟩
          have g2 := (tok_p3 t ts).2 ⟨_, hs, by rw [e]⟩
          generalize tokKinds t ts = k at *
          obtain ⟨k1, k2, k3, k4⟩ := k
          simp only at g1 g2 g3 g4
          subst g1 g2 g3 g4; rfl
        · left
          have em : ∀ s ∈ tokSpaces ts, kindsOf t s = .empty := fun s hs => (ks s hs).resolve_right fun h => hex ⟨s, hs, h⟩
          have g1 : (tokKinds t ts).rgb = false := by
            by_contra hn
            obtain ⟨s, hs, hk⟩ := (tok_rgb t ts).1 (by simpa using hn)
            rw [em s hs] at hk; cases hk
          have g2 : (tokKinds t ts).p3 = false := by
            by_contra hn
            obtain ⟨s, hs, hk⟩ := (tok_p3 t ts).1 (by simpa using hn)
            rw [em s hs] at hk; cases hk
          generalize tokKinds t ts = k at *
          obtain ⟨k1, k2, k3, k4⟩ := k
          simp only at g1 g2 g3 g4
          subst g1 g2 g3 g4; rfl
      rcases key with e | ⟨hmem, e⟩
      · rw [e] at hbase hp3
        have ep : p = [] := by
          rcases hp3 with ⟨h, -⟩ | ⟨-, h⟩
          · cases h
          · exact h
        subst ep
        have eb : base = ts := by
          have : some ts = some base := hbase
          cases this; rfl
        subst eb
        have e2 : used = base := used_unique hu (.no hlab .base)
        rw [e2]
        exact rel_refl (fun _ => .same) base
      · rw [e] at hp3
        rcases hp3 with ⟨-, y, hy, rfl⟩ | ⟨h, -⟩
        · have hh : Holds b v .p3 := hb _ hmem
          rw [used_unique hu (.no hlab (.yes (rules := []) hh))]
          exact rel_mono _ (fun c c' hs h => exact_of_p3 h hs) ts y sp (tokVersion_rel conv .p3 ts y hy)
        · cases h
  · -- no rule for Lab: nothing is changed, or everything is Lab
    have hlow : (tokKinds t ts).lowest = .empty ∨ (tokKinds t ts).lowest = ⟨false, false, true, false⟩ := by
      by_contra hn
      push Not at hn
      exact hl (Or.inr ⟨rfl, hn⟩)
    have ep : p = [] := by
      rcases hp3 with ⟨h, -⟩ | ⟨-, h⟩
      · exfalso
        rcases lowest_cases (tokKinds t ts) with ⟨-, e⟩ | ⟨-, -, e⟩ | ⟨-, h2, -, e⟩ | ⟨-, -, -, -, e⟩ | ⟨e, e'⟩
        · rw [e] at hlow; rcases hlow with h | h <;> cases h
        · rw [e] at hlow; rcases hlow with h | h <;> cases h
        · simp [Kinds.diff, h2] at h
        · rw [e] at hlow; rcases hlow with h | h <;> cases h
        · rw [e] at h; cases h
      · exact h
    subst ep
    have e2 : used = base := used_unique hu .base
    rw [e2]
    rcases hlow with e | e
    · rw [e] at hbase
      have : some ts = some base := hbase
      cases this
      exact rel_refl (fun _ => .same) ts
    · rw [e] at hbase
      exact lab base hbase

/-- **C103, what goes wrong.** For Chrome 120, which does not support P3 according to the table, `--x: lab(50% 0 0) color(display-p3 1 0 0)` becomes an RGB value and, within `@supports`, a P3 value: Safari 16, which understands the original, gets
the Lab color converted to P3. In `@keyframes` a Lab value is added. -/
theorem C103_custom : tokFallbacks (fun _ _ v => v) false ⟨some (one .chrome (120 * 65536)), 0#32, 0#32⟩ [.color (.leaf .lab 1), .color (.leaf .p3 2)] =
      some ([(.p3, [.color (.leaf .p3 1), .color (.leaf .p3 2)])], [.color (.leaf .rgba 1), .color (.leaf .rgba 2)]) ∧
    TokUnderstood .safari (16 * 65536) [Tok.color (.leaf .lab 1), .color (.leaf .p3 2)] ∧
    Used .safari (16 * 65536) [Tok.color (.leaf .rgba 1), .color (.leaf .rgba 2)] [(.p3, [Tok.color (.leaf .p3 1), .color (.leaf .p3 2)])] [Tok.color (.leaf .p3 1), .color (.leaf .p3 2)] ∧
    tokFallbacks (fun _ _ v => v) true ⟨some (one .chrome (120 * 65536)), 0#32, 0#32⟩ [.color (.leaf .lab 1), .color (.leaf .p3 2)] =
      some ([(.p3, [.color (.leaf .p3 1), .color (.leaf .p3 2)]), (.lab, [.color (.leaf .lab 1), .color (.leaf .lab 2)])], [.color (.leaf .rgba 1), .color (.leaf .rgba 2)]) := by
  refine ⟨by rfl, ?_, Used.yes (rules := []) ?_, by rfl⟩
  · simp only [TokUnderstood, Tok.Understood, and_true]
    exact ⟨by unfold Understands Notation Supports; decide, by unfold Understands Notation Supports; decide⟩
  · unfold Holds Supports; decide

/-- **C103, what goes wrong.** For Chrome 100, Safari 14 and iOS 16, `--x: color(rec2020 0 1 0)` becomes `color(rec2020 0 1 0)` in RGB for Safari 14, although Safari 14 supports `color()` according to the table. -/
theorem C103_color : ∃ x base, tokFallbacks (fun _ _ v => v) true ⟨some (fun b => match b with | .chrome => some (100 * 65536) | .safari => some (14 * 65536) | .iosSaf => some (16 * 65536) | _ => none), 0#32, 0#32⟩
      [.color (.leaf .predefined 1)] = some ([(.lab, x)], base) ∧ base = [.color (.leaf .rgba 1)] ∧
    TokUnderstood .safari (14 * 65536) [Tok.color (.leaf .predefined 1)] ∧ Used .safari (14 * 65536) base [(.lab, x)] base := by
  refine ⟨_, _, rfl, rfl, ?_, Used.no (rules := []) ?_ .base⟩
  · simp only [TokUnderstood, Tok.Understood, and_true]
    unfold Understands Notation Supports; decide
  · unfold Holds Supports; decide

/-- Non-vacuity of C101–C103: `var(--y, oklab(..)) color(display-p3 ..)` for Chrome 90 and Safari 14 in `@keyframes`; Safari 14 understands P3 and gets the P3 value. -/
example : ∃ res base, tokFallbacks (fun _ _ v => v) true ⟨some (fun b => match b with | .chrome => some (90 * 65536) | .safari => some (14 * 65536) | _ => none), 0#32, 0#32⟩
      [.var cs!"--y" [.color (.leaf .oklab 1)], .color (.leaf .p3 2)] = some (res, base) ∧
    base = [.var cs!"--y" [.color (.leaf .rgba 1)], .color (.leaf .rgba 2)] ∧
    res = [(.p3, [.var cs!"--y" [.color (.leaf .p3 1)], .color (.leaf .p3 2)]), (.lab, [.var cs!"--y" [.color (.leaf .lab 1)], .color (.leaf .lab 2)])] ∧
    ∃ x, Used .safari (14 * 65536) base res x := by
  refine ⟨_, _, rfl, rfl, rfl, used_exists _ _ _ _⟩

end Verif.Fallback
