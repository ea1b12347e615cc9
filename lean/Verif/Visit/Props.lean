import Verif.Visit.Spec
/-! A visitor is shown all values of the kinds it asks for (C75). -/
namespace Verif.Visit

/-- The constant `CHILD_TYPES` has been evaluated deep enough: it is what the fields give. -/
theorem childTypes_eq (t : Ty) : ∀ k, k ∈ childTypes t ↔ k ∈ (match (decl t).given with | some ks => ks | none => (decl t).fields.flatMap childTypes ++ (decl t).own.toList) := by
  intro k; cases t <;> cases k <;> decide

theorem own_mem (t : Ty) (k : Kind) (h : (decl t).own = some k) : k ∈ childTypes t := by
  cases t <;> cases k <;> revert h <;> decide

/-- All kinds below a type are in its list, but for custom identifiers below tokens and images below options of `image-set()`. -/
theorem closed (t : Ty) (h1 : t ≠ .imageSetOption) (f : Ty) (hf : f ∈ (decl t).fields ++ (decl t).skipped) (k : Kind) (hk : k ∈ childTypes f)
    (h2 : t = .tokenOrValue → k ≠ .customIdents) : k ∈ childTypes t := by
  have key : ∀ t ∈ [Ty.plain, .tokenList, .tokenOrValue, .cssColor, .unresolvedColor, .url, .variable, .environmentVariable, .environmentVariableName, .dashedIdentReference, .dashedIdent,
      .customIdent, .function, .lengthValue, .angle, .time, .resolution, .ratio, .animationName, .image, .imageSet, .gradient, .length, .calcLength, .mathLength, .lengthPercentage, .calcLp,
      .mathLp, .mediaList, .mediaQuery, .mediaCondition, .mediaFeature, .mediaFeatureName, .mediaFeatureValue, .supportsCondition, .scrollStateQuery, .scrollStateFeature],
      ∀ f ∈ (decl t).fields ++ (decl t).skipped, ∀ k ∈ childTypes f, (t = .tokenOrValue → k ≠ .customIdents) → k ∈ childTypes t := by decide
  refine key t ?_ f hf k hk h2
  cases t <;> first | exact absurd rfl h1 | decide

/-- A pruned branch has nothing in it that is asked for. -/
theorem nothing_below (asked : List Kind) (h2 : Kind.customIdents ∈ asked → Kind.tokens ∈ asked) : ∀ s : Nat,
    (∀ n : Node, sizeOf n ≤ s → Typed n → (∀ m ∈ everything n, m.ty = .imageSetOption → .resolutions ∈ asked) → (∀ k ∈ childTypes n.ty, k ∉ asked) →
      (everything n).filter (wanted asked) = []) ∧
    (∀ cs : List Node, sizeOf cs ≤ s → TypedAll cs → (∀ m ∈ everythingAll cs, m.ty = .imageSetOption → .resolutions ∈ asked) → (∀ c ∈ cs, ∀ k ∈ childTypes c.ty, k ∉ asked) →
      (everythingAll cs).filter (wanted asked) = []) := by
  intro s
  induction s with
  | zero =>
    refine ⟨fun n hs => ?_, fun cs hs => ?_⟩
    · cases n; simp at hs
    · cases cs <;> simp at hs
  | succ s ih =>
    constructor
    · intro n hs ht h1 hk
      cases n with
      | mk ty id children =>
        simp only [Node.ty] at hk
        have hw : wanted asked (.mk ty id children) = false := by
          simp only [wanted, Node.ty]
          split
          · rename_i k e; simpa using hk k (own_mem _ _ e)
          · rfl
        rw [everything, List.filter_cons, hw]
        simp only [Bool.false_eq_true, if_false]
        have hiso : ty ≠ .imageSetOption := by
          rintro rfl
          exact hk .resolutions (by decide) (h1 _ (by rw [everything]; exact List.mem_cons_self) rfl)
        rw [Typed] at ht
        refine ih.2 children (by simp at hs; omega) ht.2 (fun m hm => h1 m (by rw [everything]; exact List.mem_cons_of_mem _ hm)) ?_
        intro c hc k hkc hka
        refine hk k (closed ty hiso c.ty (ht.1 c hc) k hkc ?_) hka
        rintro rfl rfl
        exact hk .tokens (by decide) (h2 hka)
    · intro cs hs ht h1 hk
      cases cs with
      | nil => rfl
      | cons c cs =>
        rw [TypedAll] at ht
        rw [everythingAll, List.filter_append]
        rw [ih.1 c (by simp at hs; omega) ht.1 (fun m hm => h1 m (by rw [everythingAll]; exact List.mem_append_left _ hm)) (hk c List.mem_cons_self)]
        rw [ih.2 cs (by simp at hs; omega) ht.2 (fun m hm => h1 m (by rw [everythingAll]; exact List.mem_append_right _ hm)) (fun d hd => hk d (List.mem_cons_of_mem _ hd))]
        rfl

theorem visit_all (asked : List Kind) (h2 : Kind.customIdents ∈ asked → Kind.tokens ∈ asked) : ∀ s : Nat,
    (∀ n : Node, sizeOf n ≤ s → Typed n → (∀ m ∈ everything n, m.ty = .imageSetOption → .resolutions ∈ asked) →
      visit asked n = ((everything n).filter (wanted asked)).map Node.id) ∧
    (∀ cs : List Node, sizeOf cs ≤ s → TypedAll cs → (∀ m ∈ everythingAll cs, m.ty = .imageSetOption → .resolutions ∈ asked) →
      visitAll asked cs = ((everythingAll cs).filter (wanted asked)).map Node.id) := by
  intro s
  induction s with
  | zero =>
    refine ⟨fun n hs => ?_, fun cs hs => ?_⟩
    · cases n; simp at hs
    · cases cs <;> simp at hs
  | succ s ih =>
    constructor
    · intro n hs ht h1
      cases n with
      | mk ty id children =>
        have ht' := ht
        rw [Typed] at ht'
        have hb : visitChildren asked (.mk ty id children) = ((everythingAll children).filter (wanted asked)).map Node.id := by
          rw [visitChildren]
          split
          · exact ih.2 children (by simp at hs; omega) ht'.2 (fun m hm => h1 m (by rw [everything]; exact List.mem_cons_of_mem _ hm))
          · rename_i hany
            have hk : ∀ k ∈ childTypes ty, k ∉ asked := by
              intro k hk hka
              exact hany (List.any_eq_true.2 ⟨k, hk, by simpa using hka⟩)
            have := (nothing_below asked h2 _).1 (.mk ty id children) (Nat.le_refl _) ht h1 hk
            rw [everything, List.filter_cons] at this
            split at this
            · cases this
            · rw [this]; rfl
        cases ho : (decl ty).own with
        | none =>
          have hw : wanted asked (.mk ty id children) = false := by simp only [wanted, Node.ty, ho]
          rw [visit, everything, List.filter_cons, hw]
          simp only [ho, Bool.false_eq_true, if_false]; exact hb
        | some k =>
          have hw : wanted asked (.mk ty id children) = decide (k ∈ asked) := by simp only [wanted, Node.ty, ho]
          rw [visit, everything, List.filter_cons, hw]
          simp only [ho]
          by_cases hk : k ∈ asked
          · simp only [hk, if_true, decide_true, List.map_cons, Node.id]; rw [hb]
          · simp only [hk, if_false, decide_false, Bool.false_eq_true]; exact hb
    · intro cs hs ht h1
      cases cs with
      | nil => rw [visitAll]; rfl
      | cons c cs =>
        rw [TypedAll] at ht
        rw [visitAll, everythingAll, List.filter_append, List.map_append]
        rw [ih.1 c (by simp at hs; omega) ht.1 (fun m hm => h1 m (by rw [everythingAll]; exact List.mem_append_left _ hm))]
        rw [ih.2 cs (by simp at hs; omega) ht.2 (fun m hm => h1 m (by rw [everythingAll]; exact List.mem_append_right _ hm))]

/-- **C75 (partial).** A visitor is shown exactly the values of the kinds it asks for, each once, from the outside in and from left to right, although branches that cannot
have such values are skipped.
Missing: custom identifiers inside of raw tokens if the visitor does not ask for tokens (`C75_custom_ident`), and everything in the options of `image-set()`
if it does not ask for resolutions (`C75_image_set`). -/
theorem C75_visit_partial (asked : List Kind) (n : Node) (ht : Typed n) (h1 : (∃ m ∈ everything n, m.ty = .imageSetOption) → Kind.resolutions ∈ asked)
    (h2 : Kind.customIdents ∈ asked → Kind.tokens ∈ asked) : visit asked n = ((everything n).filter (wanted asked)).map Node.id :=
  (visit_all asked h2 _).1 n (Nat.le_refl _) ht (fun m hm e => h1 ⟨m, hm, e⟩)

/-- `min(1px, 2px)` as `Length`, next to `var(--a, f(url(b)))`. -/
def sample : Node := .mk .mediaCondition 0 [
  .mk .mediaFeature 1 [.mk .mediaFeatureName 2 [.mk .plain 3 []], .mk .mediaFeatureValue 4 [
    .mk .length 5 [.mk .calcLength 6 [.mk .mathLength 7 [.mk .calcLength 8 [.mk .length 9 [.mk .lengthValue 10 []]], .mk .calcLength 11 [.mk .length 12 [.mk .lengthValue 13 []]]]]]]],
  .mk .tokenList 14 [.mk .tokenOrValue 15 [.mk .variable 16 [.mk .dashedIdentReference 17 [.mk .dashedIdent 18 []],
    .mk .tokenList 19 [.mk .tokenOrValue 20 [.mk .function 21 [.mk .tokenList 22 [.mk .tokenOrValue 23 [.mk .url 24 []]]]]]]]]]

/-- The hypotheses of `C75_visit_partial` are met, and the visitor gets what it asks for. -/
example : Typed sample ∧ (¬ ∃ m ∈ everything sample, m.ty = .imageSetOption) ∧ ((everything sample).filter (wanted [.urls, .lengths])).map Node.id = [10, 13, 24] ∧
    ((everything sample).filter (wanted [.tokens])).map Node.id = [14, 15, 19, 20, 22, 23] := by
  refine ⟨?_, ?_, by decide, by decide⟩
  · simp [sample, Typed, TypedAll, Node.ty, decl]
  · simp [sample, everything, everythingAll, Node.ty]

/-- **C75 fails for custom identifiers in tokens:** a visitor that asks for custom identifiers is not shown the one in `env(a)` in a token list. -/
theorem C75_custom_ident : ∃ n, Typed n ∧ visit [.customIdents] n = [] ∧ ((everything n).filter (wanted [.customIdents])).map Node.id = [4] := by
  refine ⟨.mk .tokenList 0 [.mk .tokenOrValue 1 [.mk .environmentVariable 2 [.mk .environmentVariableName 3 [.mk .customIdent 4 []]]]], ?_, ?_, by decide⟩
  · simp [Typed, TypedAll, Node.ty, decl]
  · have h : (childTypes .tokenList).any (· ∈ [Kind.customIdents]) = false := by decide
    rw [visit, visitChildren, h]
    simp [decl]

/-- **C75 fails for `image-set()`:** a visitor that asks for urls is not shown those in `image-set(url(a) 1x)`. -/
theorem C75_image_set : ∃ n, Typed n ∧ visit [.urls] n = [] ∧ ((everything n).filter (wanted [.urls])).map Node.id = [4] := by
  refine ⟨.mk .image 0 [.mk .imageSet 1 [.mk .imageSetOption 2 [.mk .image 3 [.mk .url 4 []], .mk .resolution 5 []]]], ?_, ?_, by decide⟩
  · simp [Typed, TypedAll, Node.ty, decl]
  · have h : (childTypes .imageSet).any (· ∈ [Kind.urls]) = false := by decide
    have h' : (childTypes .image).any (· ∈ [Kind.urls]) = true := by decide
    rw [visit, visitChildren, h']
    simp only [decl, List.mem_singleton, reduceCtorEq, if_false, if_true]
    rw [visitAll, visit, visitChildren, h, visitAll]
    simp [decl]

end Verif.Visit
