import Verif.Vars.Spec
import Mathlib.Tactic.Common
/-! Substitution of variables: it ends and replaces everything when variables do not depend on themselves and nothing is empty (C74). -/
namespace Verif.Vars

variable {vars : Vars}

/-! ### More fuel does not change a result -/

theorem mono : ∀ n, (∀ seen ts r k, inlineList vars n seen ts = some r → inlineList vars (n + k) seen ts = some r) ∧
    (∀ t r k, inlineToken vars n t = some r → inlineToken vars (n + k) t = some r) := by
  intro n
  induction n with
  | zero => exact ⟨fun _ _ _ _ h => by simp [inlineList] at h, fun _ _ _ h => by simp [inlineToken] at h⟩
  | succ n ih =>
    obtain ⟨ihL, ihT⟩ := ih
    constructor
    · intro seen ts r k h
      rw [Nat.succ_add n k]
      cases ts with
      | nil => simpa [inlineList] using h
      | cons t rest =>
        rw [inlineList] at h ⊢
        cases ht : inlineToken vars n t with
        | none => rw [ht] at h; simp at h
        | some t' =>
          rw [ht] at h
          rw [ihT _ _ k ht]
          have adv : ∀ (u : Val), (inlineList vars n [] rest).map (u :: ·) = some r → (inlineList vars (n + k) [] rest).map (u :: ·) = some r := by
            intro u hu
            rw [Option.map_eq_some_iff] at hu
            obtain ⟨r', h1, h2⟩ := hu
            rw [ihL _ _ _ k h1]
            simpa using h2
          cases t' with
          | leaf s => exact adv _ h
          | wrap l a => exact adv _ h
          | two l a b => exact adv _ h
          | var name fb =>
            simp only at h ⊢
            cases hv : vars name with
            | some v =>
              simp only [hv] at h ⊢
              split at h
              · rename_i hs; rw [if_pos hs]; exact adv _ h
              · rename_i hs; rw [if_neg hs]; exact ihL _ _ _ k h
            | none =>
              cases fb with
              | none => simp only [hv] at h ⊢; exact adv _ h
              | some f =>
                simp only [hv] at h ⊢
                split at h
                · rename_i hs; rw [if_pos hs]; exact adv _ h
                · rename_i hs; rw [if_neg hs]; exact ihL _ _ _ k h
    · intro t r k h
      rw [Nat.succ_add n k]
      cases t with
      | leaf s => simpa [inlineToken] using h
      | var name fb =>
        cases fb with
        | none => simpa [inlineToken] using h
        | some f =>
          rw [inlineToken, Option.map_eq_some_iff] at h ⊢
          obtain ⟨r', h1, h2⟩ := h
          exact ⟨r', ihL _ _ _ k h1, h2⟩
      | wrap l a =>
        rw [inlineToken, Option.map_eq_some_iff] at h ⊢
        obtain ⟨r', h1, h2⟩ := h
        exact ⟨r', ihL _ _ _ k h1, h2⟩
      | two l a b =>
        rw [inlineToken] at h ⊢
        cases ha : inlineList vars n [] a with
        | none => rw [ha] at h; simp at h
        | some a' =>
          cases hb : inlineList vars n [] b with
          | none => rw [ha, hb] at h; simp at h
          | some b' => rw [ha, hb] at h; rw [ihL _ _ _ k ha, ihL _ _ _ k hb]; exact h

theorem monoL {n m : Nat} {seen ts r} (h : inlineList vars n seen ts = some r) (hm : n ≤ m) : inlineList vars m seen ts = some r := by
  obtain ⟨k, rfl⟩ := Nat.exists_eq_add_of_le hm
  exact (mono n).1 _ _ _ k h

theorem monoT {n m : Nat} {t r} (h : inlineToken vars n t = some r) (hm : n ≤ m) : inlineToken vars m t = some r := by
  obtain ⟨k, rfl⟩ := Nat.exists_eq_add_of_le hm
  exact (mono n).2 _ _ k h

/-- The loop ends with `r` when it has enough fuel. -/
def Ends (vars : Vars) (seen : List Str) (ts r : List Val) : Prop := ∃ n, inlineList vars n seen ts = some r

/-- Visiting a token ends with `r` when there is enough fuel. -/
def EndsT (vars : Vars) (t r : Val) : Prop := ∃ n, inlineToken vars n t = some r

theorem Ends.nil {seen} : Ends vars seen [] [] := ⟨1, rfl⟩

/-- A step that goes on to the next token. -/
theorem Ends.advance {seen t t' rest r} (ht : EndsT vars t t') (hv : ∀ name fb, t' = .var name fb → vars name = none ∧ fb = none)
    (hr : Ends vars [] rest r) : Ends vars seen (t :: rest) (t' :: r) := by
  obtain ⟨n, hn⟩ := ht
  obtain ⟨m, hm⟩ := hr
  refine ⟨max n m + 1, ?_⟩
  rw [inlineList, monoT hn (Nat.le_max_left n m)]
  have h2 := monoL hm (Nat.le_max_right n m)
  cases t' with
  | leaf s => simp [h2]
  | wrap l a => simp [h2]
  | two l a b => simp [h2]
  | var name fb =>
    obtain ⟨h3, h4⟩ := hv name fb rfl
    subst h4
    simp [h3, h2]

/-- A step that puts in the value of a variable. -/
theorem Ends.value {seen name fb fb' v rest r} (ht : EndsT vars (.var name fb) (.var name fb')) (hv : vars name = some v) (hs : name ∉ seen)
    (hr : Ends vars (name :: seen) (v ++ rest) r) : Ends vars seen (.var name fb :: rest) r := by
  obtain ⟨n, hn⟩ := ht
  obtain ⟨m, hm⟩ := hr
  refine ⟨max n m + 1, ?_⟩
  rw [inlineList, monoT hn (Nat.le_max_left n m)]
  have h2 := monoL hm (Nat.le_max_right n m)
  simp [hv, hs, h2]

/-- A step that puts in a fallback. -/
theorem Ends.fallback {seen name fb f rest r} (ht : EndsT vars (.var name fb) (.var name (some f))) (hv : vars name = none) (hs : name ∉ seen)
    (hr : Ends vars (name :: seen) (f ++ rest) r) : Ends vars seen (.var name fb :: rest) r := by
  obtain ⟨n, hn⟩ := ht
  obtain ⟨m, hm⟩ := hr
  refine ⟨max n m + 1, ?_⟩
  rw [inlineList, monoT hn (Nat.le_max_left n m)]
  have h2 := monoL hm (Nat.le_max_right n m)
  simp [hv, hs, h2]

theorem EndsT.leaf {s} : EndsT vars (.leaf s) (.leaf s) := ⟨1, rfl⟩
theorem EndsT.var {name} : EndsT vars (.var name none) (.var name none) := ⟨1, rfl⟩
theorem EndsT.fallback {name f f'} (h : Ends vars [] f f') : EndsT vars (.var name (some f)) (.var name (some f')) := by
  obtain ⟨n, h⟩ := h
  exact ⟨n + 1, by rw [inlineToken, h]; rfl⟩
theorem EndsT.wrap {l a a'} (h : Ends vars [] a a') : EndsT vars (.wrap l a) (.wrap l a') := by
  obtain ⟨n, h⟩ := h
  exact ⟨n + 1, by rw [inlineToken, h]; rfl⟩
theorem EndsT.two {l a a' b b'} (h : Ends vars [] a a') (h' : Ends vars [] b b') : EndsT vars (.two l a b) (.two l a' b') := by
  obtain ⟨n, h⟩ := h
  obtain ⟨m, h'⟩ := h'
  exact ⟨max n m + 1, by rw [inlineToken, monoL h (Nat.le_max_left n m), monoL h' (Nat.le_max_right n m)]⟩

/-! ### Lists in which nothing is left to replace -/

/-- Nothing is left to replace. -/
inductive Done (vars : Vars) : List Val → Prop
  | nil : Done vars []
  | leaf {s ts} : Done vars ts → Done vars (.leaf s :: ts)
  | var {name ts} : vars name = none → Done vars ts → Done vars (.var name none :: ts)
  | wrap {l a ts} : Done vars a → Done vars ts → Done vars (.wrap l a :: ts)
  | two {l a b ts} : Done vars a → Done vars b → Done vars ts → Done vars (.two l a b :: ts)

theorem Done.append {a b} (h : Done vars a) (h' : Done vars b) : Done vars (a ++ b) := by
  induction h with
  | nil => exact h'
  | leaf _ ih => exact .leaf ih
  | var h _ ih => exact .var h ih
  | wrap ha _ _ ih => exact .wrap ha ih
  | two ha hb _ _ _ ih => exact .two ha hb ih

theorem Replaced.done {a b} (h : Replaced vars a b) : Done vars b := by
  induction h with
  | nil => exact .nil
  | leaf _ ih => exact .leaf ih
  | value _ _ _ ih1 ih2 => exact ih1.append ih2
  | fallback _ _ _ ih1 ih2 => exact ih1.append ih2
  | unknown h _ ih => exact .var h ih
  | wrap _ _ ih1 ih2 => exact .wrap ih1 ih2
  | two _ _ _ ih1 ih2 ih3 => exact .two ih1 ih2 ih3

theorem Done.ends {a} (h : Done vars a) : ∀ seen rest r, (a ≠ [] ∨ seen = []) → Ends vars [] rest r → Ends vars seen (a ++ rest) (a ++ r) := by
  induction h with
  | nil => intro seen rest r hs hr; rcases hs with hs | hs; exacts [absurd rfl hs, hs ▸ hr]
  | leaf _ ih => intro seen rest r _ hr; exact .advance .leaf (by simp) (ih [] rest r (.inr rfl) hr)
  | var h _ ih =>
    intro seen rest r _ hr
    exact .advance .var (by intro n fb e; cases e; exact ⟨h, rfl⟩) (ih [] rest r (.inr rfl) hr)
  | wrap _ _ ih1 ih2 =>
    intro seen rest r _ hr
    have := ih1 [] [] [] (.inr rfl) .nil
    simp only [List.append_nil] at this
    exact .advance (.wrap this) (by simp) (ih2 [] rest r (.inr rfl) hr)
  | two _ _ _ ih1 ih2 ih3 =>
    intro seen rest r _ hr
    have h1 := ih1 [] [] [] (.inr rfl) .nil
    have h2 := ih2 [] [] [] (.inr rfl) .nil
    simp only [List.append_nil] at h1 h2
    exact .advance (.two h1 h2) (by simp) (ih3 [] rest r (.inr rfl) hr)

/-! ### The loop follows the specification -/

theorem Replaced.ne {a b} (h : Replaced vars a b) (hv : ∀ n, vars n ≠ some []) (he : ¬ EmptyFallback a) (hv2 : ∀ n v, vars n = some v → ¬ EmptyFallback v) :
    a ≠ [] → b ≠ [] := by
  induction h with
  | nil => exact fun h => h
  | leaf => simp
  | @value name fb v v' ts us hd _ _ ih1 _ =>
    intro _ e
    have : v ≠ [] := fun e => hv name (e ▸ hd)
    exact ih1 (hv2 _ _ hd) this (List.append_eq_nil_iff.1 e).1
  | @fallback name f f' ts us hd _ _ ih1 _ =>
    intro _ e
    have : f ≠ [] := fun e => he (e ▸ .here)
    exact ih1 (fun h => he (.fallback h)) this (List.append_eq_nil_iff.1 e).1
  | unknown => simp
  | wrap => simp
  | two => simp

theorem ends_of {rank : Str → Nat} (hrank : ∀ n v, vars n = some v → ∀ m, Refers m v → rank m < rank n)
    (hv : ∀ n, vars n ≠ some []) (hv2 : ∀ n v, vars n = some v → ¬ EmptyFallback v) : ∀ k : Nat, ∀ s : Nat, ∀ a : List Val, sizeOf a ≤ s → (∀ n, Refers n a → rank n < k) →
    ¬ EmptyFallback a → ∃ b, Replaced vars a b ∧
    ∀ seen rest r, (∀ m ∈ seen, ∀ n, Refers n a → rank n < rank m) → (a ≠ [] ∨ seen = []) → Ends vars [] rest r → Ends vars seen (a ++ rest) (b ++ r) := by
  intro k
  induction k using Nat.strongRecOn with
  | _ k ihk =>
  intro s
  induction s with
  | zero => intro a hs; cases a <;> simp at hs
  | succ s ih =>
    intro a hs hk he
    cases a with
    | nil => exact ⟨[], .nil, fun seen rest r _ hs hr => by rcases hs with hs | hs; exacts [absurd rfl hs, hs ▸ hr]⟩
    | cons t ts =>
      obtain ⟨us, hts, ihts⟩ := ih ts (by simp at hs; omega) (fun n h => hk n (.later h)) (fun h => he (.later h))
      have ihts : ∀ rest r, Ends vars [] rest r → Ends vars [] (ts ++ rest) (us ++ r) := fun rest r h => ihts [] rest r (by simp) (.inr rfl) h
      have sub : ∀ f : List Val, sizeOf f ≤ s → (∀ n, Refers n f → Refers n (t :: ts)) → (EmptyFallback f → EmptyFallback (t :: ts)) →
          ∃ f', Replaced vars f f' ∧ Ends vars [] f f' := by
        intro f h1 h2 h3
        obtain ⟨f', h4, h5⟩ := ih f h1 (fun n h => hk n (h2 n h)) (fun h => he (h3 h))
        have := h5 [] [] [] (by simp) (.inr rfl) .nil
        simp only [List.append_nil] at this
        exact ⟨f', h4, this⟩
      cases t with
      | leaf c => exact ⟨_, .leaf hts, fun seen rest r _ _ hr => .advance .leaf (by simp) (ihts rest r hr)⟩
      | wrap l a =>
        obtain ⟨a', h1, h2⟩ := sub a (by simp at hs; omega) (fun n h => .wrap h) (fun h => .wrap h)
        exact ⟨_, .wrap h1 hts, fun seen rest r _ _ hr => .advance (.wrap h2) (by simp) (ihts rest r hr)⟩
      | two l a b =>
        obtain ⟨a', h1, h2⟩ := sub a (by simp at hs; omega) (fun n h => .left h) (fun h => .left h)
        obtain ⟨b', h3, h4⟩ := sub b (by simp at hs; omega) (fun n h => .right h) (fun h => .right h)
        exact ⟨_, .two h1 h3 hts, fun seen rest r _ _ hr => .advance (.two h2 h4) (by simp) (ihts rest r hr)⟩
      | var name fb =>
        have hns : ∀ seen : List Str, (∀ m ∈ seen, ∀ n, Refers n (.var name fb :: ts) → rank n < rank m) → name ∉ seen :=
          fun seen h hm => absurd (h name hm name .here) (Nat.lt_irrefl _)
        have hfb : ∀ f, fb = some f → ∃ f', Replaced vars f f' ∧ Ends vars [] f f' := by
          rintro f rfl
          exact sub f (by simp at hs; omega) (fun n h => .fallback h) (fun h => .fallback h)
        cases hd : vars name with
        | some v =>
          have ht : ∃ fb', EndsT vars (.var name fb) (.var name fb') := by
            cases fb with
            | none => exact ⟨_, .var⟩
            | some f => obtain ⟨f', _, h⟩ := hfb f rfl; exact ⟨_, .fallback h⟩
          obtain ⟨fb', ht⟩ := ht
          obtain ⟨v', h1, h2⟩ := ihk (rank name) (hk name .here) (sizeOf v) v (Nat.le_refl _) (hrank name v hd) (hv2 _ _ hd)
          refine ⟨_, .value hd h1 hts, fun seen rest r hlt _ hr => .value ht hd (hns seen hlt) ?_⟩
          rw [List.append_assoc]
          refine h2 (name :: seen) (ts ++ rest) (us ++ r) ?_ (.inl fun e => hv name (e ▸ hd)) (ihts rest r hr)
          intro m hm n hn
          have h1 := hrank name v hd n hn
          rcases List.mem_cons.1 hm with rfl | hm
          · exact h1
          · exact Nat.lt_trans h1 (hlt m hm name .here)
        | none =>
          cases fb with
          | none =>
            exact ⟨_, .unknown hd hts, fun seen rest r _ _ hr => .advance .var (by intro n fb e; cases e; exact ⟨hd, rfl⟩) (ihts rest r hr)⟩
          | some f =>
            obtain ⟨f', h1, h2⟩ := hfb f rfl
            refine ⟨_, .fallback hd h1 hts, fun seen rest r hlt _ hr => .fallback (.fallback h2) hd (hns seen hlt) ?_⟩
            rw [List.append_assoc]
            have hne : f' ≠ [] := h1.ne hv (fun h => he (.fallback h)) hv2 (fun e => he (e ▸ .here))
            exact h1.done.ends _ _ _ (.inl hne) (ihts rest r hr)

theorem refers_bound (rank : Str → Nat) (a : List Val) : ∃ k, ∀ n, Refers n a → rank n < k := by
  have key : ∀ s : Nat, ∀ a : List Val, sizeOf a ≤ s → ∃ k, ∀ n, Refers n a → rank n < k := by
    intro s
    induction s with
    | zero => intro a hs; cases a <;> simp at hs
    | succ s ih =>
      intro a hs
      cases a with
      | nil => exact ⟨0, fun n h => nomatch h⟩
      | cons t ts =>
        obtain ⟨k0, h0⟩ := ih ts (by simp at hs; omega)
        cases t with
        | leaf c => exact ⟨k0, fun n h => by cases h with | later h => exact h0 n h⟩
        | wrap l a =>
          obtain ⟨k1, h1⟩ := ih a (by simp at hs; omega)
          refine ⟨k0 + k1, fun n h => ?_⟩
          cases h with
          | later h => have := h0 n h; omega
          | wrap h => have := h1 n h; omega
        | two l a b =>
          obtain ⟨k1, h1⟩ := ih a (by simp at hs; omega)
          obtain ⟨k2, h2⟩ := ih b (by simp at hs; omega)
          refine ⟨k0 + k1 + k2, fun n h => ?_⟩
          cases h with
          | later h => have := h0 n h; omega
          | left h => have := h1 n h; omega
          | right h => have := h2 n h; omega
        | var name fb =>
          cases fb with
          | none =>
            refine ⟨k0 + rank name + 1, fun n h => ?_⟩
            cases h with
            | later h => have := h0 n h; omega
            | here => omega
          | some f =>
            obtain ⟨k1, h1⟩ := ih f (by simp at hs; omega)
            refine ⟨k0 + k1 + rank name + 1, fun n h => ?_⟩
            cases h with
            | later h => have := h0 n h; omega
            | here => omega
            | fallback h => have := h1 n h; omega
  exact key (sizeOf a) a (Nat.le_refl _)

/-- The specification determines the result. -/
theorem Replaced.unique {a b} (h : Replaced vars a b) : ∀ c, Replaced vars a c → b = c := by
  induction h with
  | nil => intro c h; cases h; rfl
  | leaf _ ih => intro c h; cases h with | leaf h => rw [ih _ h]
  | value hd _ _ ih1 ih2 =>
    intro c h
    cases h with
    | value hd' h1 h2 => rw [hd] at hd'; cases hd'; rw [ih1 _ h1, ih2 _ h2]
    | fallback hd' => rw [hd] at hd'; cases hd'
    | unknown hd' => rw [hd] at hd'; cases hd'
  | fallback hd _ _ ih1 ih2 =>
    intro c h
    cases h with
    | value hd' => rw [hd] at hd'; cases hd'
    | fallback hd' h1 h2 => rw [ih1 _ h1, ih2 _ h2]
  | unknown hd _ ih =>
    intro c h
    cases h with
    | value hd' => rw [hd] at hd'; cases hd'
    | unknown hd' h => rw [ih _ h]
  | wrap _ _ ih1 ih2 => intro c h; cases h with | wrap h1 h2 => rw [ih1 _ h1, ih2 _ h2]
  | two _ _ _ ih1 ih2 ih3 => intro c h; cases h with | two h1 h2 h3 => rw [ih1 _ h1, ih2 _ h2, ih3 _ h3]

/-- **C74 (partial).** If no variable depends on itself and no value or fallback is empty, then substitution ends (with any amount of fuel from some amount on)
and replaces every reference, at any depth, as specified.
Missing: with values that depend on themselves it may run for ever (`C74_runs_forever`, `C74_runs_forever_nested`), and empty values stop the next reference
from being replaced (`C74_empty`). -/
theorem C74_substitute_partial (vars : Vars) (tokens : List Val) (ha : Acyclic vars) (hv : ∀ n, vars n ≠ some [])
    (he : ∀ n v, vars n = some v → ¬ EmptyFallback v) (ht : ¬ EmptyFallback tokens) :
    ∃ result, Replaced vars tokens result ∧ (∀ other, Replaced vars tokens other → other = result) ∧
      ∃ enough, ∀ fuel, enough ≤ fuel → substituteVariables vars fuel tokens = some result := by
  obtain ⟨rank, hrank⟩ := ha
  have hb : ∃ k, ∀ n, Refers n tokens → rank n < k := refers_bound rank tokens
  obtain ⟨k, hk⟩ := hb
  obtain ⟨b, h1, h2⟩ := ends_of hrank hv he k (sizeOf tokens) tokens (Nat.le_refl _) hk ht
  obtain ⟨n, hn⟩ := h2 [] [] [] (by simp) (.inr rfl) .nil
  simp only [List.append_nil] at hn
  exact ⟨b, h1, fun c hc => (h1.unique c hc).symm, n, fun m hm => monoL hn hm⟩

/-! ### Where it fails -/

/-- `--a: x var(--a)` -/
def selfRef : Vars := fun n => if n = cs!"--a" then some [.leaf cs!"x", .var cs!"--a" none] else none

/-- **C74 fails with circular references:** `var(--a)` with `--a: x var(--a)` is replaced again and again; no amount of fuel is enough. -/
theorem C74_runs_forever (fuel : Nat) : substituteVariables selfRef fuel [.var cs!"--a" none] = none := by
  have key : ∀ n, inlineList selfRef n [] [.var cs!"--a" none] = none ∧ inlineList selfRef n [cs!"--a"] [.leaf cs!"x", .var cs!"--a" none] = none := by
    intro n
    induction n with
    | zero => exact ⟨rfl, rfl⟩
    | succ n ih =>
      constructor
      · rw [inlineList]
        cases n with
        | zero => rfl
        | succ n => simpa [inlineToken, selfRef] using ih.2
      · rw [inlineList]
        cases n with
        | zero => rfl
        | succ n => simpa [inlineToken] using ih.1
  exact (key fuel).1

/-- `--a: f(var(--a))` -/
def selfWrap : Vars := fun n => if n = cs!"--a" then some [.wrap cs!"f" [.var cs!"--a" none]] else none

/-- The same inside of a function, where the recursion is without end. -/
theorem C74_runs_forever_nested (fuel : Nat) : substituteVariables selfWrap fuel [.var cs!"--a" none] = none := by
  have key : ∀ n, inlineList selfWrap n [] [.var cs!"--a" none] = none ∧ inlineList selfWrap n [cs!"--a"] [.wrap cs!"f" [.var cs!"--a" none]] = none := by
    intro n
    induction n using Nat.strongRecOn with
    | _ n ih =>
    cases n with
    | zero => exact ⟨rfl, rfl⟩
    | succ n =>
      constructor
      · rw [inlineList]
        cases n with
        | zero => rfl
        | succ n => simpa [inlineToken, selfWrap] using (ih (n + 1) (by omega)).2
      · rw [inlineList]
        cases n with
        | zero => rfl
        | succ n => simp [inlineToken, (ih n (by omega)).1]
  exact (key fuel).1

/-- `--a:;` -/
def emptyVar : Vars := fun n => if n = cs!"--a" then some [] else none

/-- **C74 fails with empty values:** in `var(--a)var(--a)` with an empty `--a`, the second reference is left in the result. -/
theorem C74_empty : substituteVariables emptyVar 10 [.var cs!"--a" none, .var cs!"--a" none] = some [.var cs!"--a" none] ∧
    Replaced emptyVar [.var cs!"--a" none, .var cs!"--a" none] [] :=
  ⟨rfl, .value (v := []) rfl .nil (.value (v := []) rfl .nil .nil)⟩

/-- `--a: var(--b, x) y; --b: f(var(--c, z))` -/
def sampleVars : Vars := fun n =>
  if n = cs!"--a" then some [.var cs!"--b" (some [.leaf cs!"x"]), .leaf cs!"y"]
  else if n = cs!"--b" then some [.wrap cs!"f" [.var cs!"--c" (some [.leaf cs!"z"])]] else none

/-- The hypotheses of `C74_substitute_partial` are met by values with nested references and fallbacks, and the result is the expected one. -/
example : Acyclic sampleVars ∧ (∀ n, sampleVars n ≠ some []) ∧ (∀ n v, sampleVars n = some v → ¬ EmptyFallback v) ∧
    substituteVariables sampleVars 20 [.var cs!"--a" none, .var cs!"--d" none] = some [.wrap cs!"f" [.leaf cs!"z"], .leaf cs!"y", .var cs!"--d" none] := by
  refine ⟨⟨fun n => if n = cs!"--a" then 2 else if n = cs!"--b" then 1 else 0, ?_⟩, ?_, ?_, rfl⟩
  · intro n v h m hm
    unfold sampleVars at h
    split at h
    · rename_i e; subst e; cases h
      cases hm with
      | here => decide
      | later h => cases h with | later h => cases h
      | fallback h => cases h with | later h => cases h
    · split at h
      · rename_i e; subst e; cases h
        cases hm with
        | later h => cases h
        | wrap h =>
          cases h with
          | here => decide
          | later h => cases h
          | fallback h => cases h with | later h => cases h
      · cases h
  · intro n h
    unfold sampleVars at h
    split at h
    · cases h
    · split at h <;> cases h
  · intro n v h he
    unfold sampleVars at h
    split at h
    · cases h
      cases he with
      | later h => cases h with | later h => cases h
      | fallback h => cases h with | later h => cases h
    · split at h
      · cases h
        cases he with
        | later h => cases h
        | wrap h =>
          cases h with
          | later h => cases h
          | fallback h => cases h with | later h => cases h
      · cases h

end Verif.Vars
