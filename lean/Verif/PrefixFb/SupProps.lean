import Verif.PrefixFb.SupModel
import Verif.PrefixFb.FbProps
import Verif.Fallback.TokenProps
/-!
# C106: `@supports` rules for fallbacks
-/
namespace Verif.PrefixFb
open Verif.Targets Verif.Fallback

variable {T : Type}

/-- In each `@supports` rule the last declaration wins. -/
def Rules (es : Entries T) (rules : List (Kind × T)) : Prop := List.Forall₂ (fun e r => e.1 = r.1 ∧ e.2.getLast? = some r.2) es rules

/-- Adding one fallback: it is the last one in its rule. -/
theorem add_new (es : Entries T) (k : Kind) (x : T) (h : k ∉ es.map Prod.fst) : addConditional es (k, x) = es ++ [(k, [x])] := by
  induction es with
  | nil => rfl
  | cons e es ih =>
    obtain ⟨k', xs⟩ := e
    simp only [List.map_cons, List.mem_cons, not_or] at h
    simp only [addConditional, if_neg h.1, ih h.2, List.cons_append]

theorem add_old (es : Entries T) (k : Kind) (x : T) : ∀ a xs b, es = a ++ (k, xs) :: b → k ∉ a.map Prod.fst → addConditional es (k, x) = a ++ (k, xs ++ [x]) :: b := by
  intro a
  induction a generalizing es with
  | nil => rintro xs b rfl -; simp [addConditional]
  | cons e a ih =>
    rintro xs b rfl h
    obtain ⟨k', ys⟩ := e
    simp only [List.map_cons, List.mem_cons, not_or] at h
    simp only [List.cons_append, addConditional, if_neg h.1, ih _ xs b rfl h.2]

/-- Adding fallbacks of all kinds that are there, in the same order. -/
theorem add_same : ∀ (rs : List (Kind × T)) (a es : Entries T), (a ++ es).map Prod.fst |>.Nodup → es.map Prod.fst = rs.map Prod.fst →
    ∃ es', rs.foldl addConditional (a ++ es) = a ++ es' ∧ Rules es' rs := by
  intro rs
  induction rs with
  | nil =>
    intro a es _ h
    have : es = [] := by simpa using h
    subst this
    exact ⟨[], rfl, .nil⟩
  | cons r rs ih =>
    intro a es hn h
    obtain ⟨k, x⟩ := r
    cases es with
    | nil => cases h
    | cons e es =>
      obtain ⟨k', xs⟩ := e
      simp only [List.map_cons, List.cons.injEq] at h
      obtain ⟨rfl, h⟩ := h
      have hk : k' ∉ a.map Prod.fst := by
        intro hm
        simp only [List.map_append, List.map_cons] at hn
        exact (List.nodup_append.1 hn).2.2 _ hm _ List.mem_cons_self rfl
      rw [List.foldl_cons, add_old _ k' x a xs es rfl hk]
      have e' : a ++ (k', xs ++ [x]) :: es = (a ++ [(k', xs ++ [x])]) ++ es := by simp
      rw [e']
      obtain ⟨es', h1, h2⟩ := ih (a ++ [(k', xs ++ [x])]) es (by simpa using hn) h
      refine ⟨(k', xs ++ [x]) :: es', by rw [h1]; simp, .cons ⟨rfl, by simp⟩ h2⟩

theorem add_fresh : ∀ (rs : List (Kind × T)) (a : Entries T), (a.map Prod.fst ++ rs.map Prod.fst).Nodup → rs.foldl addConditional a = a ++ rs.map (fun r => (r.1, [r.2])) := by
  intro rs
  induction rs with
  | nil => intro a _; simp
  | cons r rs ih =>
    intro a h
    obtain ⟨k, x⟩ := r
    have hk : k ∉ a.map Prod.fst := by
      intro hm
      exact (List.nodup_append.1 h).2.2 _ hm _ List.mem_cons_self rfl
    rw [List.foldl_cons, add_new a k x hk, ih]
    · simp
    · simpa using h

/-- **C106 (partial).** A custom property that is declared several times in a style rule: in every browser, the value that takes effect is the one that would take effect if only the last declaration were there; so `C102` and `C103` apply to it.
Not covered: earlier declarations that need other `@supports` rules than the last one (`C106_stale`). -/
theorem C106_last_partial [DecidableEq T] (fb : T → List (Kind × T) × T) (init : List T) (v : T) (hk : ∀ e, ((fb e).1.map Prod.fst).Nodup)
    (hi : ∀ e ∈ init, (fb e).1 = [] ∨ (fb e).1.map Prod.fst = (fb v).1.map Prod.fst) (hs : ∀ e ∈ init, (fb e).2 = v → fb v = ([], v)) :
    ∃ base rules, (minifyCustom fb (init ++ [v])).decl = some base ∧ Rules (minifyCustom fb (init ++ [v])).entries rules ∧
      ∀ b ver x, Used b ver base rules x ↔ Used b ver (fb v).2 (fb v).1 x := by
  have inv : ∀ (es : List T), (∀ e ∈ es, e ∈ init) → ((minifyCustom fb es).entries = [] ∨ (minifyCustom fb es).entries.map Prod.fst = (fb v).1.map Prod.fst) ∧
      ((minifyCustom fb es).decl = none ∨ ∃ e ∈ es, (minifyCustom fb es).decl = some (fb e).2) := by
    intro es
    induction es using List.reverseRecOn with
    | nil => intro _; exact ⟨Or.inl rfl, Or.inl rfl⟩
    | append_singleton es e ih =>
      intro hm
      obtain ⟨h1, h2⟩ := ih fun x hx => hm x (List.mem_append_left _ hx)
      have e0 : minifyCustom fb (es ++ [e]) = handleCustom fb (minifyCustom fb es) e := by unfold minifyCustom; simp
      rw [e0]
      unfold handleCustom
      split
      · refine ⟨h1, ?_⟩
        rcases h2 with h2 | ⟨x, hx, h2⟩
        · exact Or.inl h2
        · exact Or.inr ⟨x, List.mem_append_left _ hx, h2⟩
      · refine ⟨?_, Or.inr ⟨e, by simp, rfl⟩⟩
        simp only
        rcases hi e (hm e (by simp)) with he | he
        · rw [he]; exact h1
        · rcases h1 with h1 | h1
          · right
            rw [h1, add_fresh _ [] (by simpa using hk e)]
            simp only [List.nil_append, List.map_map]
            exact he
          · right
            obtain ⟨es', h3, h4⟩ := add_same (fb e).1 [] (minifyCustom fb es).entries (by rw [List.nil_append, h1, ← he]; exact hk e) (by rw [h1, he])
            rw [List.nil_append, List.nil_append] at h3
            rw [h3, ← he]
            have : ∀ (l : Entries T) (r : List (Kind × T)), Rules l r → l.map Prod.fst = r.map Prod.fst := by
              intro l r h
              induction h with
              | nil => rfl
              | cons h _ ih => simp [h.1, ih]
            exact this _ _ h4
  obtain ⟨h1, h2⟩ := inv init fun _ h => h
  have e0 : minifyCustom fb (init ++ [v]) = handleCustom fb (minifyCustom fb init) v := by unfold minifyCustom; simp
  rw [e0]
  unfold handleCustom
  split
  · rename_i heq
    have hv : fb v = ([], v) := by
      rcases h2 with h2 | ⟨x, hx, h2⟩
      · rw [heq] at h2; cases h2
      · rw [heq] at h2; cases h2
        exact hs x hx rfl
    have hen : (minifyCustom fb init).entries = [] := by
      rcases h1 with h1 | h1
      · exact h1
      · rw [hv] at h1; simpa using h1
    refine ⟨v, [], heq, by rw [hen]; exact .nil, ?_⟩
    intro b ver x
    rw [hv]
  · refine ⟨(fb v).2, (fb v).1, rfl, ?_, fun _ _ _ => Iff.rfl⟩
    simp only
    rcases h1 with h1 | h1
    · rw [h1, add_fresh _ [] (by simpa using hk v)]
      simp only [List.nil_append]
      unfold Rules
      rw [List.forall₂_map_left_iff]
      exact List.forall₂_same.2 fun _ _ => ⟨rfl, rfl⟩
    · obtain ⟨es', h3, h4⟩ := add_same (fb v).1 [] (minifyCustom fb init).entries (by rw [List.nil_append, h1]; exact hk v) h1
      rw [List.nil_append, List.nil_append] at h3
      rw [h3]; exact h4

/-- **C106 for token lists.** The kinds of the fallbacks of a token list are different, as `C106_last_partial` requires. -/
theorem kinds_nodup {C : Type} {conv : Kind → Space → C → C} {e : Bool} {t : Targets} {ts : List (Tok C)} {res : List (Kind × List (Tok C))} {base : List (Tok C)}
    (h : tokFallbacks conv e t ts = some (res, base)) : (res.map Prod.fst).Nodup := by
  obtain ⟨p, l, rfl, hp, hl, -⟩ := tokFallbacks_some h
  rcases hp with ⟨-, x, -, rfl⟩ | ⟨-, rfl⟩ <;> rcases hl with ⟨-, y, -, rfl⟩ | ⟨-, rfl⟩ <;> simp

/-- Some values to show what goes wrong: `red`, `var(--y, lab(..))`, and its RGB version. -/
inductive Sample
  | red | lab | rgb
deriving DecidableEq

/-- The token list of a sample. -/
def Sample.toks : Sample → List (Tok Nat)
  | .red => [.color (.leaf .rgba 1)]
  | .lab => [.var cs!"--y" [.color (.leaf .lab 2)]]
  | .rgb => [.var cs!"--y" [.color (.leaf .rgba 2)]]

/-- The fallbacks of the samples for Chrome 90. -/
def Sample.fb : Sample → List (Kind × Sample) × Sample
  | .lab => ([(.lab, .lab)], .rgb)
  | x => ([], x)

/-- They are those of the token lists. -/
theorem Sample.fb_toks (x : Sample) : tokFallbacks (fun _ _ v => v) false chrome90 x.toks = some (x.fb.1.map (fun r => (r.1, r.2.toks)), x.fb.2.toks) := by
  cases x <;> rfl

/-- Non-vacuity of C106: `--x: red` and twice `--x: var(--y, lab(..))`. -/
example : (∀ e, ((Sample.fb e).1.map Prod.fst).Nodup) ∧ (∀ e ∈ [Sample.red, .lab], (Sample.fb e).1 = [] ∨ (Sample.fb e).1.map Prod.fst = (Sample.fb .lab).1.map Prod.fst) ∧
    (∀ e ∈ [Sample.red, .lab], (Sample.fb e).2 = .lab → Sample.fb .lab = ([], .lab)) ∧ minifyCustom Sample.fb [.red, .lab, .lab] = ⟨some .rgb, [(.lab, [.lab, .lab])]⟩ := by
  refine ⟨?_, ?_, ?_, rfl⟩
  · intro e; cases e <;> decide
  · decide
  · decide

/-- **C106, what goes wrong.** `--x: var(--y, lab(..)); --x: red` for Chrome 90 becomes `--x: red` and `@supports (color: lab(0% 0 0)) { --x: var(--y, lab(..)) }`: in Chrome 120 the overridden value takes effect. -/
theorem C106_stale : minifyCustom Sample.fb [.lab, .red] = ⟨some .red, [(.lab, [.lab])]⟩ ∧ Rules [(Kind.lab, [Sample.lab])] [(.lab, .lab)] ∧
    Used .chrome (120 * 65536) Sample.red [(.lab, .lab)] .lab := by
  refine ⟨rfl, .cons ⟨rfl, rfl⟩ .nil, Used.yes (rules := []) ?_⟩
  unfold Holds Supports; decide

/-- The handler of `color` for the samples: `red` is compatible. -/
def Sample.config : Config Sample := ⟨none, fun v => ([], v), fun _ => true, fun v => v.fb.2⟩

/-- **C106, what goes wrong.** The same with `color: var(--y, lab(..)); color: red`. -/
theorem C106_stale_unparsed :
    let ds := [Item.unparsed Sample.lab Prefix.none.set, .own .red Prefix.none.set]
    minifyFallback Sample.config chrome90 ds = [.own .red Prefix.none.set] ∧ unparsedEntries Sample.fb ds = [(.lab, [.lab])] := by
  exact ⟨rfl, rfl⟩

end Verif.PrefixFb
