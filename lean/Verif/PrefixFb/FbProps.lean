import Verif.PrefixFb.FbModel
import Verif.PrefixFb.Props
import Verif.Fallback.Props
/-!
# C105: properties with fallbacks
-/
namespace Verif.PrefixFb
open Verif.Targets Verif.Fallback

variable {V : Type}

/-- The index points at the last declaration of the property, if there is one. -/
def FInv (s : State V) : Prop :=
  (s.index = none ∧ ∀ d ∈ s.dest, ¬ d.IsOwn ∧ ¬ d.IsUnparsed) ∨ ∃ a x b, s.dest = a ++ x :: b ∧ s.index = some a.length ∧ ∀ d ∈ b, ¬ d.IsOwn ∧ ¬ d.IsUnparsed

/-- How the winners before and after correspond. -/
def Corr (c : Config V) (ds : List (Item V)) (index : Option Nat) : Option (Won V) → Option (Won V) → Prop
  | some (.value v), y => y = some (.value v) ∨ y = some (.value (c.fallbacks v).2)
  | some (.unparsed v), y => y = some (.unparsed (c.lowest v))
  | none, y => (index = none ∧ y = none ∧ ∀ d ∈ ds, ¬ d.IsOwn) ∨ (index ≠ none ∧ ∃ v p, .own v p ∈ ds ∧ ∃ z ∈ (c.fallbacks v).1 ++ [(c.fallbacks v).2], y = some (.value z))

theorem corr_mono {c : Config V} {ds ds' : List (Item V)} {i i' : Option Nat} {x y : Option (Won V)} (h : Corr c ds i x y) (hd : ∀ d ∈ ds, d ∈ ds') (hi : i ≠ none) (hi' : i' ≠ none) : Corr c ds' i' x y := by
  match x, h with
  | some (.value _), h => exact h
  | some (.unparsed _), h => exact h
  | none, h =>
    rcases h with ⟨h, -⟩ | ⟨-, v, p, h1, h2⟩
    · exact absurd h hi
    · exact Or.inr ⟨hi', v, p, hd _ h1, h2⟩

theorem fb_aux {all : List (Item V)} (c : Config V) (hf : c.feature = none) (t : Targets) (hb : t.browsers.isSome) (w : View V) (hk : w.knows .none)
    (h1 : ∀ v, w.understands v → w.understands (c.fallbacks v).2) (h2 : ∀ v p, .own v p ∈ all → ∃ y ∈ (c.fallbacks v).1 ++ [(c.fallbacks v).2], w.understands y)
    (h3 : ∀ v, c.compatible v = true → w.understands v) : ∀ (ds done : List (Item V)) (s : State V), (∀ d ∈ ds, d ∈ all) → FInv s → (∀ d ∈ done ++ ds, d.IsOwn ∨ d.IsUnparsed → d.Names .none) →
    Corr c done s.index (w.win done) (w.win s.dest) → (s.index = none → ∀ d ∈ done, ¬ d.IsOwn ∧ ¬ d.IsUnparsed) →
    Corr c (done ++ ds) (ds.foldl (handleFallback c t) s).index (w.win (done ++ ds)) (w.win (ds.foldl (handleFallback c t) s).dest) := by
  have pid : ∀ p, c.prefixes t p = p := fun p => by unfold Config.prefixes; rw [hf]
  intro ds
  induction ds with
  | nil => intro done s _ _ _ h _; simpa using h
  | cons d ds ih =>
    intro done s hall hs hn hc hz
    rw [List.foldl_cons]
    have e : done ++ d :: ds = (done ++ [d]) ++ ds := by simp
    rw [e]
    have kn : ∀ p : PrefixSet, p.has .none = true → w.Knows p := fun p h => ⟨.none, hk, h⟩
    suffices step : FInv (handleFallback c t s d) ∧ Corr c (done ++ [d]) (handleFallback c t s d).index (w.win (done ++ [d])) (w.win (handleFallback c t s d).dest) ∧
        ((handleFallback c t s d).index = none → ∀ e ∈ done ++ [d], ¬ e.IsOwn ∧ ¬ e.IsUnparsed) from
      ih _ _ (fun x hx => hall x (List.mem_cons_of_mem _ hx)) step.1 (by rw [← e]; exact hn) step.2.1 step.2.2
    cases d with
    | other x =>
      have no : ∀ e ∈ [Item.other (V := V) x], ¬ e.IsOwn ∧ ¬ e.IsUnparsed := by
        intro e he
        simp only [List.mem_singleton] at he
        subst he
        exact ⟨fun h => h, fun h => h⟩
      have w0 : w.win [Item.other (V := V) x] = none := rfl
      refine ⟨?_, ?_, ?_⟩
      · unfold handleFallback
        rcases hs with ⟨hi, hs⟩ | ⟨a, y, b, hd, hi, hb⟩
        · left
          refine ⟨hi, fun e he => ?_⟩
          rcases List.mem_append.1 he with he | he
          · exact hs e he
          · exact no e he
        · right
          refine ⟨a, y, b ++ [.other x], by simp [hd], hi, fun e he => ?_⟩
          rcases List.mem_append.1 he with he | he
          · exact hb e he
          · exact no e he
      · simp only [handleFallback, win_append, w0, Option.none_or]
        by_cases hi : s.index = none
        · rw [hi] at hc ⊢
          have := hz hi
          have wd : w.win done = none := win_other w done (fun e he => (this e he).1) (fun e he => (this e he).2)
          rw [wd] at hc ⊢
          rcases hc with ⟨-, h, h'⟩ | ⟨h, -⟩
          · refine Or.inl ⟨rfl, h, fun e he => ?_⟩
            rcases List.mem_append.1 he with he | he
            · exact h' e he
            · exact (no e he).1
          · exact absurd rfl h
        · exact corr_mono hc (fun d hd => List.mem_append_left _ hd) hi hi
      · intro hi e he
        rcases List.mem_append.1 he with he | he
        · exact hz hi e he
        · exact no e he
    | unparsed v p =>
      have hp : p.has .none = true := hn (.unparsed v p) (by simp) (Or.inr trivial)
      have wu : w.win (done ++ [.unparsed v p]) = some (.unparsed v) := by
        rw [win_append]; simp [View.win, View.set, kn p hp]
      unfold handleFallback
      simp only [pid, ite_self]
      rcases hs with ⟨hi, hs⟩ | ⟨a, y, b, hd, hi, hb⟩
      · simp only [hi]
        refine ⟨Or.inr ⟨s.dest, _, [], rfl, rfl, by simp⟩, ?_, by intro h; cases h⟩
        rw [wu]
        show w.win (s.dest ++ [_]) = _
        rw [win_append]; simp [View.win, View.set, kn p hp]
      · simp only [hi]
        rw [put_eq s a _ _ b hd]
        refine ⟨Or.inr ⟨a, _, b, rfl, hi, hb⟩, ?_, by intro h; rw [hi] at h; cases h⟩
        rw [wu]
        show w.win (a ++ _ :: b) = _
        rw [win_append]
        simp [View.win, View.set, kn p hp, win_other w b (fun e he => (hb e he).1) (fun e he => (hb e he).2)]
    | own v p =>
      have hp : p.has .none = true := hn (.own v p) (by simp) (Or.inl trivial)
      unfold handleFallback
      simp only [pid]
      rcases hs with ⟨hi, hs⟩ | ⟨a, y, b, hd, hi, hbb⟩
      · simp only [hi, hf]
        refine ⟨Or.inr ⟨s.dest ++ (c.fallbacks v).1.map (.own · p), _, [], rfl, rfl, by simp⟩, ?_, by intro h; cases h⟩
        simp only [State.push, Option.isSome_none, Bool.false_eq_true, false_and, and_false, if_false]
        have wd : w.win done = none := win_other w done (fun e he => (hz hi e he).1) (fun e he => (hz hi e he).2)
        have ws : w.win s.dest = none := win_other w s.dest (fun e he => (hs e he).1) (fun e he => (hs e he).2)
        by_cases hu : w.understands v
        · have : w.win (done ++ [.own v p]) = some (.value v) := by rw [win_append]; simp [View.win, View.set, kn p hp, hu]
          rw [this]
          refine Or.inr ?_
          rw [win_append]; simp [View.win, View.set, kn p hp, h1 v hu]
        · have : w.win (done ++ [.own v p]) = none := by rw [win_append]; simp [View.win, View.set, hu, wd]
          rw [this]
          refine Or.inr ⟨by simp, v, p, by simp, ?_⟩
          obtain ⟨y, hy, huy⟩ := h2 v p (hall _ List.mem_cons_self)
          have key : ∀ l : List V, (∃ y ∈ l, w.understands y) → ∃ z ∈ l, w.win (l.map (.own · p)) = some (.value z) := by
            intro l
            induction l with
            | nil => rintro ⟨y, hy, -⟩; cases hy
            | cons x l ihl =>
              rintro ⟨y, hy, huy⟩
              by_cases hex : ∃ y ∈ l, w.understands y
              · obtain ⟨z, hz, hz'⟩ := ihl hex
                exact ⟨z, List.mem_cons_of_mem _ hz, by simp [View.win, hz']⟩
              · rcases List.mem_cons.1 hy with rfl | hy
                · have : w.win (l.map (.own · p)) = none := by
                    rw [win_none]
                    intro d hd
                    obtain ⟨x, hx, rfl⟩ := List.mem_map.1 hd
                    simp only [View.set]
                    rw [if_neg]
                    rintro ⟨-, h⟩
                    exact hex ⟨x, hx, h⟩
                  exact ⟨y, List.mem_cons_self, by simp [View.win, this, View.set, kn p hp, huy]⟩
                · exact absurd ⟨y, hy, huy⟩ hex
          obtain ⟨z, hz, hz'⟩ := key _ ⟨y, hy, huy⟩
          refine ⟨z, hz, ?_⟩
          rw [List.append_assoc, win_append, ws, Option.or_none]
          rw [← hz']
          simp
      · simp only [hi]
        split
        · refine ⟨Or.inr ⟨s.dest, _, [], rfl, rfl, by simp⟩, ?_, by intro h; cases h⟩
          simp only [State.push]
          rw [win_append, win_append]
          by_cases hu : w.understands v
          · simp only [View.win, View.set, kn p hp, hu, and_self, if_true, Option.none_or, Option.some_or]
            exact Or.inl rfl
          · simp only [View.win, View.set, hu, and_false, if_false, Option.none_or]
            exact corr_mono hc (fun d hd => List.mem_append_left _ hd) (by simp [hi]) (by simp)
        · rename_i hcomp
          have hu : w.understands v := h3 v (by
            cases hv : c.compatible v with
            | true => rfl
            | false => exact absurd ⟨hb, hv⟩ hcomp)
          rw [put_eq s a _ _ b hd]
          refine ⟨Or.inr ⟨a, _, b, rfl, hi, hbb⟩, ?_, by intro h; rw [hi] at h; cases h⟩
          have : w.win (done ++ [.own v p]) = some (.value v) := by rw [win_append]; simp [View.win, View.set, kn p hp, hu]
          rw [this]
          refine Or.inl ?_
          rw [win_append]
          simp [View.win, View.set, kn p hp, hu, win_other w b (fun e he => (hbb e he).1) (fun e he => (hbb e he).2)]

/-- A browser in a version: it knows the property without prefix, and understands values whose colors it understands. -/
def browser (C : Type) (b : Browser) (v : Nat) : View (List (Color C)) := ⟨fun q => q = .none, UnderstandsAll b v⟩

theorem compatible_understands {C : Type} {t : Targets} {b : Browser} {v : Nat} (ht : IsTarget t b v) {br : Browsers} (hb : t.browsers = some br) (c : Color C) (h : colorCompatible br c = true) : Understands b v c := by
  have sup : ∀ f : CompatFeature, f.isCompatible br = true → Supports b v f := by
    intro f hf
    obtain ⟨br', u, e, hu, hle⟩ := ht
    rw [hb] at e; cases e
    refine C12_monotone f br _ ?_ hf
    intro x v' hx'
    unfold one at hx'
    split at hx'
    · rename_i he; subst he
      cases hx'
      exact ⟨u, hu, hle⟩
    · cases hx'
  induction c with
  | keyword n => exact trivial
  | leaf s x => cases s <;> first | exact trivial | exact sup _ h
  | lightDark l d ih1 ih2 =>
    simp only [colorCompatible, Bool.and_eq_true] at h
    exact ⟨ih1 h.1.2, ih2 h.2⟩

/-- **C105 (partial).** For a property whose values are colors, in a block with any declarations, for every browser that is a target, in the asked version or a newer one: the value that wins is the one that won before, unchanged or with its colors converted
to Lab; if an unparsed value won before, it still wins (with its own fallback); and if none of the declarations was understood, one wins that is a fallback of one of them. Not covered: no target browsers (`C105_no_targets`); `filter` and
`backdrop-filter` (`C105_filter`, `C105_backdrop`). Keywords in values that need fallbacks crash (C96). -/
theorem C105_cascade_partial {C : Type} (conv : Kind → Space → C → C) (m : Mode) (t : Targets) (lowest : List (Color C) → List (Color C)) (ds : List (Item (List (Color C))))
    (hn : ∀ d ∈ ds, d.IsOwn ∨ d.IsUnparsed → d.Names .none) (hp : ∀ v p, .own v p ∈ ds → ∀ c ∈ v, c.Concrete)
    {b : Browser} {v : Nat} (ht : IsTarget t b v) (hx : ∀ f, ColorFeature f → Flagged t.excl f → Supports b v f) :
    (∀ cs, (browser C b v).Wins ds (.value cs) → ∃ cs', (browser C b v).Wins (minifyFallback (colorConfig conv m t lowest) t ds) (.value cs') ∧ (cs' = cs ∨ Versions conv .lab cs cs')) ∧
    (∀ cs, (browser C b v).Wins ds (.unparsed cs) → (browser C b v).Wins (minifyFallback (colorConfig conv m t lowest) t ds) (.unparsed (lowest cs))) ∧
    ((∀ x, ¬ (browser C b v).Wins ds x) → (∃ d ∈ ds, d.IsOwn) →
      ∃ cs p cs', .own cs p ∈ ds ∧ (browser C b v).Wins (minifyFallback (colorConfig conv m t lowest) t ds) (.value cs') ∧ (cs' = cs ∨ ∃ k, Versions conv k cs cs')) := by
  have ok : ∀ cs p, .own cs p ∈ ds → ∃ r, getFallbacks conv m t cs = some r := fun cs p h => C96_no_crash_partial conv m t cs (hp cs p h)
  have best : ∀ cs, ((colorConfig conv m t lowest).fallbacks cs).2 = cs ∨ Versions conv .lab cs ((colorConfig conv m t lowest).fallbacks cs).2 := by
    intro cs
    simp only [colorConfig]
    cases hg : getFallbacks conv m t cs with
    | none => exact Or.inl rfl
    | some r => exact (C98_best conv m t cs (res := r.1) (last := r.2) hg).1
  obtain ⟨br, w0, hb, hw0, hle⟩ := ht
  have ht : IsTarget t b v := ⟨br, w0, hb, hw0, hle⟩
  have main := fb_aux (all := ds) (colorConfig conv m t lowest) rfl t (by rw [hb]; rfl) (browser C b v) rfl
    (by
      intro cs hu
      simp only [colorConfig]
      cases hg : getFallbacks conv m t cs with
      | none => exact hu
      | some r => exact (C98_best conv m t cs (res := r.1) (last := r.2) hg).2 b v hu)
    (by
      intro cs p hmem
      obtain ⟨r, hr⟩ := ok cs p hmem
      have := C97_covered_partial conv m t cs (res := r.1) (last := r.2) hr (fun _ c hc => Or.inl (hp cs p hmem c hc)) ht hx
      unfold colorConfig
      simp only [hr, Option.getD_some]
      exact this)
    (by
      intro cs hc c hcc
      unfold colorConfig at hc
      simp only [hb, List.all_eq_true] at hc
      exact compatible_understands ht hb c (hc c hcc))
    ds [] ⟨none, []⟩ (fun _ h => h) (Or.inl ⟨rfl, by simp⟩) (by simpa using hn) (Or.inl ⟨rfl, rfl, by simp⟩) (by simp)
  rw [List.nil_append] at main
  refine ⟨?_, ?_, ?_⟩
  · intro cs h
    rw [wins_iff] at h
    rw [h] at main
    rcases main with main | main
    · exact ⟨cs, (wins_iff _ _ _).2 main, Or.inl rfl⟩
    · exact ⟨_, (wins_iff _ _ _).2 main, best cs⟩
  · intro cs h
    rw [wins_iff] at h
    rw [h] at main
    exact (wins_iff _ _ _).2 main
  · intro h ⟨d, hd, ho⟩
    have hw : (browser C b v).win ds = none := by
      cases hw : (browser C b v).win ds with
      | none => rfl
      | some x => exact absurd ((wins_iff _ _ _).2 hw) (h x)
    rw [hw] at main
    rcases main with ⟨-, -, h'⟩ | ⟨-, cs, p, hm, z, hz, hwin⟩
    · exact absurd ho (h' d hd)
    · refine ⟨cs, p, z, hm, (wins_iff _ _ _).2 hwin, ?_⟩
      obtain ⟨r, hr⟩ := ok cs p hm
      rw [List.mem_append, List.mem_singleton] at hz
      rcases hz with hz | rfl
      · have e : ((colorConfig conv m t lowest).fallbacks cs).1 = r.1 := by unfold colorConfig; simp [hr]
        rw [e] at hz
        rcases C100_versions conv m t cs (res := r.1) (last := r.2) hr with h | ⟨x, h, hv⟩ | ⟨x, h, hv⟩ | ⟨x, y, h, hvx, hvy⟩
        · rw [h] at hz; cases hz
        · rw [h, List.mem_singleton] at hz; subst hz; exact Or.inr ⟨_, hv⟩
        · rw [h, List.mem_singleton] at hz; subst hz; exact Or.inr ⟨_, hv⟩
        · rw [h] at hz
          simp only [List.mem_cons, List.not_mem_nil, or_false] at hz
          rcases hz with rfl | rfl
          · exact Or.inr ⟨_, hvx⟩
          · exact Or.inr ⟨_, hvy⟩
      · rcases best cs with h | h
        · exact Or.inl h
        · exact Or.inr ⟨_, h⟩

/-- Non-vacuity of C105: `color: red; color: lab(..)` and `color: lab(..); color: lab(..); color: blue` for Chrome 90. -/
example : minifyFallback (colorConfig (fun _ _ v => v) .direct chrome90 id) chrome90 [.own [.leaf .rgba 1] Prefix.none.set, .own [.leaf .lab 2] Prefix.none.set] =
      [.own [.leaf .rgba 1] Prefix.none.set, .own [.leaf .lab 2] Prefix.none.set] ∧
    minifyFallback (colorConfig (fun _ _ v => v) .direct chrome90 id) chrome90 [.own [.leaf .lab 1] Prefix.none.set, .own [.leaf .lab 2] Prefix.none.set, .own [.leaf .rgba 3] Prefix.none.set] =
      [.own [.leaf .rgba 1] Prefix.none.set, .own [.leaf .lab 1] Prefix.none.set, .own [.leaf .rgba 3] Prefix.none.set] := by
  exact ⟨rfl, rfl⟩

/-- Without targets. -/
def noTargets : Targets := ⟨none, 0#32, 0#32⟩

/-- **C105, what goes wrong.** Without targets `color: red; color: lab(50% 0 0)` becomes `color: lab(50% 0 0)`, so that Chrome 90 gets no color. -/
theorem C105_no_targets :
    let ds := [Item.own [Color.leaf .rgba 1] Prefix.none.set, .own [.leaf .lab 2] Prefix.none.set]
    minifyFallback (colorConfig (fun _ _ v => v) .direct noTargets id) noTargets ds = [.own [.leaf .lab 2] Prefix.none.set] ∧
      (browser Nat .chrome (90 * 65536)).Wins ds (.value [.leaf .rgba 1]) ∧ ¬ UnderstandsAll .chrome (90 * 65536) [Color.leaf .lab 2] := by
  have nu : ¬ UnderstandsAll .chrome (90 * 65536) [Color.leaf .lab 2] := by
    intro h
    have := h _ List.mem_cons_self
    revert this
    unfold Understands Notation Supports; decide
  refine ⟨rfl, ⟨[], _, [_], rfl, .own ⟨.none, rfl, rfl⟩ ?_, ?_⟩, nu⟩
  · intro c hc
    simp only [List.mem_singleton] at hc
    subst hc; trivial
  · intro e he y hs
    simp only [List.mem_singleton] at he
    subst he
    cases hs with
    | own _ h => exact nu h

/-- **C105, what goes wrong.** `filter: drop-shadow(0 0 red); filter: drop-shadow(0 0 lab(50% 0 0))` becomes the second one for Chrome 90, which gets no filter. -/
theorem C105_filter :
    let ds := [Item.own [Color.leaf .rgba 1] Prefix.none.set, .own [.leaf .lab 2] Prefix.none.set]
    minifyFallback (filterConfig (fun _ _ v => v) .filter chrome90) chrome90 ds = [.own [.leaf .lab 2] Prefix.none.set] ∧
      IsTarget chrome90 .chrome (90 * 65536) ∧ (browser Nat .chrome (90 * 65536)).Wins ds (.value [.leaf .rgba 1]) ∧ ¬ UnderstandsAll .chrome (90 * 65536) [Color.leaf .lab 2] :=
  ⟨rfl, ⟨_, _, rfl, rfl, Nat.le_refl _⟩, C105_no_targets.2.1, C105_no_targets.2.2⟩

/-- **C105, what goes wrong.** `backdrop-filter: blur(1px); -webkit-backdrop-filter: blur(1px)` becomes `-webkit-backdrop-filter: blur(1px)`, for any targets: a browser that knows `backdrop-filter` only, such as Firefox, gets no filter. -/
theorem C105_backdrop (t : Targets) :
    let ds := [Item.own ([] : List (Color Nat)) Prefix.none.set, .own [] Prefix.webkit.set]
    (only .none).Wins ds (.value []) ∧ minifyFallback (filterConfig (fun _ _ v => v) .backdropFilter t) t ds = [.own [] Prefix.webkit.set] ∧
      ∀ x, ¬ (only .none).Wins [Item.own ([] : List (Color Nat)) Prefix.webkit.set] x := by
  refine ⟨only_wins _ _ [] [_] _ _ rfl rfl ?_, ?_, ?_⟩
  · intro e he
    simp only [List.mem_singleton] at he
    subst he
    simp [Item.Names, Prefix.set, PrefixSet.has]
  · have e : t.prefixes Prefix.webkit.set .backdropFilter = Prefix.webkit.set := (C13_targets t _ _).1 rfl
    unfold minifyFallback
    simp only [List.foldl_cons, List.foldl_nil, handleFallback, filterConfig, Config.prefixes, getFallbacks, needs, Kinds.empty, e]
    simp [State.push, State.put]
  · rintro x ⟨a, d, b, e, hs, -⟩
    have hm : d ∈ [Item.own ([] : List (Color Nat)) Prefix.webkit.set] := by rw [e]; simp
    simp only [List.mem_singleton] at hm
    subst hm
    cases hs with
    | own h _ =>
      obtain ⟨q, rfl, hq⟩ := h
      cases hq

end Verif.PrefixFb
