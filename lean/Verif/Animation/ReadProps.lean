import Verif.Animation.ValueProps
import Mathlib.Tactic.Tauto
/-! # C131: what is read -/
namespace Verif.Animation
open Verif.Transition Verif.Animation.Spec
open Verif.Transition.Spec (Curve Denotes word)

variable {T L : Type}

/-- The meaning of the value of a variable. -/
def val : (k : Slot) → Ty T L k → Val T L
  | .duration, (t : T) => .duration t
  | .timing, (e : Easing) => .timing (curve e)
  | .delay, (t : T) => .delay t
  | .iteration, (.number n : Iter) => .iteration (some n)
  | .iteration, (.infinite : Iter) => .iteration none
  | .direction, (d : Direction) => .direction d
  | .fill, (f : Fill) => .fill f
  | .play, (p : PlayState) => .play p
  | .name, (n : Name) => .name n.str
  | .timeline, (t : Timeline L) => .timeline t

theorem kind_val (k : Slot) (v : Ty T L k) : (val k v).kind = k := by
  cases k with
  | iteration => cases (show Iter from v) <;> rfl
  | _ => rfl

theorem cssWide_iff (s : Str) : cssWide s = false ↔ ∀ k ∈ reserved, ¬word s k := by
  simp only [cssWide, Bool.or_eq_false_iff, reserved, List.mem_cons, List.mem_nil_iff, or_false, forall_eq_or_imp, forall_eq, ← kw_iff]
  simp only [Bool.not_eq_true]
  tauto

theorem dashed_iff (s : Str) : (cs!"--").isPrefixOf s = true ↔ ∃ r, s = '-' :: '-' :: r := by
  match s with
  | [] => simp [List.isPrefixOf]
  | [a] => simp [List.isPrefixOf]
  | a :: b :: r =>
    simp only [List.isPrefixOf, Bool.and_true, Bool.and_eq_true, beq_iff_eq]
    constructor
    · rintro ⟨rfl, rfl⟩; exact ⟨r, rfl⟩
    · rintro ⟨_, h⟩; cases h; exact ⟨rfl, rfl⟩

theorem dashed_not_word {r k : Str} (hk : ∀ t, k ≠ '-' :: '-' :: t) : ¬word ('-' :: '-' :: r) k := by
  intro h
  unfold word at h
  exact hk (r.map Char.toLower) h.symm

/-- A component is read as a value of a longhand exactly if the parser of the longhand takes it. -/
theorem fits_decode (c : Comp T L) (w : Val T L) : Fits c w → ∃ v, decode w.kind c = some v ∧ val w.kind v = w := by
  intro h
  cases h with
  | duration t => exact ⟨t, rfl, rfl⟩
  | delay t => exact ⟨t, rfl, rfl⟩
  | timing h => obtain ⟨e, he, rfl⟩ := parse_of_denotes h; exact ⟨e, he, rfl⟩
  | count n => exact ⟨Iter.number n, rfl, rfl⟩
  | infinite h => exact ⟨Iter.infinite, by simp [decode, Comp.asIter, (kw_iff _ _).2 h, Val.kind], rfl⟩
  | direction hk hs => exact ⟨_, (direction_iff _ _).2 ⟨_, hk, hs⟩, rfl⟩
  | fill hk hs => exact ⟨_, (fill_iff _ _).2 ⟨_, hk, hs⟩, rfl⟩
  | play hk hs => exact ⟨_, (play_iff _ _).2 ⟨_, hk, hs⟩, rfl⟩
  | noName h => exact ⟨Name.no, by simp [decode, Comp.asName, (kw_iff _ _).2 h, Val.kind], rfl⟩
  | ident h h' => exact ⟨Name.ident _, by simp [decode, Comp.asName, mt (kw_iff _ _).1 h, (cssWide_iff _).2 h', Val.kind], rfl⟩
  | string s => exact ⟨Name.string s, rfl, rfl⟩
  | auto h => exact ⟨Timeline.auto, by simp [decode, Comp.asTimeline, (kw_iff _ _).2 h, Val.kind], rfl⟩
  | noTimeline h =>
    rename_i s
    refine ⟨Timeline.no, ?_, rfl⟩
    have : kw s cs!"auto" = false := by
      unfold word at h; simp [kw, h]
    simp [decode, Comp.asTimeline, (kw_iff _ _).2 h, this, Val.kind]
  | dashed s =>
    refine ⟨Timeline.dashed ('-' :: '-' :: s), ?_, rfl⟩
    have h1 : kw ('-' :: '-' :: s) cs!"auto" = false := Bool.eq_false_iff.2 (mt (kw_iff _ _).1 (dashed_not_word (by simp)))
    have h2 : kw ('-' :: '-' :: s) cs!"none" = false := Bool.eq_false_iff.2 (mt (kw_iff _ _).1 (dashed_not_word (by simp)))
    simp [decode, Comp.asTimeline, h1, h2, Val.kind, List.isPrefixOf]
  | scroll h h' =>
    exact ⟨Timeline.scroll _ _, by simp [decode, Comp.asTimeline, (kw_iff _ _).2 h, (parseScroll_iff _ _ _).2 h', Val.kind], rfl⟩
  | view h h' =>
    rename_i f _ _ _ _
    refine ⟨Timeline.view _ _ _, ?_, rfl⟩
    have : kw f cs!"scroll" = false := by
      unfold word at h; simp [kw, h]
    simp [decode, Comp.asTimeline, (kw_iff _ _).2 h, this, (parseView_iff _ _ _ _).2 h', Val.kind]

theorem decode_fits (c : Comp T L) (k : Slot) (v : Ty T L k) (h : decode k c = some v) : Fits c (val k v) := by
  cases k with
  | duration => cases c <;> cases h; exact .duration _
  | delay => cases c <;> cases h; exact .delay _
  | timing => cases c <;> first | exact .timing (denotes_of_parse h) | cases h
  | iteration =>
    cases c with
    | num n => cases h; exact .count n
    | text e =>
      cases e with
      | ident s =>
        simp only [decode, Comp.asIter] at h
        split at h
        · rename_i hk; cases h; exact .infinite ((kw_iff _ _).1 hk)
        · cases h
      | func _ _ => cases h
    | _ => cases h
  | direction =>
    cases c with
    | text e =>
      cases e with
      | ident s => obtain ⟨k, hk, hs⟩ := (direction_iff _ _).1 h; exact .direction hk hs
      | func _ _ => cases h
    | _ => cases h
  | fill =>
    cases c with
    | text e =>
      cases e with
      | ident s => obtain ⟨k, hk, hs⟩ := (fill_iff _ _).1 h; exact .fill hk hs
      | func _ _ => cases h
    | _ => cases h
  | play =>
    cases c with
    | text e =>
      cases e with
      | ident s => obtain ⟨k, hk, hs⟩ := (play_iff _ _).1 h; exact .play hk hs
      | func _ _ => cases h
    | _ => cases h
  | name =>
    cases c with
    | text e =>
      cases e with
      | ident s =>
        simp only [decode, Comp.asName] at h
        split at h
        · rename_i hk; cases h; exact .noName ((kw_iff _ _).1 hk)
        · rename_i hk
          split at h
          · cases h
          · rename_i hw
            cases h
            exact .ident (fun hh => hk ((kw_iff _ _).2 hh)) ((cssWide_iff _).1 (by simpa using hw))
      | func _ _ => cases h
    | str s => cases h; exact .string s
    | _ => cases h
  | timeline =>
    cases c with
    | text e =>
      cases e with
      | ident s =>
        simp only [decode, Comp.asTimeline] at h
        split at h
        · rename_i hk; cases h; exact .auto ((kw_iff _ _).1 hk)
        split at h
        · rename_i hk; cases h; exact .noTimeline ((kw_iff _ _).1 hk)
        split at h
        · rename_i hk
          cases h
          obtain ⟨r, rfl⟩ := (dashed_iff s).1 hk
          exact .dashed r
        · cases h
      | func _ _ => cases h
    | fn f args =>
      simp only [decode, Comp.asTimeline] at h
      split at h
      · rename_i hk
        obtain ⟨s, a, rfl⟩ := parseScroll_form _ _ h
        exact .scroll ((kw_iff _ _).1 hk) ((parseScroll_iff _ _ _).1 h)
      split at h
      · rename_i hk
        obtain ⟨a, i, j, rfl⟩ := parseView_form _ _ h
        exact .view ((kw_iff _ _).1 hk) ((parseView_iff _ _ _ _).1 h)
      · cases h
    | _ => cases h

/-- The place of a variable in the loop. -/
def rank : Slot → Nat
  | .duration => 0 | .timing => 1 | .delay => 2 | .iteration => 3 | .direction => 4 | .fill => 5 | .play => 6 | .name => 7 | .timeline => 8

/-- The lower-case word of a keyword component, for the keyword longhands. -/
theorem keyword_words {s : Str} {w : Val T L} (h : Fits (.text (.ident s)) w) :
    (w.kind = .timing ∧ s.map Char.toLower ∈ [cs!"linear", cs!"ease", cs!"ease-in", cs!"ease-out", cs!"ease-in-out", cs!"step-start", cs!"step-end"]) ∨
    (w.kind = .iteration ∧ s.map Char.toLower ∈ [cs!"infinite"]) ∨
    (w.kind = .direction ∧ s.map Char.toLower ∈ [cs!"normal", cs!"reverse", cs!"alternate", cs!"alternate-reverse"]) ∨
    (w.kind = .fill ∧ s.map Char.toLower ∈ [cs!"none", cs!"forwards", cs!"backwards", cs!"both"]) ∨
    (w.kind = .play ∧ s.map Char.toLower ∈ [cs!"running", cs!"paused"]) ∨
    w.kind = .name ∨
    (w.kind = .timeline ∧ (s.map Char.toLower ∈ [cs!"none", cs!"auto"] ∨ ∃ r, s.map Char.toLower = '-' :: '-' :: r)) := by
  cases h with
  | timing h =>
    cases h with
    | keyword hk hs =>
      left
      unfold word at hs
      refine ⟨rfl, ?_⟩
      rw [hs]
      simp only [Transition.Spec.keywords, List.mem_cons, List.mem_nil_iff, or_false, Prod.mk.injEq] at hk
      rcases hk with ⟨rfl, _⟩ | ⟨rfl, _⟩ | ⟨rfl, _⟩ | ⟨rfl, _⟩ | ⟨rfl, _⟩ | ⟨rfl, _⟩ | ⟨rfl, _⟩ <;> simp
  | infinite hs => unfold word at hs; right; left; exact ⟨rfl, by rw [hs]; simp⟩
  | direction hk hs =>
    right; right; left
    unfold word at hs
    refine ⟨rfl, ?_⟩
    rw [hs]
    exact List.mem_map_of_mem (f := Prod.fst) hk
  | fill hk hs =>
    right; right; right; left
    unfold word at hs
    refine ⟨rfl, ?_⟩
    rw [hs]
    exact List.mem_map_of_mem (f := Prod.fst) hk
  | play hk hs =>
    right; right; right; right; left
    unfold word at hs
    refine ⟨rfl, ?_⟩
    rw [hs]
    exact List.mem_map_of_mem (f := Prod.fst) hk
  | noName _ => simp [Val.kind]
  | ident _ _ => simp [Val.kind]
  | auto hs => unfold word at hs; simp [Val.kind, hs]
  | noTimeline hs => unfold word at hs; simp [Val.kind, hs]
  | dashed r => simp [Val.kind]

/-- If a component can be read in two ways, the rule of CSS and the order of the loop agree. -/
theorem before_iff (c : Comp T L) (w w' : Val T L) (h : Fits c w) (h' : Fits c w') : Before w.kind w'.kind ↔ rank w.kind < rank w'.kind := by
  constructor
  · intro hb
    generalize w.kind = a at hb
    generalize w'.kind = b at hb
    cases hb <;> decide
  · intro hr
    cases c with
    | time t => cases h <;> cases h' <;> first | exact .times | exact absurd hr (by simp [Val.kind, rank])
    | num n => cases h; cases h'; exact absurd hr (by simp [Val.kind])
    | str s => cases h; cases h'; exact absurd hr (by simp [Val.kind])
    | fn f args => cases h <;> cases h' <;> exact absurd hr (by simp [Val.kind])
    | text e =>
      cases e with
      | func f args => cases h; cases h'; exact absurd hr (by simp [Val.kind])
      | ident s =>
        have k1 := keyword_words h
        have k2 := keyword_words h'
        generalize w.kind = a at *
        generalize w'.kind = b at *
        generalize s.map Char.toLower = t at *
        rcases k1 with ⟨rfl, k1⟩ | ⟨rfl, k1⟩ | ⟨rfl, k1⟩ | ⟨rfl, k1⟩ | ⟨rfl, k1⟩ | rfl | ⟨rfl, k1⟩ <;>
          rcases k2 with ⟨rfl, k2⟩ | ⟨rfl, k2⟩ | ⟨rfl, k2⟩ | ⟨rfl, k2⟩ | ⟨rfl, k2⟩ | rfl | ⟨rfl, k2⟩ <;>
          first
          | exact absurd hr (by decide)
          | exact .timing
          | exact .iteration
          | exact .direction
          | exact .fill
          | exact .play
          | exact .timeline
          | exact .fillTimeline
          | (exfalso
             simp only [List.mem_cons, List.mem_nil_iff, or_false] at k1 k2
             rcases k1 with rfl | rfl | rfl | rfl | rfl | rfl | rfl <;> simp at k2)

/-! ### The loop -/

theorem set_same (s : Slots T L) (k : Slot) (v : Ty T L k) : s.set k v k = some v := by simp [Slots.set]
theorem set_other (s : Slots T L) {j k : Slot} (v : Ty T L k) (h : j ≠ k) : s.set k v j = s j := by simp [Slots.set, h]

theorem try_some {s s' : Slots T L} {c : Comp T L} {k : Slot} :
    s.try c k = some s' ↔ s k = none ∧ ∃ v, decode k c = some v ∧ s' = s.set k v := by
  unfold Slots.try
  cases hk : s k with
  | none =>
    simp only [Option.isNone_none, if_true, true_and]
    cases decode k c with
    | none => simp
    | some v => simp [eq_comm]
  | some _ => simp

theorem try_none {s : Slots T L} {c : Comp T L} {k : Slot} : s.try c k = none ↔ ∀ v, decode k c = some v → ¬s k = none := by
  unfold Slots.try
  cases hk : s k with
  | none =>
    simp only [Option.isNone_none, if_true]
    cases decode k c with
    | none => simp
    | some v => simp
  | some _ => simp

/-- A list of attempts that is sorted by rank. -/
theorem findSome_sorted (s : Slots T L) (c : Comp T L) (s' : Slots T L) : ∀ (ks : List Slot), ks.Pairwise (rank · < rank ·) →
    (ks.findSome? (s.try c) = some s' ↔ ∃ k ∈ ks, s.try c k = some s' ∧ ∀ j ∈ ks, rank j < rank k → s.try c j = none)
  | [], _ => by simp
  | k :: ks, hp => by
    rw [List.findSome?_cons]
    obtain ⟨hlt, hp⟩ := List.pairwise_cons.1 hp
    cases hk : s.try c k with
    | some r =>
      constructor
      · intro h; cases h
        refine ⟨k, by simp, hk, ?_⟩
        intro j hj hr
        rcases List.mem_cons.1 hj with rfl | hj
        · omega
        · have := hlt j hj; omega
      · rintro ⟨k', hk', ht, hn⟩
        rcases List.mem_cons.1 hk' with rfl | hk'
        · rw [hk] at ht; exact ht
        · have := hn k (by simp) (hlt k' hk'); rw [hk] at this; cases this
    | none =>
      rw [findSome_sorted s c s' ks hp]
      constructor
      · rintro ⟨k', hk', ht, hn⟩
        refine ⟨k', by simp [hk'], ht, ?_⟩
        intro j hj hr
        rcases List.mem_cons.1 hj with rfl | hj
        · exact hk
        · exact hn j hj hr
      · rintro ⟨k', hk', ht, hn⟩
        rcases List.mem_cons.1 hk' with rfl | hk'
        · rw [hk] at ht; cases ht
        · exact ⟨k', hk', ht, fun j hj => hn j (by simp [hj])⟩

theorem step_iff (s s' : Slots T L) (c : Comp T L) :
    s.step c = some s' ↔ ∃ k v, s k = none ∧ decode k c = some v ∧ s' = s.set k v ∧ ∀ j, rank j < rank k → ∀ u, decode j c = some u → s j ≠ none := by
  unfold Slots.step
  rw [findSome_sorted s c s' order (by decide)]
  have all : ∀ k, k ∈ order := by intro k; cases k <;> decide
  constructor
  · rintro ⟨k, _, ht, hn⟩
    obtain ⟨h1, v, h2, h3⟩ := try_some.1 ht
    exact ⟨k, v, h1, h2, h3, fun j hj => try_none.1 (hn j (all j) hj)⟩
  · rintro ⟨k, v, h1, h2, h3, hn⟩
    exact ⟨k, all k, try_some.2 ⟨h1, v, h2, h3⟩, fun j _ hj => try_none.2 (hn j hj)⟩

/-- The longhands that have a value. -/
def Slots.has (s : Slots T L) (k : Slot) : Prop := s k ≠ none

theorem has_set (s : Slots T L) (k : Slot) (v : Ty T L k) : (s.set k v).has = fun j => s.has j ∨ j = k := by
  funext j
  by_cases h : j = k
  · subst h; simp [Slots.has, set_same]
  · simp [Slots.has, set_other s v h, h]

theorem reads_loop (cs : List (Comp T L)) : ∀ (s : Slots T L) (vs : List (Val T L)), Reads s.has cs vs →
    ∃ s', s.loop cs = some s' ∧ (∀ k, s k ≠ none → s' k = s k) ∧ (∀ k, s k = none → ∀ w, w.kind = k → ((s' k).map (val k) = some w ↔ w ∈ vs)) := by
  induction cs with
  | nil =>
    intro s vs h
    cases h
    exact ⟨s, rfl, fun _ _ => rfl, fun k hk w _ => by simp [hk]⟩
  | cons c cs ih =>
    intro s vs h
    cases h with
    | cons hf hn hb hr =>
      rename_i v vs
      obtain ⟨x, hx, hv⟩ := fits_decode c v hf
      have hk : s v.kind = none := by simpa [Slots.has] using hn
      have hstep : s.step c = some (s.set v.kind x) := by
        rw [step_iff]
        refine ⟨v.kind, x, hk, hx, rfl, ?_⟩
        intro j hj u hu
        have hw := decode_fits c j u hu
        have := hb _ hw ((before_iff c _ _ hw hf).2 (by rw [kind_val]; exact hj))
        rw [kind_val] at this
        exact this
      rw [← has_set s v.kind x] at hr
      obtain ⟨s', h1, h2, h3⟩ := ih _ _ hr
      have hsame : s' v.kind = some x := by rw [h2 _ (by simp [set_same]), set_same]
      refine ⟨s', by simp [Slots.loop, hstep, h1], ?_, ?_⟩
      · intro k hne
        have : k ≠ v.kind := by rintro rfl; exact hne hk
        rw [h2 k (by rw [set_other _ _ this]; exact hne), set_other _ _ this]
      · intro k hnone w hw
        by_cases hkk : k = v.kind
        · subst hkk
          rw [hsame]
          simp only [Option.map_some, hv, Option.some.injEq, List.mem_cons]
          constructor
          · rintro rfl; exact .inl rfl
          · rintro (rfl | hm)
            · rfl
            · -- another value of the same kind later
              exfalso
              have key : ∀ (F : Slot → Prop) (cs : List (Comp T L)) (vs : List (Val T L)), Reads F cs vs → ∀ w ∈ vs, ¬F w.kind := by
                intro F cs vs h
                induction h with
                | nil => simp
                | cons _ hn _ _ ih =>
                  intro w hw
                  rcases List.mem_cons.1 hw with rfl | hw
                  · exact hn
                  · exact fun hF => ih w hw (.inl hF)
              exact key _ _ _ hr w hm (by rw [hw]; simp [Slots.has, set_same])
        · rw [h3 k (by rw [set_other _ _ hkk]; exact hnone) w hw]
          simp only [List.mem_cons]
          constructor
          · exact .inr
          · rintro (rfl | h)
            · exact absurd hw.symm hkk
            · exact h

theorem loop_reads (cs : List (Comp T L)) : ∀ (s s' : Slots T L), s.loop cs = some s' → ∃ vs, Reads s.has cs vs := by
  induction cs with
  | nil => intro s s' _; exact ⟨[], .nil _⟩
  | cons c cs ih =>
    intro s s' h
    simp only [Slots.loop] at h
    split at h
    · rename_i s1 hs
      obtain ⟨k, v, h1, h2, rfl, h4⟩ := (step_iff _ _ _).1 hs
      obtain ⟨vs, hv⟩ := ih _ _ h
      refine ⟨val k v :: vs, .cons (decode_fits c k v h2) ?_ ?_ ?_⟩
      · rw [kind_val]; simpa [Slots.has] using h1
      · intro w hw hb
        obtain ⟨u, hu, _⟩ := fits_decode c w hw
        have := (before_iff c _ _ hw (decode_fits c k v h2)).1 hb
        rw [kind_val] at this
        exact h4 _ this u hu
      · rw [kind_val, ← has_set s k v]; exact hv
    · cases h

/-- The meaning of an iteration count. -/
def iterVal : Iter → Option Num
  | .number n => some n
  | .infinite => none

/-- The longhands of a parsed animation. -/
def meaning (a : Anim T L) : Meaning T L :=
  ⟨a.name.str, a.duration, curve a.timing, iterVal a.iteration, a.direction, a.play, a.delay, a.fill, a.timeline⟩

theorem gives_iff {A : Type} (vs : List (Val T L)) (k : Slot) (f : A → Val T L) (hinj : ∀ a b, f a = f b → a = b) (hf : ∀ a, (f a).kind = k)
    (o : Option (Ty T L k)) (g : Ty T L k → A) (hg : ∀ v, val k v = f (g v))
    (ho : ∀ w, w.kind = k → (o.map (val k) = some w ↔ w ∈ vs)) (d : Ty T L k) (i x : A) (hd : g d = i) :
    Gives vs f i x ↔ g (o.getD d) = x := by
  have hm : ∀ a, f a ∈ vs ↔ o.map (val k) = some (f a) := fun a => (ho (f a) (hf a)).symm
  unfold Gives
  cases o with
  | none =>
    simp only [Option.map_none, reduceCtorEq, iff_false] at hm
    simp [hm, hd, eq_comm]
  | some v =>
    simp only [Option.map_some, Option.some.injEq, hg] at hm
    simp only [hm, Option.getD_some]
    constructor
    · rintro (h | ⟨h, _⟩)
      · exact hinj _ _ h
      · exact absurd rfl (h (g v))
    · rintro rfl; exact .inl rfl

/-- C131: a single animation is accepted exactly if the grammar accepts it, and every longhand gets the value that CSS gives it. -/
theorem C131_read [Zero T] (cs : List (Comp T L)) (m : Meaning T L) : Means cs m ↔ ∃ a, Anim.parse cs = some a ∧ meaning a = m := by
  have key : ∀ (s' : Slots T L) (vs : List (Val T L)),
      (∀ k w, w.kind = k → ((s' k).map (val k) = some w ↔ w ∈ vs)) →
      ((Gives vs .name none m.name ∧ Gives vs .duration 0 m.duration ∧
        Gives vs .timing (.bezier ⟨25, 2⟩ ⟨1, 1⟩ ⟨25, 2⟩ ⟨1, 0⟩) m.timing ∧ Gives vs .iteration (some ⟨1, 0⟩) m.iteration ∧
        Gives vs .direction .normal m.direction ∧ Gives vs .play .running m.play ∧ Gives vs .delay 0 m.delay ∧
        Gives vs .fill .no m.fill ∧ Gives vs .timeline .auto m.timeline) ↔
      Name.str ((s' .name).getD Name.no) = m.name ∧ (s' .duration).getD (0 : T) = m.duration ∧ curve ((s' .timing).getD Easing.ease) = m.timing ∧
      iterVal ((s' .iteration).getD (Iter.number ⟨1, 0⟩)) = m.iteration ∧ (s' .direction).getD Direction.normal = m.direction ∧
      (s' .play).getD PlayState.running = m.play ∧ (s' .delay).getD (0 : T) = m.delay ∧ (s' .fill).getD Fill.no = m.fill ∧
      (s' .timeline).getD Timeline.auto = m.timeline) := by
    intro s' vs h
    rw [gives_iff vs .name .name (by intro a b h; cases h; rfl) (fun _ => rfl) (s' .name) Name.str (fun _ => rfl) (h _) Name.no none m.name rfl,
      gives_iff vs .duration .duration (by intro a b h; cases h; rfl) (fun _ => rfl) (s' .duration) id (fun _ => rfl) (h _) (0 : T) 0 m.duration rfl,
      gives_iff vs .timing .timing (by intro a b h; cases h; rfl) (fun _ => rfl) (s' .timing) curve (fun _ => rfl) (h _) Easing.ease (.bezier ⟨25, 2⟩ ⟨1, 1⟩ ⟨25, 2⟩ ⟨1, 0⟩) m.timing rfl,
      gives_iff vs .iteration .iteration (by intro a b h; cases h; rfl) (fun _ => rfl) (s' .iteration) iterVal
        (fun v => by cases (show Iter from v) <;> rfl) (h _) (Iter.number ⟨1, 0⟩) (some ⟨1, 0⟩) m.iteration rfl,
      gives_iff vs .direction .direction (by intro a b h; cases h; rfl) (fun _ => rfl) (s' .direction) id (fun _ => rfl) (h _) Direction.normal .normal m.direction rfl,
      gives_iff vs .play .play (by intro a b h; cases h; rfl) (fun _ => rfl) (s' .play) id (fun _ => rfl) (h _) PlayState.running .running m.play rfl,
      gives_iff vs .delay .delay (by intro a b h; cases h; rfl) (fun _ => rfl) (s' .delay) id (fun _ => rfl) (h _) (0 : T) 0 m.delay rfl,
      gives_iff vs .fill .fill (by intro a b h; cases h; rfl) (fun _ => rfl) (s' .fill) id (fun _ => rfl) (h _) Fill.no .no m.fill rfl,
      gives_iff vs .timeline .timeline (by intro a b h; cases h; rfl) (fun _ => rfl) (s' .timeline) id (fun _ => rfl) (h _) Timeline.auto .auto m.timeline rfl]
    rfl
  have start : (fun _ : Slot => False) = (Slots.has (T := T) (L := L) fun _ => none) := by funext k; simp [Slots.has]
  constructor
  · rintro ⟨vs, hr, hg⟩
    rw [start] at hr
    obtain ⟨s', hl, _, hm⟩ := reads_loop cs _ vs hr
    refine ⟨_, by simp only [Anim.parse, hl, Option.map_some]; rfl, ?_⟩
    obtain ⟨g1, g2, g3, g4, g5, g6, g7, g8, g9⟩ := (key s' vs (fun k => hm k rfl)).1 hg
    cases m
    simp only [meaning, Meaning.mk.injEq]
    exact ⟨g1, g2, g3, g4, g5, g6, g7, g8, g9⟩
  · rintro ⟨a, ha, rfl⟩
    simp only [Anim.parse, Option.map_eq_some_iff] at ha
    obtain ⟨s', hl, rfl⟩ := ha
    obtain ⟨vs, hr⟩ := loop_reads cs _ _ hl
    obtain ⟨s'', hl', _, hm⟩ := reads_loop cs _ vs hr
    rw [hl] at hl'; cases hl'
    rw [← start] at hr
    exact ⟨vs, hr, (key s' vs (fun k => hm k rfl)).2 ⟨rfl, rfl, rfl, rfl, rfl, rfl, rfl, rfl, rfl⟩⟩

example : (Anim.parse ([.text (.ident cs!"ease"), .text (.ident cs!"Ease"), .time 3, .text (.ident cs!"infinite"), .time 2] : List (Comp Nat Nat))).map (·.name.str) =
    some (some cs!"Ease") := by decide +kernel

end Verif.Animation
