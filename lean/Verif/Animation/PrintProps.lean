import Verif.Animation.ReadProps
/-! # C132: what is printed is read back -/
namespace Verif.Animation
open Verif.Transition Verif.Animation.Spec
open Verif.Transition.Spec (Curve Denotes word)

variable {T L : Type}

/-- The values of the variables come from components. -/
theorem loop_from (cs : List (Comp T L)) : ∀ (s s' : Slots T L), s.loop cs = some s' → (∀ k v, s k = some v → ∃ c, decode k c = some v) →
    ∀ k v, s' k = some v → ∃ c, decode k c = some v := by
  induction cs with
  | nil => intro s s' h hs; cases h; exact hs
  | cons c cs ih =>
    intro s s' h hs
    simp only [Slots.loop] at h
    split at h
    · rename_i s1 hs1
      obtain ⟨k, v, h1, h2, rfl, _⟩ := (step_iff _ _ _).1 hs1
      refine ih _ _ h ?_
      intro j u hu
      by_cases hj : j = k
      · subst hj; rw [set_same] at hu; cases hu; exact ⟨c, h2⟩
      · rw [set_other _ _ hj] at hu; exact hs j u hu
    · cases h

/-- What the parser makes of names and timelines. -/
def Anim.Parsed (a : Anim T L) : Prop :=
  (∀ s, a.name = .ident s → kw s cs!"none" = false ∧ cssWide s = false) ∧ (∀ s, a.timeline = .dashed s → ∃ r, s = '-' :: '-' :: r)

theorem parse_parsed [Zero T] (cs : List (Comp T L)) (a : Anim T L) (h : Anim.parse cs = some a) : a.Parsed := by
  simp only [Anim.parse, Option.map_eq_some_iff] at h
  obtain ⟨s', hl, rfl⟩ := h
  have hf := loop_from cs _ _ hl (by intro k v h; cases h)
  constructor
  · intro s hs
    simp only at hs
    cases hn : s' .name with
    | none => rw [hn] at hs; cases hs
    | some v =>
      rw [hn] at hs
      simp only [Option.getD_some] at hs
      subst hs
      obtain ⟨c, hc⟩ := hf .name _ hn
      cases c with
      | text e =>
        cases e with
        | ident t =>
          simp only [decode, Comp.asName] at hc
          split at hc
          · cases hc
          · rename_i hk
            split at hc
            · cases hc
            · rename_i hw; cases hc; exact ⟨by simpa using hk, by simpa using hw⟩
        | func _ _ => cases hc
      | _ => cases hc
  · intro s hs
    simp only at hs
    cases hn : s' .timeline with
    | none => rw [hn] at hs; cases hs
    | some v =>
      rw [hn] at hs
      simp only [Option.getD_some] at hs
      subst hs
      obtain ⟨c, hc⟩ := hf .timeline _ hn
      cases decode_fits c .timeline _ hc with
      | dashed r => exact ⟨r, rfl⟩

/-- One part of the printed text that may be absent. -/
theorem loop_opt (s : Slots T L) (p : Prop) [Decidable p] (c : Comp T L) (rest : List (Comp T L)) (k : Slot) (v : Ty T L k)
    (h : p → s.step c = some (s.set k v)) : s.loop ((if p then [c] else []) ++ rest) = (if p then s.set k v else s).loop rest := by
  by_cases hp : p
  · rw [if_pos hp, if_pos hp]
    simp [Slots.loop, h hp]
  · rw [if_neg hp, if_neg hp]; rfl

/-- A part with the rank of its longhand, when no longhand from this rank on has a value. -/
theorem step_of (s : Slots T L) (c : Comp T L) (k : Slot) (v : Ty T L k) (hd : decode k c = some v) (hk : s k = none)
    (hj : ∀ j, rank j < rank k → ∀ u, decode j c = some u → s j ≠ none) : s.step c = some (s.set k v) :=
  (step_iff _ _ _).2 ⟨k, v, hk, hd, rfl, hj⟩

/-- No longhand from a rank on has a value. -/
def Fresh (s : Slots T L) (n : Nat) : Prop := ∀ k, n ≤ rank k → s k = none

theorem rank_inj {j k : Slot} (h : rank j = rank k) : j = k := by cases j <;> cases k <;> first | rfl | exact absurd h (by decide)

theorem Fresh.next {s : Slots T L} {n : Nat} (h : Fresh s n) (k : Slot) (hk : rank k = n) (p : Prop) [Decidable p] (v : Ty T L k) :
    Fresh (if p then s.set k v else s) (n + 1) := by
  intro j hj
  have hne : j ≠ k := by rintro rfl; omega
  split
  · rw [set_other _ _ hne]; exact h j (by omega)
  · exact h j (by omega)

theorem curve_parse_print (e : Easing) : ∃ e', Easing.parse e.print = some e' ∧ curve e' = curve e := by
  obtain ⟨e', h, hc⟩ := parse_of_denotes (denotes_print e)
  exact ⟨e', h, hc⟩

/-- The value that the easing function is read back as. -/
def reread (e : Easing) : Easing := (Easing.parse e.print).getD .ease

theorem parse_reread (e : Easing) : Easing.parse e.print = some (reread e) := by
  obtain ⟨e', h, _⟩ := curve_parse_print e
  simp [reread, h]
theorem curve_reread (e : Easing) : curve (reread e) = curve e := by
  obtain ⟨e', h, hc⟩ := curve_parse_print e
  simp [reread, h, hc]

theorem ite_some_getD {A : Type} (p : Prop) [Decidable p] (v d : A) (h : ¬p → v = d) : (if p then some v else none : Option A).getD d = v := by
  by_cases hp : p
  · rw [if_pos hp]; rfl
  · rw [if_neg hp]; exact (h hp).symm

/-- A name that is printed as an identifier or string, and is read back only as the name. -/
theorem name_print (n : Name) (s : Str) (hs : n.str = some s) (hne : s ≠ []) (hi : ∀ t, n = .ident t → kw t cs!"none" = false ∧ cssWide t = false) :
    ∃ (c : Comp T L) (n' : Name), (n.print : List (Comp T L)) = [c] ∧ c.asName = some n' ∧ n'.str = some s ∧
      (c = .str s ∨ c = .text (.ident s) ∧ kw s cs!"none" = false) := by
  cases n with
  | no => cases hs
  | ident t =>
    cases hs
    obtain ⟨h1, h2⟩ := hi s rfl
    exact ⟨.text (.ident s), .ident s, by simp [Name.print, identComps, hne], by simp [Comp.asName, h1, h2], rfl, .inr ⟨rfl, h1⟩⟩
  | string t =>
    cases hs
    by_cases h : (kw s cs!"none" || cssWide s) = true
    · exact ⟨.str s, .string s, by simp [Name.print, h], rfl, rfl, .inl rfl⟩
    · have h' := h
      simp only [Bool.or_eq_true, not_or, Bool.not_eq_true] at h'
      exact ⟨.text (.ident s), .ident s, by simp [Name.print, h'.1, h'.2, identComps, hne], by simp [Comp.asName, h'.1, h'.2], rfl, .inr ⟨rfl, h'.1⟩⟩

/-- The names of the easing functions. -/
def easingWords : List Str := [cs!"linear", cs!"ease", cs!"ease-in", cs!"ease-out", cs!"ease-in-out", cs!"step-start", cs!"step-end"]

theorem asEasing_word {s : Str} {e : Easing} (h : Easing.parse (.ident s) = some e) : ∃ k ∈ easingWords, word s k := by
  obtain ⟨k, hk, hs⟩ := easingKeyword_some h
  refine ⟨k, ?_, hs⟩
  have := List.mem_map_of_mem (f := Prod.fst) hk
  exact this

/-- The initial values of the longhands. -/
def initial [Zero T] : Meaning T L := ⟨none, 0, .bezier ⟨25, 2⟩ ⟨1, 1⟩ ⟨25, 2⟩ ⟨1, 0⟩, some ⟨1, 0⟩, .normal, .running, 0, .no, .auto⟩

/-- C132 (part): a single animation with a name is printed so that it is read with the same values, and so is the one with all initial values.
Missing: animations without a name that set something else, the empty name, the names `infinite` and those of easing functions in another case, and `animation-timeline: none` without a fill mode. -/
theorem C132_print_partial [Zero T] [DecidableEq T] [DecidableEq L] (cs : List (Comp T L)) (m : Meaning T L) (h : Means cs m)
    (hm : m = initial ∨ ∃ n, m.name = some n ∧ n ≠ [] ∧ (word n cs!"infinite" → n = cs!"infinite") ∧ (∀ e ∈ easingWords, word n e → n = e) ∧
      (m.timeline = .no → m.fill ≠ .no)) :
    ∃ a, Anim.parse cs = some a ∧ meaning a = m ∧ Means a.print m := by
  obtain ⟨a, ha, rfl⟩ := (C131_read cs m).1 h
  refine ⟨a, ha, rfl, ?_⟩
  have hp := parse_parsed cs a ha
  rw [C131_read]
  rcases hm with hm | ⟨n, hn, hne, hinf, hease, htl⟩
  · -- all initial
    have hname : a.name.str = none := by have := congrArg Meaning.name hm; simpa [meaning, initial] using this
    have hno : a.name = .no := by
      cases hh : a.name with
      | no => rfl
      | ident s => rw [hh] at hname; cases hname
      | string s => rw [hh] at hname; cases hname
    refine ⟨⟨.no, 0, .ease, .number ⟨1, 0⟩, .normal, .running, 0, .no, .auto⟩, ?_, ?_⟩
    · simp only [Anim.print, hno, Name.str, Name.print, List.nil_append, ne_eq, not_true_eq_false, false_and, if_false, List.append_nil]
      rfl
    · rw [hm]; rfl
  · simp only [meaning] at hn htl
    obtain ⟨c, n', hpr, hcn, hns, hcs⟩ := name_print (T := T) (L := L) a.name n hn hne hp.1
    have hnn : a.name ≠ .no := by intro hh; rw [hh] at hn; cases hn
    simp only [Anim.print, hn, hpr, Anim.before, List.append_assoc]
    simp only [Anim.parse]
    -- the parts in order
    have f0 : Fresh (fun _ => none : Slots T L) 0 := fun _ _ => rfl
    rw [loop_opt _ _ (.time a.duration) _ .duration a.duration (fun _ => step_of _ _ _ _ rfl (f0 _ (by decide)) (fun j hj => absurd hj (by cases j <;> decide)))]
    have f1 := f0.next .duration rfl (a.duration ≠ 0 ∨ a.delay ≠ 0) a.duration
    generalize e1 : (if a.duration ≠ 0 ∨ a.delay ≠ 0 then Slots.set (fun _ => none) .duration a.duration else fun _ => none) = s1 at *
    rw [loop_opt _ _ (.text a.timing.print) _ .timing (reread a.timing) (fun _ => step_of _ _ _ _ (parse_reread _) (f1 _ (by decide))
      (fun j hj u hu => by cases j <;> first | exact absurd hj (by decide) | cases hu))]
    have f2 := f1.next .timing rfl (¬a.timing.isEase = true ∨ easingIsIdent n = true) (reread a.timing)
    generalize e2 : (if ¬a.timing.isEase = true ∨ easingIsIdent n = true then s1.set .timing (reread a.timing) else s1) = s2 at *
    have d2 : a.delay ≠ 0 → s2 .duration ≠ none := by
      intro hd
      rw [← e2]
      split
      · rw [set_other _ _ (by decide), ← e1, if_pos (.inr hd), set_same]; simp
      · rw [← e1, if_pos (.inr hd), set_same]; simp
    rw [loop_opt _ _ (.time a.delay) _ .delay a.delay (fun hd => step_of _ _ _ _ rfl (f2 _ (by decide))
      (fun j hj u hu => by
        cases j <;> first | exact absurd hj (by decide) | (exact d2 hd) | cases hu))]
    have f3 := f2.next .delay rfl (a.delay ≠ 0) a.delay
    generalize e3 : (if a.delay ≠ 0 then s2.set .delay a.delay else s2) = s3 at *
    rw [loop_opt _ _ a.iteration.print _ .iteration a.iteration (fun _ => step_of _ _ _ _ (by cases a.iteration <;> rfl) (f3 _ (by decide))
      (fun j hj u hu => by
        cases hi : a.iteration <;> rw [hi] at hu <;> cases j <;> first | exact absurd hj (by decide) | cases hu))]
    have f4 := f3.next .iteration rfl (a.iteration ≠ .number ⟨1, 0⟩ ∨ n = cs!"infinite") a.iteration
    generalize e4 : (if a.iteration ≠ .number ⟨1, 0⟩ ∨ n = cs!"infinite" then s3.set .iteration a.iteration else s3) = s4 at *
    rw [loop_opt _ _ (.text (.ident a.direction.text)) _ .direction a.direction (fun _ => step_of _ _ _ _ (by cases a.direction <;> rfl) (f4 _ (by decide))
      (fun j hj u hu => by
        cases hi : a.direction <;> rw [hi] at hu <;> cases j <;> first | exact absurd hj (by decide) | cases hu))]
    have f5 := f4.next .direction rfl (a.direction ≠ .normal ∨ (parseDirection n).isSome = true) a.direction
    generalize e5 : (if a.direction ≠ .normal ∨ (parseDirection n).isSome = true then s4.set .direction a.direction else s4) = s5 at *
    rw [loop_opt _ _ (.text (.ident a.fill.text)) _ .fill a.fill (fun _ => step_of _ _ _ _ (by cases a.fill <;> rfl) (f5 _ (by decide))
      (fun j hj u hu => by
        cases hi : a.fill <;> rw [hi] at hu <;> cases j <;> first | exact absurd hj (by decide) | cases hu))]
    have f6 := f5.next .fill rfl (a.fill ≠ .no ∨ ¬kw n cs!"none" = true ∧ (parseFill n).isSome = true) a.fill
    generalize e6 : (if a.fill ≠ .no ∨ ¬kw n cs!"none" = true ∧ (parseFill n).isSome = true then s5.set .fill a.fill else s5) = s6 at *
    rw [loop_opt _ _ (.text (.ident a.play.text)) _ .play a.play (fun _ => step_of _ _ _ _ (by cases a.play <;> rfl) (f6 _ (by decide))
      (fun j hj u hu => by
        cases hi : a.play <;> rw [hi] at hu <;> cases j <;> first | exact absurd hj (by decide) | cases hu))]
    have f7 := f6.next .play rfl (a.play ≠ .running ∨ (parsePlayState n).isSome = true) a.play
    generalize e7 : (if a.play ≠ .running ∨ (parsePlayState n).isSome = true then s6.set .play a.play else s6) = s7 at *
    -- what the variables hold
    have v7 : s7 .duration = (if a.duration ≠ 0 ∨ a.delay ≠ 0 then some a.duration else none) ∧
        s7 .timing = (if ¬a.timing.isEase = true ∨ easingIsIdent n = true then some (reread a.timing) else none) ∧
        s7 .delay = (if a.delay ≠ 0 then some a.delay else none) ∧
        s7 .iteration = (if a.iteration ≠ .number ⟨1, 0⟩ ∨ n = cs!"infinite" then some a.iteration else none) ∧
        s7 .direction = (if a.direction ≠ .normal ∨ (parseDirection n).isSome = true then some a.direction else none) ∧
        s7 .fill = (if a.fill ≠ .no ∨ ¬kw n cs!"none" = true ∧ (parseFill n).isSome = true then some a.fill else none) ∧
        s7 .play = (if a.play ≠ .running ∨ (parsePlayState n).isSome = true then some a.play else none) := by
      have t : ∀ (s : Slots T L) (p : Prop) [Decidable p] (k j : Slot) (v : Ty T L k), j ≠ k → (if p then s.set k v else s) j = s j := by
        intro s p _ k j v hj
        split
        · exact set_other _ _ hj
        · rfl
      have t' : ∀ (s : Slots T L) (p : Prop) [Decidable p] (k : Slot) (v : Ty T L k), s k = none → (if p then s.set k v else s) k = if p then some v else none := by
        intro s p _ k v hs
        split
        · exact set_same _ _ _
        · exact hs
      refine ⟨?_, ?_, ?_, ?_, ?_, ?_, ?_⟩
      · rw [← e7, t _ _ _ _ _ (by decide), ← e6, t _ _ _ _ _ (by decide), ← e5, t _ _ _ _ _ (by decide), ← e4, t _ _ _ _ _ (by decide), ← e3,
          t _ _ _ _ _ (by decide), ← e2, t _ _ _ _ _ (by decide), ← e1, t' _ _ _ _ rfl]
      · rw [← e7, t _ _ _ _ _ (by decide), ← e6, t _ _ _ _ _ (by decide), ← e5, t _ _ _ _ _ (by decide), ← e4, t _ _ _ _ _ (by decide), ← e3,
          t _ _ _ _ _ (by decide), ← e2, t' _ _ _ _ (f1 _ (by decide))]
      · rw [← e7, t _ _ _ _ _ (by decide), ← e6, t _ _ _ _ _ (by decide), ← e5, t _ _ _ _ _ (by decide), ← e4, t _ _ _ _ _ (by decide), ← e3,
          t' _ _ _ _ (f2 _ (by decide))]
      · rw [← e7, t _ _ _ _ _ (by decide), ← e6, t _ _ _ _ _ (by decide), ← e5, t _ _ _ _ _ (by decide), ← e4, t' _ _ _ _ (f3 _ (by decide))]
      · rw [← e7, t _ _ _ _ _ (by decide), ← e6, t _ _ _ _ _ (by decide), ← e5, t' _ _ _ _ (f4 _ (by decide))]
      · rw [← e7, t _ _ _ _ _ (by decide), ← e6, t' _ _ _ _ (f5 _ (by decide))]
      · rw [← e7, t' _ _ _ _ (f6 _ (by decide))]
    obtain ⟨v1, v2, v3, v4, v5, v6, v8⟩ := v7
    clear e1 e2 e3 e4 e5 e6 e7 f1 f2 f3 f4 f5 f6 d2
    have w4 := f7 .name (by decide)
    have w5 := f7 .timeline (by decide)
    have hname : s7.step c = some (s7.set .name n') := by
      refine step_of _ _ _ _ hcn w4 ?_
      intro j hj u hu
      rcases hcs with rfl | ⟨rfl, hkn⟩
      · cases j <;> first | exact absurd hj (by decide) | cases hu
      · cases j with
        | duration => cases hu
        | delay => cases hu
        | timing =>
          obtain ⟨k, hk, hw⟩ := asEasing_word hu
          rw [v2, if_pos]
          · simp
          · refine .inr ?_
            rw [hease k hk hw]
            simpa [easingIsIdent, easingWords] using hk
        | iteration =>
          simp only [decode, Comp.asIter] at hu
          split at hu
          · rename_i hk
            rw [v4, if_pos (.inr (hinf ((kw_iff _ _).1 hk)))]; simp
          · cases hu
        | direction =>
          have hu : parseDirection n = some u := hu
          rw [v5, if_pos (.inr (by rw [hu]; rfl))]; simp
        | fill =>
          have hu : parseFill n = some u := hu
          rw [v6, if_pos (.inr ⟨by simp [hkn], by rw [hu]; rfl⟩)]; simp
        | play =>
          have hu : parsePlayState n = some u := hu
          rw [v8, if_pos (.inr (by rw [hu]; rfl))]; simp
        | name => exact absurd hj (by decide)
        | timeline => exact absurd hj (by decide)
    have hcons : ∀ rest, s7.loop ([c] ++ rest) = (s7.set .name n').loop rest := by
      intro rest
      show s7.loop (c :: rest) = _
      simp only [Slots.loop, hname]
    rw [hcons]
    have happ := loop_opt (s7.set .name n') (a.name ≠ .no ∧ a.timeline ≠ .auto) a.timeline.print [] .timeline a.timeline (by
      rintro ⟨_, hta⟩
      refine step_of _ _ _ _ ?_ ?_ ?_
      · cases ht : a.timeline with
        | auto => exact absurd ht hta
        | no => rfl
        | dashed s =>
          obtain ⟨r, rfl⟩ := hp.2 s ht
          obtain ⟨v, hv, hh⟩ := fits_decode (T := T) _ _ (Fits.dashed (T := T) (L := L) r)
          cases hh; exact hv
        | scroll s e => exact (parseScroll_iff _ _ _).2 (C133_scroll_print s e)
        | view e i j => exact (parseView_iff _ _ _ _).2 (C133_view_print e i j)
      · rw [set_other _ _ (by decide)]; exact w5
      · intro j hj u hu
        by_cases hjn : j = .name
        · subst hjn; rw [set_same]; simp
        rw [set_other _ _ hjn]
        cases ht : a.timeline with
        | auto => exact absurd ht hta
        | no =>
          rw [ht] at hu
          cases j <;> first | exact absurd hj (by decide) | exact absurd rfl hjn | cases hu | skip
          rw [v6, if_pos (.inl (htl ht))]; simp
        | dashed s =>
          rw [ht] at hu
          obtain ⟨r, rfl⟩ := hp.2 s ht
          exfalso
          have hw := keyword_words (decode_fits _ j u hu)
          rw [kind_val] at hw
          have hd : ∀ l : List Str, (∀ k ∈ l, ∀ t, k ≠ '-' :: '-' :: t) → ('-' :: '-' :: r : Str).map Char.toLower ∉ l := by
            intro l hl hmem
            exact hl _ hmem (r.map Char.toLower) rfl
          rcases hw with ⟨_, hw⟩ | ⟨_, hw⟩ | ⟨_, hw⟩ | ⟨_, hw⟩ | ⟨_, hw⟩ | hw | ⟨hw, _⟩
          · exact hd _ (by simp) hw
          · exact hd _ (by simp) hw
          · exact hd _ (by simp) hw
          · exact hd _ (by simp) hw
          · exact hd _ (by simp) hw
          · exact hjn hw
          · subst hw; exact absurd hj (by decide)
        | scroll s e =>
          rw [ht] at hu
          cases j <;> first | exact absurd hj (by decide) | cases hu
        | view e i j' =>
          rw [ht] at hu
          cases j <;> first | exact absurd hj (by decide) | cases hu)
    rw [List.append_nil] at happ
    rw [happ]
    refine ⟨_, rfl, ?_⟩
    have u : ∀ k, k ≠ .name → k ≠ .timeline →
        (if a.name ≠ .no ∧ a.timeline ≠ .auto then (s7.set .name n').set .timeline a.timeline else s7.set .name n') k = s7 k := by
      intro k h1 h2
      split
      · rw [set_other _ _ h2, set_other _ _ h1]
      · rw [set_other _ _ h1]
    have un : (if a.name ≠ .no ∧ a.timeline ≠ .auto then (s7.set .name n').set .timeline a.timeline else s7.set .name n') .name = some n' := by
      split
      · rw [set_other _ _ (by decide), set_same]
      · rw [set_same]
    have ut : (if a.name ≠ .no ∧ a.timeline ≠ .auto then (s7.set .name n').set .timeline a.timeline else s7.set .name n') .timeline =
        if a.name ≠ .no ∧ a.timeline ≠ .auto then some a.timeline else none := by
      split
      · rw [set_same]
      · rw [set_other _ _ (by decide), w5]
    simp only [meaning, un, ut, u .duration (by decide) (by decide), u .timing (by decide) (by decide), u .delay (by decide) (by decide),
      u .iteration (by decide) (by decide), u .direction (by decide) (by decide), u .fill (by decide) (by decide), u .play (by decide) (by decide),
      v1, v2, v3, v4, v5, v6, v8, Meaning.mk.injEq]
    refine ⟨by rw [Option.getD_some, hns, hn], ?_, ?_, ?_, ?_, ?_, ?_, ?_, ?_⟩
    · exact ite_some_getD _ _ _ (fun hh => by simp only [not_or, ne_eq, Decidable.not_not] at hh; exact hh.1)
    · by_cases hh : ¬a.timing.isEase = true ∨ easingIsIdent n = true
      · rw [if_pos hh, Option.getD_some, curve_reread]
      · rw [if_neg hh, Option.getD_none]
        simp only [not_or, Decidable.not_not] at hh
        have := (C116_isEase a.timing).1 hh.1
        obtain ⟨e, _, hu⟩ := C116_curve _ _ (denotes_print a.timing)
        obtain ⟨e', he', hc'⟩ := parse_of_denotes this
        obtain ⟨e'', he'', hc''⟩ := parse_of_denotes (denotes_print a.timing)
        rw [he'] at he''; cases he''
        rw [← hc'', hc']; rfl
    · rw [ite_some_getD _ _ _ (fun hh => by simp only [not_or, ne_eq, Decidable.not_not] at hh; exact hh.1)]
    · exact ite_some_getD _ _ _ (fun hh => by simp only [not_or, ne_eq, Decidable.not_not] at hh; exact hh.1)
    · exact ite_some_getD _ _ _ (fun hh => by simp only [not_or, ne_eq, Decidable.not_not] at hh; exact hh.1)
    · exact ite_some_getD _ _ _ (fun hh => by simpa using hh)
    · exact ite_some_getD _ _ _ (fun hh => by simp only [not_or, ne_eq, Decidable.not_not] at hh; exact hh.1)
    · refine ite_some_getD _ _ _ (fun hh => ?_)
      cases ht : a.timeline with
      | auto => rfl
      | _ => exact absurd ⟨hnn, by rw [ht]; simp⟩ hh

example : ∃ a, Anim.parse ([.time 1, .text (.ident cs!"ease"), .text (.ident cs!"ease"), .text (.ident cs!"--tl")] : List (Comp Nat Nat)) = some a ∧
    a.name.str = some cs!"ease" ∧ a.print = [.time 1, .text (.ident cs!"ease"), .text (.ident cs!"ease"), .text (.ident cs!"--tl")] :=
  ⟨_, rfl, rfl, by decide +kernel⟩

/-- A way to show that a value is printed with another meaning. -/
theorem print_differs [Zero T] [DecidableEq T] [DecidableEq L] (cs : List (Comp T L)) (a : Anim T L) (ha : Anim.parse cs = some a)
    (h : ∀ b, Anim.parse a.print = some b → meaning b ≠ meaning a) : Means cs (meaning a) ∧ ¬Means a.print (meaning a) :=
  ⟨(C131_read _ _).2 ⟨a, ha, rfl⟩, fun hm => by obtain ⟨b, hb, he⟩ := (C131_read _ _).1 hm; exact h b hb he⟩

/-- C132 fails without a name: `animation: 1s` is printed as `animation: none`, and another rule that sets the name gets no duration. -/
theorem C132_no_name_fails : ∃ (cs : List (Comp Nat Nat)) (a : Anim Nat Nat), Anim.parse cs = some a ∧ Means cs (meaning a) ∧ ¬Means a.print (meaning a) := by
  refine ⟨[.time 1], ⟨.no, 1, .ease, .number ⟨1, 0⟩, .normal, .running, 0, .no, .auto⟩, by decide +kernel, print_differs _ _ (by decide +kernel) ?_⟩
  intro b hb
  have : b = ⟨.no, 0, .ease, .number ⟨1, 0⟩, .normal, .running, 0, .no, .auto⟩ := Option.some.inj (hb.symm.trans (by decide +kernel))
  subst this
  exact fun h => by cases congrArg Meaning.duration h

/-- C132 fails for names in another case: `animation: ease Ease` is printed as `animation: Ease`, which has no name. -/
theorem C132_easing_case_fails : ∃ (cs : List (Comp Nat Nat)) (a : Anim Nat Nat), Anim.parse cs = some a ∧ Means cs (meaning a) ∧ ¬Means a.print (meaning a) := by
  refine ⟨[.text (.ident cs!"ease"), .text (.ident cs!"Ease")], ⟨.ident cs!"Ease", 0, .ease, .number ⟨1, 0⟩, .normal, .running, 0, .no, .auto⟩,
    by decide +kernel, print_differs _ _ (by decide +kernel) ?_⟩
  intro b hb
  have : b = ⟨.no, 0, .ease, .number ⟨1, 0⟩, .normal, .running, 0, .no, .auto⟩ := Option.some.inj (hb.symm.trans (by decide +kernel))
  subst this
  exact fun h => by cases congrArg Meaning.name h

/-- C132 fails for `animation: 1 "Infinite"`, which is printed as `animation: Infinite`. -/
theorem C132_infinite_case_fails : ∃ (cs : List (Comp Nat Nat)) (a : Anim Nat Nat), Anim.parse cs = some a ∧ Means cs (meaning a) ∧ ¬Means a.print (meaning a) := by
  refine ⟨[.num ⟨1, 0⟩, .str cs!"Infinite"], ⟨.string cs!"Infinite", 0, .ease, .number ⟨1, 0⟩, .normal, .running, 0, .no, .auto⟩,
    by decide +kernel, print_differs _ _ (by decide +kernel) ?_⟩
  intro b hb
  have : b = ⟨.no, 0, .ease, .infinite, .normal, .running, 0, .no, .auto⟩ := Option.some.inj (hb.symm.trans (by decide +kernel))
  subst this
  exact fun h => by cases congrArg Meaning.name h

/-- C132 fails for the empty name: `animation: ""` is printed as `animation: `. -/
theorem C132_empty_name_fails : ∃ (cs : List (Comp Nat Nat)) (a : Anim Nat Nat), Anim.parse cs = some a ∧ Means cs (meaning a) ∧ a.print = [] := by
  exact ⟨[.str []], ⟨.string [], 0, .ease, .number ⟨1, 0⟩, .normal, .running, 0, .no, .auto⟩, by decide +kernel,
    (C131_read _ _).2 ⟨_, by decide +kernel, rfl⟩, by decide +kernel⟩

/-- C132 fails for `animation: a none none`, which has no timeline, and is printed as `animation: a none`, which has the default timeline. -/
theorem C132_timeline_none_fails : ∃ (cs : List (Comp Nat Nat)) (a : Anim Nat Nat), Anim.parse cs = some a ∧ Means cs (meaning a) ∧ ¬Means a.print (meaning a) := by
  refine ⟨[.text (.ident cs!"a"), .text (.ident cs!"none"), .text (.ident cs!"none")], ⟨.ident cs!"a", 0, .ease, .number ⟨1, 0⟩, .normal, .running, 0, .no, .no⟩,
    by decide +kernel, print_differs _ _ (by decide +kernel) ?_⟩
  intro b hb
  have : b = ⟨.ident cs!"a", 0, .ease, .number ⟨1, 0⟩, .normal, .running, 0, .no, .auto⟩ := Option.some.inj (hb.symm.trans (by decide +kernel))
  subst this
  exact fun h => by cases congrArg Meaning.timeline h

end Verif.Animation
