import Verif.Font.LeadProps
/-! # C142, C143: the `font` shorthand is read and written with its meaning -/
namespace Verif.Font
open Verif.Transition (kw)
open Verif.Font.Spec

section
variable {L A : Type}

/-- C142 (part): a `font` shorthand that is accepted has this meaning by the specification. Missing: weights out of range and names with CSS-wide keywords are accepted although they are invalid (`C142_weight_fails`). -/
theorem C142_read_partial [Zero L] [DecidableEq L] [Oblique A] (l : List (Tok L A)) (f : Font L A) (h : Font.parse l = some f)
    (hw : ∀ q, f.weight = .num q → 1 ≤ q ∧ q ≤ 1000) (hn : ∀ n, .name n ∈ f.family → WideFree n) : Shorthand l f.meaning := by
  simp only [Font.parse] at h
  split at h
  · cases h
  · rename_i size r hs
    split at h
    · cases h
    · rename_i hc
      split at h
      · cases h
      · rename_i lh r2 hl
        cases hf : parseFamilies (r2.length + 1) r2 with
        | none => rw [hf] at h; cases h
        | some fams =>
          rw [hf] at h
          simp only [Option.map_some, Option.some.injEq] at h
          subst h
          simp only at hw hn
          have hr : InRange (Slots.loop l.length {} l).1.weight := by
            intro q hq; exact hw q (by rw [hq]; rfl)
          obtain ⟨lead, items, i1, i2, i3, i4, i5, i6⟩ := loop_sound l.length {} l hr
          generalize Slots.loop l.length {} l = x at *
          obtain ⟨t, ht, hsz⟩ := parseSize_sound x.2 r size hs
          obtain ⟨sl, hsl, hslt⟩ := parseSlash_sound r r2 lh hl
          have hfam := C141_read_partial _ r2 fams hf hn
          generalize hK : (items.filterMap id).map Part.kind = K at *
          obtain ⟨qs, q1, q2, q3, q4⟩ := assign i2 (kinds.filter (· ∉ K)) (List.Nodup.filter _ (by decide)) (by
            have := free_length K i4
            have hl : K.length = (items.filterMap id).length := by rw [← hK, List.length_map]
            simp only [Nat.zero_add] at i3
            omega) (by intro k hk; rw [hK]; simpa using (List.mem_filter.1 hk).2) (by rw [hK]; exact i4)
          refine ⟨lead, t, sl, r2, by rw [← hsl, ← ht, ← i1], ⟨qs, q1, q2, ?_⟩, hsz, hslt, hfam⟩
          intro k
          have hpart : ∀ p, x.1.part k = some p →
              (Font.meaning ⟨fams, size, x.1.style.getD .normal, x.1.weight.getD .normal, .kw (x.1.stretch.getD .normal), lh, x.1.caps.getD .normal⟩).part k = p := by
            intro p hp
            cases k with
            | style => cases hh : x.1.style with
              | none => rw [Slots.part, hh] at hp; cases hp
              | some v => rw [Slots.part, hh] at hp; cases hp; rfl
            | caps => cases hh : x.1.caps with
              | none => rw [Slots.part, hh] at hp; cases hp
              | some v => rw [Slots.part, hh] at hp; cases hp; rfl
            | weight => cases hh : x.1.weight with
              | none => rw [Slots.part, hh] at hp; cases hp
              | some v => rw [Slots.part, hh] at hp; cases hp; rfl
            | width => cases hh : x.1.stretch with
              | none => rw [Slots.part, hh] at hp; cases hp
              | some v => rw [Slots.part, hh] at hp; cases hp; rfl
          have hinit : x.1.part k = none →
              (Font.meaning ⟨fams, size, x.1.style.getD .normal, x.1.weight.getD .normal, .kw (x.1.stretch.getD .normal), lh, x.1.caps.getD .normal⟩).part k = initial k := by
            intro hp
            cases k with
            | style => cases hh : x.1.style with
              | none => rfl
              | some v => rw [Slots.part, hh] at hp; cases hp
            | caps => cases hh : x.1.caps with
              | none => rfl
              | some v => rw [Slots.part, hh] at hp; cases hp
            | weight => cases hh : x.1.weight with
              | none => rfl
              | some v => rw [Slots.part, hh] at hp; cases hp
            | width => cases hh : x.1.stretch with
              | none => rfl
              | some v => rw [Slots.part, hh] at hp; cases hp
          by_cases hk : k ∈ K
          · rw [← hK] at hk
            obtain ⟨p, hp, rfl⟩ := List.mem_map.1 hk
            rw [hpart p (i5 p hp).2]
            exact .inl (q4 p hp)
          · have hnone : x.1.part k = none := by rw [i6 k hk]; cases k <;> rfl
            rw [hinit hnone]
            by_cases hq : k ∈ qs.map Part.kind
            · obtain ⟨q, hqm, rfl⟩ := List.mem_map.1 hq
              rcases q3 q hqm with hq' | ⟨k', _, rfl⟩
              · exact absurd (by rw [← hK]; exact List.mem_map.2 ⟨q, hq', rfl⟩) hk
              · rw [initial_kind]; exact .inl hqm
            · exact .inr ⟨hq, rfl⟩

/-! ### Completeness -/

theorem find_of_word {K : Type} (all : List K) (text : K → Str) {s a : Str} (h : word s a) : parseKw all text s = all.find? fun k => decide (a = text k) := by
  unfold parseKw
  congr 1
  funext k
  simp only [kw]
  have : s.map Char.toLower = a := h
  rw [this]

theorem step_normal [Oblique A] (s : Slots A) (n : Str) (r : List (Tok L A)) (h : word n cs!"normal") :
    s.step (.ident n :: r) = some ({ s with count := s.count + 1 }, r) := by
  simp only [Slots.step, (kw_iff _ _).2 h, if_true]

/-- One part of the text is read, if there is none of its kind yet. -/
theorem step_complete [Oblique A] (s : Slots A) (t r : List (Tok L A)) (p : Part A) (h : PartText t p) (hs : s.part p.kind = none) (hr : ∀ a r', r ≠ .angle a :: r') :
    ∃ s', s.step (t ++ r) = some (s', r) ∧ s'.count = s.count + 1 ∧ (s'.part p.kind).getD (initial p.kind) = p ∧ ∀ k, k ≠ p.kind → s'.part k = s.part k := by
  have hnrm : ∀ (n : Str), word n cs!"normal" → ∀ k : Kind, s.part k = none → ∃ s', s.step ([.ident n] ++ r) = some (s', r) ∧ s'.count = s.count + 1 ∧
      (s'.part k).getD (initial k) = initial k ∧ ∀ j, j ≠ k → s'.part j = s.part j := by
    intro n hn k hk
    refine ⟨_, step_normal s n r hn, rfl, ?_, ?_⟩
    · have : ({ s with count := s.count + 1 } : Slots A).part k = s.part k := by cases k <;> rfl
      rw [this, hk]; rfl
    · intro j _; cases j <;> rfl
  have hst : ∀ {s : Slots A}, s.part .style = none → s.style = none := by
    intro s h; cases hh : s.style with
    | none => rfl
    | some v => rw [Slots.part, hh] at h; cases h
  have hca : ∀ {s : Slots A}, s.part .caps = none → s.caps = none := by
    intro s h; cases hh : s.caps with
    | none => rfl
    | some v => rw [Slots.part, hh] at h; cases h
  have hwe : ∀ {s : Slots A}, s.part .weight = none → s.weight = none := by
    intro s h; cases hh : s.weight with
    | none => rfl
    | some v => rw [Slots.part, hh] at h; cases h
  have hwi : ∀ {s : Slots A}, s.part .width = none → s.stretch = none := by
    intro s h; cases hh : s.stretch with
    | none => rfl
    | some v => rw [Slots.part, hh] at h; cases h
  cases h with
  | normalStyle n h => exact hnrm n h .style hs
  | normalCaps n h => exact hnrm n h .caps hs
  | normalWeight n h => exact hnrm n h .weight hs
  | italic n h =>
    have hs := hst hs
    refine ⟨{ s with style := some .italic, count := s.count + 1 }, ?_, rfl, rfl, ?_⟩
    · simp [Slots.step, kw_false h, (kw_iff _ _).2 h, hs, parseStyle]
    · intro k hk; cases k <;> first | rfl | exact absurd rfl hk
  | oblique n h =>
    have hs := hst hs
    refine ⟨{ s with style := some (.oblique Oblique.dflt), count := s.count + 1 }, ?_, rfl, rfl, ?_⟩
    · have hp : parseStyle (.ident n :: r) = some (Style.oblique Oblique.dflt, r) := by
        simp only [parseStyle, kw_false h (b := cs!"normal") (by decide), kw_false h (b := cs!"italic") (by decide), (kw_iff _ _).2 h, Bool.false_eq_true, if_false, if_true]
      simp [Slots.step, kw_false h, hs, hp]
    · intro k hk; cases k <;> first | rfl | exact absurd rfl hk
  | obliqueAngle n h a =>
    have hs := hst hs
    refine ⟨{ s with style := some (.oblique a), count := s.count + 1 }, ?_, rfl, rfl, ?_⟩
    · have hp : parseStyle (.ident n :: .angle a :: r) = some (Style.oblique a, r) := by
        simp only [parseStyle, kw_false h (b := cs!"normal") (by decide), kw_false h (b := cs!"italic") (by decide), (kw_iff _ _).2 h, Bool.false_eq_true, if_false, if_true]
      simp [Slots.step, kw_false h, hs, hp]
    · intro k hk; cases k <;> first | rfl | exact absurd rfl hk
  | smallCaps n h =>
    have hs := hca hs
    have hp1 : parseStyle (.ident n :: r) = (none : Option (Style A × List (Tok L A))) := by
      simp only [parseStyle, kw_false h (b := cs!"normal") (by decide), kw_false h (b := cs!"italic") (by decide), kw_false h (b := cs!"oblique") (by decide), Bool.false_eq_true, if_false]
    have hp2 : parseWeight (.ident n :: r) = (none : Option (Weight × List (Tok L A))) := by
      simp only [parseWeight, kw_false h (b := cs!"normal") (by decide), kw_false h (b := cs!"bold") (by decide), kw_false h (b := cs!"bolder") (by decide),
        kw_false h (b := cs!"lighter") (by decide), Bool.false_eq_true, if_false]
    have hp3 : parseCaps2 (.ident n :: r) = some (Caps.smallCaps, r) := by
      have := (caps_iff n .smallCaps).2 h
      simp only [parseCaps2, this]; rfl
    refine ⟨{ s with caps := some .smallCaps, count := s.count + 1 }, ?_, rfl, rfl, ?_⟩
    · simp [Slots.step, kw_false h, hs, hp1, hp2, hp3]
    · intro k hk; cases k <;> first | rfl | exact absurd rfl hk
  | bold n h =>
    have hs := hwe hs
    have hp1 : parseStyle (.ident n :: r) = (none : Option (Style A × List (Tok L A))) := by
      simp only [parseStyle, kw_false h (b := cs!"normal") (by decide), kw_false h (b := cs!"italic") (by decide), kw_false h (b := cs!"oblique") (by decide), Bool.false_eq_true, if_false]
    have hp2 : parseWeight (.ident n :: r) = some (Weight.bold, r) := by
      simp only [parseWeight, kw_false h (b := cs!"normal") (by decide), (kw_iff _ _).2 h, Bool.false_eq_true, if_false, if_true]
    refine ⟨{ s with weight := some .bold, count := s.count + 1 }, ?_, rfl, rfl, ?_⟩
    · simp [Slots.step, kw_false h, hs, hp1, hp2]
    · intro k hk; cases k <;> first | rfl | exact absurd rfl hk
  | bolder n h =>
    have hs := hwe hs
    have hp1 : parseStyle (.ident n :: r) = (none : Option (Style A × List (Tok L A))) := by
      simp only [parseStyle, kw_false h (b := cs!"normal") (by decide), kw_false h (b := cs!"italic") (by decide), kw_false h (b := cs!"oblique") (by decide), Bool.false_eq_true, if_false]
    have hp2 : parseWeight (.ident n :: r) = some (Weight.bolder, r) := by
      simp only [parseWeight, kw_false h (b := cs!"normal") (by decide), kw_false h (b := cs!"bold") (by decide), (kw_iff _ _).2 h, Bool.false_eq_true, if_false, if_true]
    refine ⟨{ s with weight := some .bolder, count := s.count + 1 }, ?_, rfl, rfl, ?_⟩
    · simp [Slots.step, kw_false h, hs, hp1, hp2]
    · intro k hk; cases k <;> first | rfl | exact absurd rfl hk
  | lighter n h =>
    have hs := hwe hs
    have hp1 : parseStyle (.ident n :: r) = (none : Option (Style A × List (Tok L A))) := by
      simp only [parseStyle, kw_false h (b := cs!"normal") (by decide), kw_false h (b := cs!"italic") (by decide), kw_false h (b := cs!"oblique") (by decide), Bool.false_eq_true, if_false]
    have hp2 : parseWeight (.ident n :: r) = some (Weight.lighter, r) := by
      simp only [parseWeight, kw_false h (b := cs!"normal") (by decide), kw_false h (b := cs!"bold") (by decide), kw_false h (b := cs!"bolder") (by decide),
        (kw_iff _ _).2 h, Bool.false_eq_true, if_false, if_true]
    refine ⟨{ s with weight := some .lighter, count := s.count + 1 }, ?_, rfl, rfl, ?_⟩
    · simp [Slots.step, kw_false h, hs, hp1, hp2]
    · intro k hk; cases k <;> first | rfl | exact absurd rfl hk
  | number q h =>
    have hs := hwe hs
    refine ⟨{ s with weight := some (.num q), count := s.count + 1 }, ?_, rfl, rfl, ?_⟩
    · simp [Slots.step, hs, parseStyle, parseWeight]
    · intro k hk; cases k <;> first | rfl | exact absurd rfl hk
  | width n kk q hk h =>
    obtain ⟨k, rfl, rfl⟩ := mem_width hk
    by_cases hkn : k = .normal
    · subst hkn; exact hnrm n h .width hs
    · have hs := hwi hs
      have hp0 : kw n cs!"normal" = false := kw_false h (by cases k <;> first | decide | exact absurd rfl hkn)
      have hp1 : parseStyle (.ident n :: r) = (none : Option (Style A × List (Tok L A))) := by
        simp only [parseStyle, hp0, kw_false h (b := cs!"italic") (by cases k <;> decide), kw_false h (b := cs!"oblique") (by cases k <;> decide), Bool.false_eq_true, if_false]
      have hp2 : parseWeight (.ident n :: r) = (none : Option (Weight × List (Tok L A))) := by
        simp only [parseWeight, hp0, kw_false h (b := cs!"bold") (by cases k <;> decide), kw_false h (b := cs!"bolder") (by cases k <;> decide),
          kw_false h (b := cs!"lighter") (by cases k <;> decide), Bool.false_eq_true, if_false]
      have hp3 : parseCaps2 (.ident n :: r) = (none : Option (Caps × List (Tok L A))) := by
        have : parseKw Caps.all Caps.text n = none := by
          rw [parseKw_none]; intro c _ hc
          have := word_unique hc h
          cases k with
          | normal => exact absurd rfl hkn
          | _ => revert this; cases c <;> decide
        simp only [parseCaps2, this]
      have hp4 : parseStretch (.ident n :: r) = some (k, r) := by
        simp only [parseStretch, (stretch_iff n k).2 h, Option.map_some]
      refine ⟨{ s with stretch := some k, count := s.count + 1 }, ?_, rfl, rfl, ?_⟩
      · simp [Slots.step, hp0, hs, hp1, hp2, hp3, hp4]
      · intro j hj; cases j <;> first | rfl | exact absurd rfl hj

/-- The loop stops at the size. -/
theorem step_size [Zero L] [Oblique A] (s : Slots A) (t : Tok L A) (r : List (Tok L A)) (v : SizeV L) (h : SizeText t v) (hz : t = .num 0 → s.weight ≠ none) :
    s.step (t :: r) = none := by
  cases h with
  | len l => simp [Slots.step, parseStyle, parseWeight, parseCaps2, parseStretch]
  | zero =>
    have : s.weight.isNone = false := by cases hh : s.weight with
      | none => exact absurd hh (hz rfl)
      | some w => rfl
    simp [Slots.step, parseStyle, parseCaps2, parseStretch, this]
  | pct q => simp [Slots.step, parseStyle, parseWeight, parseCaps2, parseStretch]
  | keyword n k hk h =>
    have hd : ∀ b : Str, b ∉ sizes → kw n b = false := fun b hb => kw_false h (by intro hkb; subst hkb; exact hb hk)
    have hp1 : parseStyle (.ident n :: r) = (none : Option (Style A × List (Tok L A))) := by
      simp only [parseStyle, hd cs!"normal" (by decide), hd cs!"italic" (by decide), hd cs!"oblique" (by decide), Bool.false_eq_true, if_false]
    have hp2 : parseWeight (.ident n :: r) = (none : Option (Weight × List (Tok L A))) := by
      simp only [parseWeight, hd cs!"normal" (by decide), hd cs!"bold" (by decide), hd cs!"bolder" (by decide), hd cs!"lighter" (by decide), Bool.false_eq_true, if_false]
    have hp3 : parseCaps2 (.ident n :: r) = (none : Option (Caps × List (Tok L A))) := by
      have : parseKw Caps.all Caps.text n = none := by
        rw [parseKw_none]; intro c _ hc
        have := word_unique hc h
        rw [← this] at hk
        revert hk; cases c <;> decide
      simp only [parseCaps2, this]
    have hp4 : parseStretch (.ident n :: r) = (none : Option (StretchKw × List (Tok L A))) := by
      have : parseKw StretchKw.all StretchKw.text n = none := by
        rw [parseKw_none]; intro c _ hc
        have := word_unique hc h
        rw [← this] at hk
        revert hk; cases c <;> decide
      simp only [parseStretch, this, Option.map_none]
    simp [Slots.step, hd cs!"normal" (by decide), hp1, hp2, hp3, hp4]

theorem partText_head [Oblique A] {t : List (Tok L A)} {p : Part A} (h : PartText t p) : ∃ a r, t = a :: r ∧ ∀ x, a ≠ .angle x := by
  cases h <;> exact ⟨_, _, rfl, by intro x hx; cases hx⟩

/-- A number in the text sets the weight. -/
theorem step_number [Oblique A] (s : Slots A) (t r : List (Tok L A)) (p : Part A) (h : PartText t p) (q : Rat) (hq : .num q ∈ t) (s' : Slots A)
    (hs : s.step (t ++ r) = some (s', r)) (hf : p.kind = .weight → s.part .weight = none) : s'.weight ≠ none := by
  cases h with
  | number q' h =>
    have hw : s.weight = none := by
      have := hf rfl
      cases hh : s.weight with
      | none => rfl
      | some v => rw [Slots.part, hh] at this; cases this
    simp [Slots.step, hw, parseStyle, parseWeight] at hs
    rw [← hs]
    simp
  | _ => simp at hq

theorem loop_complete [Zero L] [Oblique A] {lead : List (Tok L A)} {ps : List (Part A)} (h : PartsText lead ps) (t : Tok L A) (r : List (Tok L A)) (v : SizeV L)
    (ht : SizeText t v) : ∀ (n : Nat) (s : Slots A), lead.length < n → (ps.map Part.kind).Nodup → (∀ p ∈ ps, s.part p.kind = none) →
    (t = .num 0 → s.weight ≠ none ∨ ∃ q, .num q ∈ lead) →
    (Slots.loop n s (lead ++ t :: r)).2 = t :: r ∧ (Slots.loop n s (lead ++ t :: r)).1.count = s.count + ps.length ∧
    (∀ p ∈ ps, ((Slots.loop n s (lead ++ t :: r)).1.part p.kind).getD (initial p.kind) = p) ∧
    ∀ k, k ∉ ps.map Part.kind → (Slots.loop n s (lead ++ t :: r)).1.part k = s.part k := by
  induction h with
  | nil =>
    intro n s hn _ _ hz
    cases n with
    | zero => omega
    | succ n =>
      have := step_size s t r v ht (by
        intro h0
        rcases hz h0 with h | ⟨q, hp⟩
        · exact h
        · cases hp)
      simp only [List.nil_append, Slots.loop, this]
      simp
  | @cons t0 ts p ps h hs ih =>
    intro n s hn hnd hfree hz
    cases n with
    | zero => omega
    | succ n =>
      obtain ⟨a0, r0, ha0, _⟩ := partText_head h
      simp only [List.map_cons, List.nodup_cons] at hnd
      have hang : ∀ a r', ts ++ t :: r ≠ .angle a :: r' := by
        intro a r' he
        cases hs with
        | nil => cases ht <;> cases he
        | @cons t1 ts1 p1 ps1 h1 hs1 =>
          obtain ⟨b, rb, hb, hb'⟩ := partText_head h1
          subst hb
          simp only [List.cons_append, List.cons.injEq] at he
          exact hb' a he.1
      obtain ⟨s', h1, h2, h3, h4⟩ := step_complete s t0 (ts ++ t :: r) p h (hfree p (by simp)) hang
      have hne : ∀ p' ∈ ps, p'.kind ≠ p.kind := fun p' hp' hk => hnd.1 (List.mem_map.2 ⟨p', hp', hk⟩)
      obtain ⟨j1, j2, j3, j4⟩ := ih n s' (by rw [ha0] at hn; simp only [List.length_append, List.length_cons] at hn; omega) hnd.2
        (fun p' hp' => by rw [h4 p'.kind (hne p' hp')]; exact hfree p' (by simp [hp'])) (by
          intro h0
          rcases hz h0 with hw | ⟨q, hq⟩
          · left
            intro hw'
            by_cases hkp : p.kind = .weight
            · have := hfree p (by simp)
              rw [hkp] at this
              cases hh : s.weight with
              | none => exact hw hh
              | some w => rw [Slots.part, hh] at this; cases this
            · have := h4 .weight (fun h => hkp h.symm)
              rw [Slots.part, Slots.part, hw'] at this
              cases hh : s.weight with
              | none => exact hw hh
              | some w => rw [hh] at this; cases this
          · rcases List.mem_append.1 hq with hq | hq
            · exact .inl (step_number s t0 (ts ++ t :: r) p h q hq s' h1 (by
                intro hk
                have := hfree p (by simp)
                rw [hk] at this
                exact this))
            · exact .inr ⟨q, hq⟩)
      have hl : Slots.loop (n + 1) s (t0 ++ ts ++ t :: r) = Slots.loop n s' (ts ++ t :: r) := by
        rw [List.append_assoc]; simp only [Slots.loop, h1]
      rw [hl]
      refine ⟨j1, by rw [j2, h2, List.length_cons]; omega, ?_, ?_⟩
      · intro p' hp'
        rcases List.mem_cons.1 hp' with rfl | hp'
        · rw [j4 p'.kind hnd.1, h3]
        · exact j3 p' hp'
      · intro k hk
        simp only [List.map_cons, List.mem_cons, not_or] at hk
        rw [j4 k hk.2, h4 k hk.1]

theorem kinds_length (K : List Kind) (h : K.Nodup) : K.length ≤ 4 := (h.subperm (l₂ := kinds) (fun k _ => by cases k <;> decide)).length_le

theorem slots_getD (s : Slots A) [Zero L] [DecidableEq L] (fams : List Family) (size : Size L) (lh : LineHeight L) (k : Kind) :
    (Font.meaning ⟨fams, size, s.style.getD .normal, s.weight.getD .normal, .kw (s.stretch.getD .normal), lh, s.caps.getD .normal⟩).part k =
      (s.part k).getD (initial k) := by
  cases k with
  | style => cases hh : s.style <;> simp [Slots.part, hh, Meaning.part, Font.meaning, initial, Style.meaning]
  | caps => cases hh : s.caps <;> simp [Slots.part, hh, Meaning.part, Font.meaning, initial]
  | weight => cases hh : s.weight <;> simp [Slots.part, hh, Meaning.part, Font.meaning, initial, Weight.meaning]
  | width => cases hh : s.stretch <;> simp [Slots.part, hh, Meaning.part, Font.meaning, initial, Stretch.meaning, StretchKw.percent]

theorem families_head {l : List (Tok L A)} {fs : List FamilyV} (h : FamiliesText l fs) : ∀ r', l ≠ .slash :: r' := by
  have one : ∀ {t : List (Tok L A)} {f : FamilyV}, FamilyText t f → ∃ a r, t = a :: r ∧ a ≠ .slash := by
    intro t f h
    cases h with
    | keyword s k hk hw => exact ⟨_, _, rfl, by intro hx; cases hx⟩
    | str s => exact ⟨_, _, rfl, by intro hx; cases hx⟩
    | idents ws h0 _ _ =>
      cases ws with
      | nil => exact absurd rfl h0
      | cons w ws => exact ⟨_, _, rfl, by intro hx; cases hx⟩
  cases h with
  | one h => obtain ⟨a, r, rfl, ha⟩ := one h; intro r' he; cases he; exact ha rfl
  | cons h hs => obtain ⟨a, r, rfl, ha⟩ := one h; intro r' he; cases he; exact ha rfl

/-- C142 (part): a valid `font` shorthand is accepted and has the same meaning. Missing: the size `0` without a weight, and families that begin with a generic name; these declarations are kept as they are. -/
theorem C142_accept_partial [Zero L] [DecidableEq L] [Oblique A] (lead : List (Tok L A)) (size : Tok L A) (slash fams : List (Tok L A)) (m : Meaning L A)
    (h1 : LeadText lead m) (h2 : SizeText size m.size) (h3 : SlashText slash m.line) (h4 : FamiliesText fams m.families)
    (hz : size = .num 0 → ∃ q, .num q ∈ lead) (hg : ∀ x s u y, fams = x ++ .ident s :: .ident u :: y → ∀ k ∈ generic, ¬word s k) :
    ∃ f, Font.parse (lead ++ size :: (slash ++ fams)) = some f ∧ f.meaning = m := by
  obtain ⟨ps, p1, p2, p3⟩ := h1
  obtain ⟨l1, l2, l3, l4⟩ := loop_complete p1 size (slash ++ fams) m.size h2 (lead ++ size :: (slash ++ fams)).length {} (by
    simp only [List.length_append, List.length_cons]; omega) p2 (by intro p _; cases p <;> rfl) (fun h => .inr (hz h))
  obtain ⟨sz, s1, s2⟩ := parseSize_complete size (slash ++ fams) m.size h2
  obtain ⟨lh, e1, e2⟩ := parseSlash_complete slash fams m.line h3 (families_head h4)
  obtain ⟨fs, f1, f2⟩ := C141_accept_partial fams m.families h4 hg (fams.length + 1) (by omega)
  generalize hx : Slots.loop (lead ++ size :: (slash ++ fams)).length {} (lead ++ size :: (slash ++ fams)) = x at *
  refine ⟨⟨fs, sz, x.1.style.getD .normal, x.1.weight.getD .normal, .kw (x.1.stretch.getD .normal), lh, x.1.caps.getD .normal⟩, ?_, ?_⟩
  · have hc : ¬x.1.count > 4 := by
      have := kinds_length _ p2
      rw [List.length_map] at this
      rw [l2]
      simp only [Nat.zero_add]
      omega
    simp only [Font.parse, hx, l1, s1, if_neg hc, e1, f1, Option.map_some]
  · have hk : ∀ k, (Font.meaning ⟨fs, sz, x.1.style.getD .normal, x.1.weight.getD .normal, .kw (x.1.stretch.getD .normal), lh, x.1.caps.getD .normal⟩).part k = m.part k := by
      intro k
      rw [slots_getD]
      rcases p3 k with hm | ⟨hn, hi⟩
      · have hkk : (m.part k).kind = k := by cases k <;> rfl
        have := l3 _ hm
        rw [hkk] at this
        exact this
      · rw [l4 k hn, hi]; cases k <;> rfl
    have a1 := hk .style
    have a2 := hk .caps
    have a3 := hk .weight
    have a4 := hk .width
    simp only [Meaning.part, Part.style.injEq, Part.caps.injEq, Part.weight.injEq, Part.width.injEq] at a1 a2 a3 a4
    cases m
    simp only [Font.meaning, Meaning.mk.injEq] at *
    exact ⟨a1, a2, a3, a4, s2, e2, f2⟩

end
end Verif.Font
