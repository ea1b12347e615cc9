import Verif.Background.LayerSpec
namespace Verif.Background
open Spec
variable {V : Type}

/-- A component is put into what has been read. -/
def Read.add (s : Read V) : Comp V → Read V
  | .color v => { s with color := some v }
  | .image v => { s with image := some v }
  | .position v z => { s with position := some v, size := z }
  | .rep x y => { s with rep := some (x, y) }
  | .attachment a => { s with attachment := some a }
  | .box b => if s.origin.isNone then { s with origin := some b } else { s with clip := some (.box b) }
  | .clip c => { s with clip := some c }

/-- There is room for a component. -/
def Read.room (s : Read V) : Comp V → Prop
  | .color _ => s.color = none
  | .image _ => s.image = none
  | .position _ _ => s.position = none
  | .rep _ _ => s.rep = none
  | .attachment _ => s.attachment = none
  | .box _ => s.origin = none ∨ s.clip = none
  | .clip _ => s.clip = none

/-- There is room for all components. -/
def Fits : Read V → List (Comp V) → Prop
  | _, [] => True
  | s, c :: cs => s.room c ∧ Fits (s.add c) cs

/-- The number of values in an option. -/
def cnt {α : Type} : Option α → Nat
  | none => 0
  | some _ => 1

theorem cnt_none {α : Type} : cnt (none : Option α) = 0 := rfl
theorem cnt_some {α : Type} (a : α) : cnt (some a) = 1 := rfl

theorem fits_iff (cs : List (Comp V)) : ∀ s : Read V, Fits s cs ↔
    ((colors cs).length = 0 ∨ (colors cs).length + cnt s.color ≤ 1) ∧ ((images cs).length = 0 ∨ (images cs).length + cnt s.image ≤ 1) ∧
    ((positions cs).length = 0 ∨ (positions cs).length + cnt s.position ≤ 1) ∧ ((reps cs).length = 0 ∨ (reps cs).length + cnt s.rep ≤ 1) ∧
    ((attachments cs).length = 0 ∨ (attachments cs).length + cnt s.attachment ≤ 1) ∧ ((keywords cs).length = 0 ∨ (keywords cs).length + cnt s.clip ≤ 1) ∧
    ((boxes cs).length + (keywords cs).length + cnt s.origin + cnt s.clip ≤ 2) := by
  induction cs with
  | nil =>
    intro s
    simp only [Fits, colors, images, positions, reps, attachments, keywords, boxes, List.filterMap_nil, List.length_nil, true_or, true_and, true_iff]
    cases s.origin <;> cases s.clip <;> simp [cnt]
  | cons c cs ih =>
    intro s
    simp only [Fits, ih]
    obtain ⟨c1, p1, z1, i1, r1, a1, o1, k1⟩ := s
    cases c <;> simp only [Read.room, Read.add, colors, images, positions, reps, attachments, keywords, boxes, List.filterMap_cons, List.length_cons]
    case color => cases c1 <;> simp [cnt]
    case image => cases i1 <;> simp [cnt]
    case position => cases p1 <;> simp [cnt]
    case rep => cases r1 <;> simp [cnt]
    case attachment => cases a1 <;> simp [cnt]
    case box => cases o1 <;> cases k1 <;> simp only [cnt_none, cnt_some, Option.isNone_none, Option.isNone_some, if_true, Bool.false_eq_true, if_false, reduceCtorEq, or_true, or_false, true_and, false_and] <;> (constructor <;> first | (intro h; exact h.elim) | (rintro ⟨h1, h2, h3, h4, h5, h6, h7⟩; omega) | (rintro ⟨h1, h2, h3, h4, h5, h6, h7⟩; refine ⟨h1, h2, h3, h4, h5, ?_, ?_⟩ <;> omega))
    case clip =>
      cases k1 with
      | none =>
        simp only [cnt_none, cnt_some, true_and]
        constructor
        · rintro ⟨h1, h2, h3, h4, h5, h6, h7⟩
          exact ⟨h1, h2, h3, h4, h5, by omega, by omega⟩
        · rintro ⟨h1, h2, h3, h4, h5, h6, h7⟩
          exact ⟨h1, h2, h3, h4, h5, by omega, by omega⟩
      | some k =>
        simp only [cnt_some, reduceCtorEq, false_and, false_iff]
        rintro ⟨h1, h2, h3, h4, h5, h6, h7⟩
        simp at h6

theorem valid_fits (cs : List (Comp V)) : ValidLayer cs ↔ Fits ({} : Read V) cs := by
  rw [fits_iff]
  simp only [cnt]
  constructor
  · rintro ⟨_, _, _, _, _, _, _⟩; omega
  · rintro ⟨_, _, _, _, _, _, _⟩; constructor <;> omega

/-- The result of adding all. -/
theorem add_all (cs : List (Comp V)) : ∀ s : Read V, Fits s cs →
    (cs.foldl Read.add s).color = (s.color.toList ++ colors cs).head? ∧
    (cs.foldl Read.add s).image = (s.image.toList ++ images cs).head? ∧
    ((cs.foldl Read.add s).position = (s.position.toList ++ (positions cs).map (·.1)).head?) ∧
    (s.position = none → s.size = none → (cs.foldl Read.add s).size = (positions cs).head?.bind (·.2)) ∧
    (s.position ≠ none → (cs.foldl Read.add s).size = s.size) ∧
    (cs.foldl Read.add s).rep = (s.rep.toList ++ reps cs).head? ∧
    (cs.foldl Read.add s).attachment = (s.attachment.toList ++ attachments cs).head? ∧
    (cs.foldl Read.add s).origin = (s.origin.toList ++ boxes cs).head? ∧
    (cs.foldl Read.add s).clip = (s.clip <|> (keywords cs).head? <|> ((s.origin.toList ++ boxes cs)[1]?.map .box)) := by
  induction cs with
  | nil =>
    intro s _
    obtain ⟨c1, p1, z1, i1, r1, a1, o1, k1⟩ := s
    simp only [List.foldl_nil, colors, images, positions, reps, attachments, keywords, boxes, List.filterMap_nil, List.append_nil, List.map_nil]
    refine ⟨by cases c1 <;> rfl, by cases i1 <;> rfl, by cases p1 <;> rfl, ?_, (fun _ => trivial), by cases r1 <;> rfl, by cases a1 <;> rfl, by cases o1 <;> rfl, by cases o1 <;> cases k1 <;> rfl⟩
    intro _ h; exact h
  | cons c cs ih =>
    intro s h
    have hf := (fits_iff _ _).1 h
    obtain ⟨hr, h'⟩ := h
    have hf' := (fits_iff _ _).1 h'
    have i := ih _ h'
    clear ih
    rw [List.foldl_cons]
    generalize hS : cs.foldl Read.add (s.add c) = S at i ⊢
    clear hS
    obtain ⟨c1, p1, z1, i1, r1, a1, o1, k1⟩ := s
    cases c <;> simp only [Read.room, Read.add, colors, images, positions, reps, attachments, keywords, boxes, List.filterMap_cons, List.length_cons] at i hr hf hf' ⊢
    case color => subst hr; simpa using i
    case image => subst hr; simpa using i
    case position =>
      subst hr
      simp only [cnt_none] at hf
      have hp := List.eq_nil_of_length_eq_zero (l := positions cs) (by simp only [positions]; omega)
      simp only [positions] at hp
      simp only [hp, Option.toList_none, List.nil_append, List.map_nil, List.append_nil] at i ⊢
      obtain ⟨a1, a2, a3, _, a5, a6, a7, a8, a9⟩ := i
      exact ⟨a1, a2, by simpa using a3, (fun _ _ => by simpa using a5 (by simp)), (fun h => absurd rfl h), a6, a7, a8, a9⟩
    case rep => subst hr; simpa using i
    case attachment => subst hr; simpa using i
    case clip => subst hr; simpa using i
    case box b =>
      cases o1 with
      | none =>
        simp only [Option.isNone_none, if_true] at i
        simpa using i
      | some o =>
        have hk : k1 = none := by simpa using hr
        subst hk
        simp only [cnt_none, cnt_some] at hf
        have hk2 : (keywords cs).length = 0 ∧ (boxes cs).length = 0 := by simp only [keywords, boxes]; omega
        have hk3 := List.eq_nil_of_length_eq_zero hk2.1
        have hk4 := List.eq_nil_of_length_eq_zero hk2.2
        simp only [keywords, boxes] at hk3 hk4
        simp only [Option.isNone_some, Bool.false_eq_true, if_false, hk3, hk4] at i ⊢
        simpa using i

theorem means (d : Defaults V) (cs : List (Comp V)) (h : ValidLayer cs) (l : Full V) : Means d.color d.image d.position cs l ↔ l = finish d (cs.foldl Read.add {}) := by
  obtain ⟨h1, h2, h3, h4, _, h6, h7, h8, h9⟩ := add_all cs {} ((valid_fits cs).1 h)
  have h4' := h4 rfl rfl
  generalize cs.foldl Read.add {} = S at *
  have hc : (finish d S).clip = match keywords cs, boxes cs with
    | k :: _, _ => k
    | [], [] => .box .border
    | [], [b] => .box b
    | [], _ :: b :: _ => .box b := by
    simp only [finish, h9, h8]
    cases keywords cs with
    | cons k ks => rfl
    | nil => match boxes cs with
      | [] => rfl
      | [b] => rfl
      | _ :: b :: _ => rfl
  have hm : Means d.color d.image d.position cs (finish d S) := by
    refine ⟨?_, ?_, ?_, ?_, ?_, ?_, ?_, hc⟩
    · simp [finish, h1]
    · simp [finish, h2]
    · simp [finish, h3]
    · simp [finish, h4']
    · simp [finish, h6]
    · simp [finish, h7]
    · simp [finish, h8]
  constructor
  · intro m
    obtain ⟨a, b, c, e, f, g, i, j⟩ := l
    cases hm; cases m
    generalize finish d S = F at *
    obtain ⟨a', b', c', e', f', g', i', j'⟩ := F
    simp_all
  · rintro rfl; exact hm

/-- What follows a component is no repetition and no length. -/
def Calm : List (Tok V) → Prop
  | .rep _ :: _ => False
  | .auto :: _ => False
  | .len _ :: _ => False
  | .slash :: _ => False
  | _ => True

/-- What may follow a component with repetition being read or not. -/
def Calm' (s : Read V) : List (Tok V) → Prop
  | .rep _ :: _ => s.rep = none
  | .auto :: _ => False
  | .len _ :: _ => False
  | .slash :: _ => False
  | _ => True

theorem written_calm (cs : List (Comp V)) (ts : List (Tok V)) (s : Read V) (w : Written cs ts) (h : Fits s cs) : Calm' s ts := by
  cases w with
  | nil => trivial
  | cons c cs t ts hw _ =>
    have hr := h.1
    cases hw <;> first | trivial | exact hr

theorem parseLen_calm (s : Read V) (ts : List (Tok V)) (h : Calm' s ts) : parseLen ts = none := by
  match ts, h with
  | [], _ => rfl
  | t :: r, h => cases t <;> first | rfl | exact h.elim

theorem parseLen_writes (w : Len V) (t : Tok V) (h : WritesLen w t) (r : List (Tok V)) : parseLen (t :: r) = some (w, r) := by cases h <;> rfl

theorem parseSize_writes (z : BSize V) (t : List (Tok V)) (h : WritesSize z t) (s : Read V) (r : List (Tok V)) (hc : Calm' s r) : parseSize (t ++ r) = some (z, r) := by
  cases h with
  | cover => rfl
  | contain => rfl
  | one w t hw => simp only [parseSize, List.cons_append, List.nil_append, parseLen_writes _ _ hw, parseLen_calm s r hc]
  | two w h t u hw hu => simp only [parseSize, List.cons_append, List.nil_append, parseLen_writes _ _ hw, parseLen_writes _ _ hu]

theorem parseSlash_calm (s : Read V) (ts : List (Tok V)) (h : Calm' s ts) : parseSlash ts = (none, ts) := by
  match ts, h with
  | [], _ => rfl
  | t :: r, h => cases t <;> first | rfl | exact h.elim

theorem step_writes (s : Read V) (c : Comp V) (t r : List (Tok V)) (h : Writes c t) (hr : s.room c) (hc : Calm' (s.add c) r) : step s (t ++ r) = some (s.add c, r) := by
  obtain ⟨c1, p1, z1, i1, r1, a1, o1, k1⟩ := s
  cases h
  case color => simp only [Read.room] at hr; subst hr; rfl
  case image => simp only [Read.room] at hr; subst hr; rfl
  case position =>
    simp only [Read.room] at hr; subst hr
    simp [step, stepA, parseSlash_calm _ _ hc, Read.add]
  case sized v z ts hz =>
    simp only [Read.room] at hr; subst hr
    simp [step, stepA, parseSlash, parseSize_writes _ _ hz _ _ hc, Read.add]
  case repeatX => simp only [Read.room] at hr; subst hr; rfl
  case repeatY => simp only [Read.room] at hr; subst hr; rfl
  case rep1 x =>
    simp only [Read.room] at hr; subst hr
    have : parseRepeat (.rep x :: r) = some ((x, x), r) := by
      match r, hc with
      | [], _ => rfl
      | t :: r, hc => cases t <;> first | rfl | (simp [Calm', Read.add] at hc)
    simp [step, stepA, stepRepeat, this, Read.add]
  case rep2 => simp only [Read.room] at hr; subst hr; rfl
  case attachment => simp only [Read.room] at hr; subst hr; simp [step, stepA, stepRepeat, parseRepeat, stepAtt, Read.add]
  case box b =>
    cases o1 with
    | none => simp [step, stepA, stepRepeat, parseRepeat, stepAtt, stepOrigin, Read.add]
    | some o =>
      have : k1 = none := by simpa [Read.room] using hr
      subst this
      simp [step, stepA, stepRepeat, parseRepeat, stepAtt, stepOrigin, stepClip, parseClip, Read.add]
  case border => simp only [Read.room] at hr; subst hr; simp [step, stepA, stepRepeat, parseRepeat, stepAtt, stepOrigin, stepClip, parseClip, Read.add]
  case text => simp only [Read.room] at hr; subst hr; simp [step, stepA, stepRepeat, parseRepeat, stepAtt, stepOrigin, stepClip, parseClip, Read.add]

theorem loop_nil (n : Nat) (s : Read V) : loop n s [] = (s, []) := by
  cases n with
  | zero => rfl
  | succ n =>
    have : step s ([] : List (Tok V)) = none := by cases h : s.rep <;> cases h' : s.clip <;> simp [step, stepA, stepRepeat, stepAtt, stepOrigin, stepClip, parseRepeat, parseClip, h, h']
    rw [loop, this]

theorem writes_length (c : Comp V) (t : List (Tok V)) (h : Writes c t) : 1 ≤ t.length := by cases h <;> simp

theorem loop_written (cs : List (Comp V)) (ts : List (Tok V)) (w : Written cs ts) : ∀ (n : Nat) (s : Read V), ts.length ≤ n → Fits s cs → loop n s ts = (cs.foldl Read.add s, []) := by
  induction w with
  | nil => intro n s _ _; exact loop_nil n s
  | cons c cs t ts hw w ih =>
    intro n s hn hf
    have := writes_length c t hw
    rw [List.length_append] at hn
    match n, hn with
    | 0, hn => omega
    | n + 1, hn =>
      rw [loop, step_writes s c t ts hw hf.1 (written_calm cs ts _ w hf.2)]
      exact ih n _ (by omega) hf.2

theorem parseLen_some (ts r : List (Tok V)) (w : Len V) (h : parseLen ts = some (w, r)) : ∃ t, ts = t :: r ∧ WritesLen w t := by
  match ts, h with
  | .auto :: r', h => cases h; exact ⟨_, rfl, .auto⟩
  | .len v :: r', h => cases h; exact ⟨_, rfl, .len v⟩

theorem parseSize_some (ts r : List (Tok V)) (z : BSize V) (h : parseSize ts = some (z, r)) : ∃ t, ts = t ++ r ∧ WritesSize z t := by
  unfold parseSize at h
  cases h1 : parseLen ts with
  | some p =>
    obtain ⟨w, r1⟩ := p
    obtain ⟨t, rfl, ht⟩ := parseLen_some _ _ _ h1
    rw [h1] at h
    simp only at h
    cases h2 : parseLen r1 with
    | some p =>
      obtain ⟨w2, r2⟩ := p
      obtain ⟨u, rfl, hu⟩ := parseLen_some _ _ _ h2
      rw [h2] at h
      cases h
      exact ⟨[t, u], rfl, .two _ _ _ _ ht hu⟩
    | none => rw [h2] at h; cases h; exact ⟨[t], rfl, .one _ _ ht⟩
  | none =>
    rw [h1] at h
    match ts with
    | [] => cases h
    | u :: r' =>
      cases u <;> first | (cases h; exact ⟨[_], rfl, .cover⟩) | (cases h; exact ⟨[_], rfl, .contain⟩) | cases h

theorem parseSlash_spec (v : V) (r : List (Tok V)) : ∃ t, .pos v :: r = t ++ (parseSlash r).2 ∧ Writes (.position v (parseSlash r).1) t := by
  match r with
  | [] => exact ⟨[_], rfl, .position v⟩
  | u :: r =>
    by_cases hu : u = .slash
    · subst hu
      rw [parseSlash]
      cases h : parseSize r with
      | none => exact ⟨[_], rfl, .position v⟩
      | some p =>
        obtain ⟨z, r'⟩ := p
        obtain ⟨t, rfl, ht⟩ := parseSize_some _ _ _ h
        exact ⟨.pos v :: .slash :: t, rfl, .sized _ _ _ ht⟩
    · have : parseSlash (u :: r) = (none, u :: r) := by cases u <;> first | rfl | exact absurd rfl hu
      rw [this]
      exact ⟨[_], rfl, .position v⟩

theorem parseRepeat_some (ts r : List (Tok V)) (x y : Rep) (h : parseRepeat ts = some ((x, y), r)) : ∃ t, ts = t ++ r ∧ Writes (.rep x y : Comp V) t := by
  match ts, h with
  | .repeatX :: r', h => cases h; exact ⟨[_], rfl, .repeatX⟩
  | .repeatY :: r', h => cases h; exact ⟨[_], rfl, .repeatY⟩
  | [.rep x'], h => cases h; exact ⟨[_], rfl, .rep1 _⟩
  | .rep x' :: u :: r', h =>
    cases u
    case rep y' => cases h; exact ⟨[_, _], rfl, .rep2 _ _⟩
    all_goals (cases h; exact ⟨[_], rfl, .rep1 _⟩)

theorem step_some (s s' : Read V) (ts r : List (Tok V)) (h : step s ts = some (s', r)) : ∃ c t, ts = t ++ r ∧ Writes c t ∧ s.room c ∧ s' = s.add c := by
  rw [step] at h
  obtain ⟨c1, p1, z1, i1, r1, a1, o1, k1⟩ := s
  have orElse : ∀ {α : Type} (a b : Option α) (x : α), (a <|> b) = some x → a = some x ∨ (a = none ∧ b = some x) := by
    intro α a b x h; cases a with
    | none => exact .inr ⟨rfl, h⟩
    | some a => exact .inl h
  rcases orElse _ _ _ h with h | ⟨hA, h⟩
  · match ts, h with
    | .color v :: r', h =>
      simp only [stepA] at h
      cases c1 with
      | none => cases h; exact ⟨_, [_], rfl, .color v, rfl, rfl⟩
      | some _ => cases h
    | .pos v :: r', h =>
      simp only [stepA] at h
      cases p1 with
      | none =>
        cases h
        obtain ⟨t, ht, hw⟩ := parseSlash_spec v r'
        exact ⟨_, t, ht, hw, rfl, rfl⟩
      | some _ => cases h
    | .image v :: r', h =>
      simp only [stepA] at h
      cases i1 with
      | none => cases h; exact ⟨_, [_], rfl, .image v, rfl, rfl⟩
      | some _ => cases h
  rcases orElse _ _ _ h with h | ⟨hR, h⟩
  · simp only [stepRepeat] at h
    cases r1 with
    | some _ => cases h
    | none =>
      cases h1 : parseRepeat ts with
      | none => rw [h1] at h; cases h
      | some p =>
        obtain ⟨⟨x, y⟩, r'⟩ := p
        rw [h1] at h; cases h
        obtain ⟨t, ht, hw⟩ := parseRepeat_some _ _ _ _ h1
        exact ⟨_, t, ht, hw, rfl, rfl⟩
  rcases orElse _ _ _ h with h | ⟨hT, h⟩
  · match ts, h with
    | .att v :: r', h =>
      simp only [stepAtt] at h
      cases a1 with
      | none => cases h; exact ⟨_, [_], rfl, .attachment v, rfl, rfl⟩
      | some _ => cases h
  rcases orElse _ _ _ h with h | ⟨hO, h⟩
  · match ts, h with
    | .box v :: r', h =>
      simp only [stepOrigin] at h
      cases o1 with
      | none => cases h; exact ⟨_, [_], rfl, .box v, .inl rfl, rfl⟩
      | some _ => cases h
  simp only [stepClip] at h
  cases k1 with
  | some _ => cases h
  | none =>
    match ts, h with
    | .box v :: r', h =>
      cases h
      cases o1 with
      | none => cases hO
      | some o => exact ⟨_, [_], rfl, .box v, .inr rfl, rfl⟩
    | .border :: r', h => cases h; exact ⟨_, [_], rfl, .border, rfl, rfl⟩
    | .text :: r', h => cases h; exact ⟨_, [_], rfl, .text, rfl, rfl⟩

theorem loop_some : ∀ (n : Nat) (s s' : Read V) (ts : List (Tok V)), loop n s ts = (s', []) → ∃ cs, Fits s cs ∧ Written cs ts ∧ s' = cs.foldl Read.add s
  | 0, s, s', ts, h => by cases h; exact ⟨[], trivial, .nil, rfl⟩
  | n + 1, s, s', ts, h => by
    rw [loop] at h
    cases h1 : step s ts with
    | none => rw [h1] at h; cases h; exact ⟨[], trivial, .nil, rfl⟩
    | some p =>
      obtain ⟨s1, r⟩ := p
      rw [h1] at h
      obtain ⟨c, t, rfl, hw, hr, rfl⟩ := step_some _ _ _ _ h1
      obtain ⟨cs, hf, w, e⟩ := loop_some n _ _ _ h
      exact ⟨c :: cs, ⟨hr, hf⟩, .cons _ _ _ _ hw w, e⟩

theorem parse_iff (d : Defaults V) (ts : List (Tok V)) (l : Full V) :
    parseLayer d ts = some l ↔ ∃ cs, ValidLayer cs ∧ Written cs ts ∧ Means d.color d.image d.position cs l := by
  rw [parseLayer]
  constructor
  · intro h
    cases h1 : loop ts.length {} ts with
    | mk s r =>
      rw [h1] at h
      cases r with
      | cons _ _ => cases h
      | nil =>
        cases h
        obtain ⟨cs, hf, w, e⟩ := loop_some _ _ _ _ h1
        exact ⟨cs, (valid_fits cs).2 hf, w, (means d cs ((valid_fits cs).2 hf) _).2 (by rw [e])⟩
  · rintro ⟨cs, hv, w, hm⟩
    rw [loop_written cs ts w ts.length {} (Nat.le_refl _) ((valid_fits cs).1 hv)]
    rw [(means d cs hv l).1 hm]

end Verif.Background
