import Verif.SelParse.Flag
import Mathlib.Data.List.Forall2
/-!
# The selector parser: the theorems (C190–C193)
-/
namespace Verif.SelParse

variable {o : Opts} {D : Drop}

theorem okv_none_iff {α β : Type} {x : Out (α × β)} : okv x = none ↔ ∀ a, ¬ okv x = some a := by
  cases x <;> simp [okv]

theorem dropOK_of_forgiving (h : Forgiving code o D) : DropOK o D := by
  intro cx inh p b hp
  refine ⟨?_, ?_⟩
  · rw [(h cx inh p).1, okv_none_iff]
    exact forall_congr' fun s => not_congr (piece_iff cx inh b s hp).symm
  · rw [(h cx inh p).2, okv_none_iff]
    exact forall_congr' fun s => not_congr (relative_iff cx inh b s hp).symm

theorem parse_okv (ts : List Tok) : parse o ts = okv (list o false .none (stOf .top [] false) (liftL o ts)) := by
  unfold parse
  show (match list o false .none (stOf .top [] false) (liftL o ts) with | .ok (l, _) => some l | .error _ => none) = _
  cases list o false .none (stOf .top [] false) (liftL o ts) <;> rfl

theorem parse_dropOK (hD : DropOK o D) (ts : List Tok) (l : List Sel) : parse o ts = some l ↔ ReadsList code D o l ts := by
  rw [parse_okv, list_iff hD .top [] false false l (toksOK hD ts)]
  rfl

/-- **C190.** The selector list of a style rule is accepted exactly when it can be read as a selector list (of the dialect of the code), and the
value is what is read; and the pieces that are ignored within `:is()` and the like are exactly those that are not selectors. -/
theorem parse_iff (hD : Forgiving code o D) (ts : List Tok) (l : List Sel) : parse o ts = some l ↔ ReadsList code D o l ts :=
  parse_dropOK (dropOK_of_forgiving hD) ts l

/-- There is one way to ignore exactly what is not a selector. -/
theorem forgiving_exists_unique (o : Opts) : ∃ D, Forgiving code o D ∧ ∀ D', Forgiving code o D' → D' = D := by
  obtain ⟨D, h⟩ := exists_forgiving code o
  exact ⟨D, h, fun D' h' => forgiving_unique code o h' h⟩

/-- **C190.** A text is at most one selector list. -/
theorem reads_unique (hD : Forgiving code o D) (ts : List Tok) (l l' : List Sel) (h : ReadsList code D o l ts) (h' : ReadsList code D o l' ts) : l = l' := by
  have := (parse_iff hD ts l).2 h
  rw [(parse_iff hD ts l').2 h'] at this
  simpa using this.symm

/-- The pieces ignored where CSS and the code agree, and those ignored by the code elsewhere. -/
noncomputable def mixed (o : Opts) (D : Drop) : Drop := fun cx inh rel p =>
  (cx.combs = true ∧ PlainL p ∧ rel = false ∧ D cx inh rel p) ∨
  (¬ (cx.combs = true ∧ PlainL p ∧ rel = false) ∧
    match rel with
    | false => okv (selector o .none (stOf cx inh false) (liftL o p)) = none
    | true => okv (relative o .none (stOf cx inh false) (liftL o p)) = none)

theorem mixed_agree : AgreePlain D (mixed o D) := by
  intro cx inh p hc hp
  simp [mixed, hc, hp]

theorem mixed_ok (hD : Forgiving css o D) : DropOK o (mixed o D) := by
  intro cx inh p b hp
  refine ⟨?_, ?_⟩
  · by_cases h : cx.combs = true ∧ PlainL p
    · rw [← mixed_agree cx inh p h.1 h.2, (hD cx inh p).1, okv_none_iff]
      refine forall_congr' fun s => not_congr ?_
      rw [cssPiece o D _ mixed_agree cx inh s p h.1 h.2, piece_iff cx inh b s hp]
    · rw [selector_flag cx inh b false hp]
      constructor
      · rintro (g | g)
        · exact absurd ⟨g.1, g.2.1⟩ h
        · exact g.2
      · exact fun g => .inr ⟨fun g' => h ⟨g'.1, g'.2.1⟩, g⟩
  · simp only [mixed]
    rw [okv_none_iff, okv_none_iff]
    simp only [relative_iff cx inh _ _ hp]
    simp

/-- **C191.** For a selector list without `|`, `&`, `::-ms-input-placeholder`, `:has()`, `:host()`, `::slotted()` and `of` in an argument, the
parser accepts exactly what CSS allows, with the value that CSS gives it. What is missing: see the theorems `…_wrong`. -/
theorem parse_css_partial (hD : Forgiving css o D) (ts : List Tok) (hp : ∀ t ∈ ts, Plain t) (l : List Sel) :
    parse o ts = some l ↔ ReadsList css D o l ts := by
  rw [parse_dropOK (mixed_ok hD) ts l]
  unfold ReadsList
  refine exists_congr fun ps => and_congr_right fun hps => ?_
  exact (cssP o D (mixed o D) mixed_agree l .top [] false ps rfl fun p hp' => piece_plain hps hp hp').symm

/-! ### Nested rules -/

theorem selector_implicit (st : St) (ts : List LTok) : selector o .implicit st ts =
    match selector o .none st ts with
    | .error b => .error b
    | .ok (s, b) => .ok (if b then s else .nesting :: .comb .descendant :: s, b) := by
  rw [selector_none]
  unfold selector
  simp only
  cases complex o (ts.length + 1) st ts with
  | error b => rfl
  | ok x => cases h : x.2.nesting <;> simp [h]

theorem readsPiece_skip (s : Sel) (p : List Tok) : ReadsPiece code D o .top [] none s p ↔ ReadsS code D o .top [] .no [] s (skipRaw p) := by
  constructor
  · rintro ⟨w, r, h1, h2, h3 | ⟨c, h, _⟩⟩
    · rw [(skipRaw_eq (reads_notWs r s h3)).2 ⟨w, h1, h2⟩]; exact h3
    · simp at h
  · intro h
    obtain ⟨w, h1, h2, _⟩ := skipRaw_spec p
    exact ⟨w, _, h1, h2, .inl h⟩

theorem toksAmp_append (a b : List Tok) : toksAmp (a ++ b) = (toksAmp a || toksAmp b) := by
  induction a with
  | nil => simp [toksAmp]
  | cons t a ih => simp [toksAmp, ih, Bool.or_assoc]

theorem toksAmp_ws {w : List Tok} (h : AllWs w) : toksAmp w = false := by
  induction w with
  | nil => rfl
  | cons t w ih => rw [toksAmp, ih fun x hx => h x (by simp [hx]), h t (by simp)]; rfl

theorem toksAmp_skip (p : List Tok) : toksAmp (skipRaw p) = toksAmp p := by
  obtain ⟨w, h1, h2, _⟩ := skipRaw_spec p
  conv => rhs; rw [h1]
  rw [toksAmp_append, toksAmp_ws h2, Bool.false_or]

theorem reads_nil {s : Sel} (h : ReadsS code D o .top [] .no [] s []) : False := by
  have := (selector_iff .top [] false s (ts := []) (by simp)).2 ⟨[], [], rfl, by simp [AllWs], h⟩
  have e : okv (selector o .none (stOf .top [] false) (liftL o [])) = none := by rw [liftL_nil]; rfl
  rw [e] at this
  simp at this

/-- One selector of a nested rule: what the parser gives is a nested selector; and if there is one, the parser gives one. -/
theorem nested_piece (hD : Forgiving code o D) (p : List Tok) :
    (∀ s, okv (relative o .implicit {} (liftL o p)) = some s → NestedSel code D o s p) ∧
    (∀ s, NestedSel code D o s p → ∃ s', okv (relative o .implicit {} (liftL o p)) = some s') := by
  have hK := toksOK (dropOK_of_forgiving hD)
  obtain ⟨w, hw1, hw2, hw3⟩ := skipRaw_spec p
  rw [relative_eq]
  cases hq : skipRaw p with
  | nil =>
    refine ⟨fun s h => by simp [okv] at h, fun s h => ?_⟩
    exfalso
    rcases h with ⟨w', r, h1, h2, h3⟩ | ⟨h, _⟩ | ⟨s', _, h, _⟩
    · rw [readsS_scope] at h3
      obtain ⟨k, ch, w2, r', s', _, _, rfl, _, _⟩ := h3
      have := skipRaw_eq_nil.1 hq (.delim ch) (by rw [h1]; simp)
      simp at this
    · rw [readsPiece_skip, hq] at h; exact reads_nil h
    · rw [readsPiece_skip, hq] at h; exact reads_nil h
  | cons t r =>
    simp only
    cases hc : combOf t with
    | some k =>
      simp only [if_true]
      have hch := (combOf_iff t k).1 hc
      obtain ⟨x, hx, rfl⟩ := hch
      have key : ∀ s', okv (selector o .none ({} : St) (liftL o r)) = some s' ↔ _ := fun s' => selector_iff .top [] false s' (hK r)
      refine ⟨fun s h => ?_, fun s h => ?_⟩
      · rw [okv_map _ (fun y => Comp.nesting :: .comb k :: y)] at h
        simp only [Option.map_eq_some_iff] at h
        obtain ⟨s', h1, rfl⟩ := h
        obtain ⟨w', r', rfl, h2, h3⟩ := (key s').1 h1
        refine .inl ⟨w, skipRaw p, hw1, hw2, ?_⟩
        rw [readsS_scope]
        exact ⟨k, x, w', r', s', rfl, hx, hq, h2, h3⟩
      · rw [okv_map _ (fun y => Comp.nesting :: .comb k :: y)]
        rcases h with ⟨w', r', h1, h2, h3⟩ | ⟨h, _⟩ | ⟨s', _, h, _⟩
        · rw [readsS_scope] at h3
          obtain ⟨k', ch, w2, r2, s', rfl, h4, rfl, h5, h6⟩ := h3
          have e : skipRaw p = .delim ch :: (w2 ++ r2) := (skipRaw_eq (by intro z hz; simp at hz)).2 ⟨w', h1, h2⟩
          rw [hq] at e
          simp at e
          rw [(key s').2 ⟨w2, r2, e.2, h5, h6⟩]
          exact ⟨_, rfl⟩
        · rw [readsPiece_skip, hq] at h
          have := reads_not_comb h
          rw [hc] at this; simp at this
        · rw [readsPiece_skip, hq] at h
          have := reads_not_comb h
          rw [hc] at this; simp at this
    | none =>
      simp only
      rw [selector_implicit, ← hq]
      have key : ∀ s', okv (selector o .none ({} : St) (liftL o (skipRaw p))) = some s' ↔ ReadsPiece code D o .top [] none s' p := fun s' => by
        rw [show ({} : St) = stOf .top [] false from rfl, piece_iff .top [] false s' (hK (skipRaw p)), readsPiece_skip, readsPiece_skip, skipRaw_of_notWs hw3]
      refine ⟨fun s h => ?_, fun s h => ?_⟩
      · cases hs : selector o .none ({} : St) (liftL o (skipRaw p)) with
        | error b => rw [hs] at h; simp [okv] at h
        | ok y =>
          obtain ⟨s', b⟩ := y
          have hr := (key s').1 (by rw [hs]; rfl)
          obtain ⟨g1, g2⟩ := selector_seen hs rfl
          rw [hs] at h
          simp only [okv, Option.some.injEq] at h
          cases b with
          | true =>
            simp at h
            subst h
            refine .inr (.inl ⟨hr, ?_⟩)
            rw [← toksAmp_skip]
            cases e : toksAmp (skipRaw p) with
            | true => rfl
            | false => simp [g2 e] 
          | false =>
            simp at h
            subst h
            refine .inr (.inr ⟨s', rfl, hr, ?_⟩)
            cases e : ampL s' with
            | false => rfl
            | true => simpa using g1 e
      · rcases h with ⟨w', r', h1, h2, h3⟩ | ⟨h, _⟩ | ⟨s', _, h, _⟩
        · exfalso
          rw [readsS_scope] at h3
          obtain ⟨k', ch, w2, r2, s', rfl, h4, rfl, h5, h6⟩ := h3
          have e : skipRaw p = .delim ch :: (w2 ++ r2) := (skipRaw_eq (by intro z hz; simp at hz)).2 ⟨w', h1, h2⟩
          rw [hq] at e
          simp at e
          have := (combOf_iff t k').2 ⟨ch, h4, e.1⟩
          rw [hc] at this; simp at this
        · obtain ⟨b, hb⟩ := okv_some.1 ((key s).2 h)
          rw [hb]; exact ⟨_, rfl⟩
        · obtain ⟨b, hb⟩ := okv_some.1 ((key s').2 h)
          rw [hb]; exact ⟨_, rfl⟩

theorem listLoop_ok {P : List LTok → Out (Sel × Bool)} (xs : List (List LTok)) : ∀ b l, okv (listLoop false P xs b) = some l ↔
    List.Forall₂ (fun s x => okv (P x) = some s) l xs := by
  induction xs with
  | nil => intro b l; simp [listLoop, okv]
  | cons x xs ih =>
    intro b l
    rw [listLoop]
    cases hx : P x with
    | error b' =>
      simp only [Bool.false_eq_true, if_false, okv]
      constructor
      · intro h; simp at h
      · intro h
        cases h with
        | cons h _ => rw [hx] at h; simp at h
    | ok y =>
      simp only
      rw [okv_map _ (fun l => y.1 :: l)]
      constructor
      · intro h
        simp only [Option.map_eq_some_iff] at h
        obtain ⟨l', h1, rfl⟩ := h
        exact .cons (by rw [hx]; rfl) ((ih _ _).1 h1)
      · intro h
        cases h with
        | cons h1 h2 =>
          rw [hx] at h1
          simp [okv] at h1
          subst h1
          rw [(ih _ _).2 h2]
          rfl

theorem parseNested_iff_loop (ts : List Tok) (l : List Sel) : parseNested o ts = some l ↔
    List.Forall₂ (fun s p => okv (relative o .implicit {} (liftL o p)) = some s) l (splitRaw ts) := by
  have : parseNested o ts = okv (relativeList o false .implicit {} (liftL o ts)) := by
    unfold parseNested
    cases relativeList o false .implicit {} (liftL o ts) <;> rfl
  rw [this]
  unfold relativeList
  rw [split_liftL, listLoop_ok, List.forall₂_map_right_iff]

/-- **C192.** The selectors of a nested rule: each is a nested selector (relative to `&`, or with `&` in it, or with `& ` put before it). -/
theorem parseNested_sound_partial (hD : Forgiving code o D) (ts : List Tok) (l : List Sel) (h : parseNested o ts = some l) :
    ∃ ps, Pieces ps ts ∧ List.Forall₂ (NestedSel code D o) l ps := by
  rw [parseNested_iff_loop] at h
  exact ⟨_, (pieces_iff _ _).2 rfl, h.imp fun s p => (nested_piece hD p).1 s⟩

/-- **C192.** A nested rule is accepted exactly when each of its selectors can be read. -/
theorem parseNested_accepts (hD : Forgiving code o D) (ts : List Tok) :
    (parseNested o ts).isSome = true ↔ ∃ ps, Pieces ps ts ∧ ∀ p ∈ ps, ∃ s, NestedSel code D o s p := by
  constructor
  · intro h
    obtain ⟨l, hl⟩ := Option.isSome_iff_exists.1 h
    obtain ⟨ps, h1, h2⟩ := parseNested_sound_partial hD ts l hl
    refine ⟨ps, h1, fun p hp => ?_⟩
    clear h1 hl h
    induction h2 with
    | nil => simp at hp
    | cons h _ ih =>
      simp at hp
      rcases hp with rfl | hp
      · exact ⟨_, h⟩
      · exact ih hp
  · rintro ⟨ps, h1, h2⟩
    rw [pieces_iff] at h1
    subst h1
    have : ∀ xs : List (List Tok), (∀ p ∈ xs, ∃ s, NestedSel code D o s p) →
        ∃ l, List.Forall₂ (fun s p => okv (relative o .implicit {} (liftL o p)) = some s) l xs := by
      intro xs
      induction xs with
      | nil => exact fun _ => ⟨[], .nil⟩
      | cons p xs ih =>
        intro h
        obtain ⟨s, hs⟩ := h p (by simp)
        obtain ⟨s', hs'⟩ := (nested_piece hD p).2 s hs
        obtain ⟨l, hl⟩ := ih fun q hq => h q (by simp [hq])
        exact ⟨s' :: l, .cons hs' hl⟩
    obtain ⟨l, hl⟩ := this _ h2
    rw [(parseNested_iff_loop ts l).2 hl]
    rfl

/-! ### Forgiving lists -/

/-- What a forgiving list keeps of its pieces: the selectors, in their order; nothing of what is not a selector. -/
inductive Kept (d : Dialect) (D : Drop) (v : Opts) (cx : Cx) : List Sel → List (List Tok) → Prop
  | nil : Kept d D v cx [] []
  | keep {s : Sel} {l : List Sel} {p : List Tok} {ps : List (List Tok)} : ReadsPiece d D v cx [] none s p → Kept d D v cx l ps → Kept d D v cx (s :: l) (p :: ps)
  | skip {l : List Sel} {p : List Tok} {ps : List (List Tok)} : (∀ s, ¬ ReadsPiece d D v cx [] none s p) → Kept d D v cx l ps → Kept d D v cx l (p :: ps)

theorem kept_exists (d : Dialect) (v : Opts) (cx : Cx) (ps : List (List Tok)) : ∃ l, Kept d D v cx l ps := by
  induction ps with
  | nil => exact ⟨[], .nil⟩
  | cons p ps ih =>
    obtain ⟨l, hl⟩ := ih
    by_cases h : ∃ s, ReadsPiece d D v cx [] none s p
    · obtain ⟨s, hs⟩ := h; exact ⟨s :: l, .keep hs hl⟩
    · exact ⟨l, .skip (fun s hs => h ⟨s, hs⟩) hl⟩

theorem kept_reads {d : Dialect} {v : Opts} (hD : Forgiving d v D) {cx : Cx} {l : List Sel} {ps : List (List Tok)} (h : Kept d D v cx l ps) :
    ReadsP d D v cx [] true none l ps := by
  induction h with
  | nil => simp [ReadsP]
  | keep h1 _ ih =>
    obtain ⟨w, r, e, hw, h⟩ := h1
    simp only [ReadsP]
    exact ⟨[], w, r, _, by rw [e]; rfl, by simp, hw, h, ih⟩
  | skip h1 _ ih =>
    have hd := (hD cx [] _).1.2 h1
    rename_i l p ps h2
    cases l with
    | nil =>
      simp only [ReadsP] at ih ⊢
      intro q hq
      simp at hq
      rcases hq with rfl | hq
      · exact ⟨by simp, hd⟩
      · exact ih q hq
    | cons s l =>
      simp only [ReadsP] at ih ⊢
      obtain ⟨e, w, r, q, h3, h4, h5⟩ := ih
      refine ⟨p :: e, w, r, q, by rw [h3]; rfl, ?_, h5⟩
      intro x hx
      simp at hx
      rcases hx with rfl | hx
      · exact ⟨by simp, hd⟩
      · exact h4 x hx

/-- **C193.** `:is()`, `:where()`, `:-webkit-any()` and `:-moz-any()` never make a selector invalid: whatever the argument is, it is accepted, with
those of its pieces that are selectors, in their order. -/
theorem forgiving_kept (hD : Forgiving code o D) (f : Logical) (hf : f ≠ .not) (w : Str) (hw : lower w = f.name) (args : List Tok) :
    ∃ l ps, parse o [.colon, .func w args] = some [[.logical f l]] ∧ Pieces ps args ∧ Kept code D o ⟨false, true, false⟩ l ps := by
  obtain ⟨l, hl⟩ := kept_exists (D := D) code o ⟨false, true, false⟩ (splitRaw args)
  refine ⟨l, splitRaw args, ?_, (pieces_iff _ _).2 rfl, hl⟩
  rw [parse_iff hD]
  have ws : AllWs [] := by simp [AllWs]
  refine ⟨[[.colon, .func w args]], ⟨by simp, by simp, by simp [List.intercalate]⟩, ?_⟩
  simp only [ReadsP]
  refine ⟨[], [], _, [], rfl, by simp, ws, .inl ?_, by simp⟩
  simp only [ReadsS]
  refine ⟨_, [], (List.append_nil _).symm, trivial, ?_, .inl ⟨ws, _, _, rfl, rfl⟩⟩
  simp only [ReadsC]
  refine ⟨w, args, _, rfl, hw, (pieces_iff _ _).2 rfl, ?_⟩
  have : (f != .not) = true := by simpa using hf
  rw [this]
  exact kept_reads hD hl

/-- The argument `a, 1, > b, c d`. -/
example : parse ⟨fun _ _ => true, fun _ _ => true⟩ [.colon, .func cs!"WHERE" [.ident cs!"a", .comma, .other 1, .comma, .delim '>', .ident cs!"b", .comma,
    .ident cs!"c", .ws, .ident cs!"d"]] =
    some [[.logical .where [[.type .implicit (some cs!"a")], [.type .implicit (some cs!"c"), .comb .descendant, .type .implicit (some cs!"d")]]]] := rfl

/-! ### Examples -/

/-- All arguments are valid. -/
def anyArgs : Opts := ⟨fun _ _ => true, fun _ _ => true⟩

/-- `a.b:is(#c, 1) > |d:nth-child(2n + 1)::before, [x="y" i]`: the piece `1` is ignored. -/
def exampleToks : List Tok :=
  [.ident cs!"a", .delim '.', .ident cs!"b", .colon, .func cs!"is" [.idHash cs!"c", .comma, .ws, .other 1], .ws, .delim '>', .ws, .delim '|',
   .ident cs!"d", .colon, .func cs!"NTH-child" [.anb 2 1], .colon, .colon, .ident cs!"before", .comma, .ws,
   .bracket [.ident cs!"x", .delim '=', .str cs!"y", .ws, .ident cs!"I"]]

example : parse anyArgs exampleToks = some
    [[.type .implicit (some cs!"a"), .cls cs!"b", .logical .is [[.id cs!"c"]], .comb .child, .type .empty (some cs!"d"), .nth .child 2 1, .pelem cs!"before"],
     [.attr ⟨.none, cs!"x", some (.equal, cs!"y", .i)⟩]] := rfl
example : ∃ D, ReadsList code D anyArgs
    [[.type .implicit (some cs!"a"), .cls cs!"b", .logical .is [[.id cs!"c"]], .comb .child, .type .empty (some cs!"d"), .nth .child 2 1, .pelem cs!"before"],
     [.attr ⟨.none, cs!"x", some (.equal, cs!"y", .i)⟩]] exampleToks := by
  obtain ⟨D, hD⟩ := exists_forgiving code anyArgs
  exact ⟨D, (parse_iff hD _ _).1 rfl⟩
/-- `a.b:is(#c, 1) > d:nth-child(2n + 1)::before` is plain. -/
example : ∀ t ∈ [Tok.ident cs!"a", .delim '.', .ident cs!"b", .colon, .func cs!"is" [.idHash cs!"c", .comma, .ws, .other 1], .ws, .delim '>', .ws,
    .ident cs!"d", .colon, .func cs!"NTH-child" [.anb 2 1], .colon, .colon, .ident cs!"before"], Plain t := by
  intro t ht
  simp only [List.mem_cons, List.not_mem_nil, or_false] at ht
  rcases ht with rfl | rfl | rfl | rfl | rfl | rfl | rfl | rfl | rfl | rfl | rfl | rfl | rfl | rfl <;> simp [Plain, PlainArgs] <;> decide
/-- `a > > b`, `a b |`, `a::before b`, `::before::after`, `:not(a, 1)`, `a,` and `.5` are no selectors. -/
example : parse anyArgs [.ident cs!"a", .ws, .delim '>', .ws, .delim '>', .ws, .ident cs!"b"] = none ∧
    parse anyArgs [.ident cs!"a", .ws, .ident cs!"b", .ws, .delim '|'] = none ∧
    parse anyArgs [.ident cs!"a", .colon, .colon, .ident cs!"before", .ws, .ident cs!"b"] = none ∧
    parse anyArgs [.colon, .colon, .ident cs!"before", .colon, .colon, .ident cs!"after"] = none ∧
    parse anyArgs [.colon, .func cs!"not" [.ident cs!"a", .comma, .other 1]] = none ∧
    parse anyArgs [.ident cs!"a", .comma] = none ∧ parse anyArgs [.other 0] = none := ⟨rfl, rfl, rfl, rfl, rfl, rfl, rfl⟩

/-- `> a, b, c &` in a rule. -/
example : parseNested anyArgs [.delim '>', .ws, .ident cs!"a", .comma, .ident cs!"b", .comma, .ident cs!"c", .ws, .delim '&'] = some
    [[.nesting, .comb .child, .type .implicit (some cs!"a")], [.nesting, .comb .descendant, .type .implicit (some cs!"b")],
     [.type .implicit (some cs!"c"), .comb .descendant, .nesting]] := rfl

/-! ### Where the code differs from CSS -/

/-- `::before` in `:has()` is accepted. -/
theorem has_elem_wrong : parse anyArgs [.colon, .func cs!"has" [.colon, .colon, .ident cs!"before"]] = some [[.has [[.pelem cs!"before"]]]] ∧
    ∀ D, ¬ ReadsC css D anyArgs .top [] (.has [[.pelem cs!"before"]]) [.colon, .func cs!"has" [.colon, .colon, .ident cs!"before"]] := by
  refine ⟨rfl, fun D h => ?_⟩
  simp only [ReadsC, ReadsP, css] at h
  obtain ⟨w, args, ps, e, h1, h2, e', w', r, q, _, _, _, h3, _⟩ := h
  rcases h3 with h3 | ⟨c, _, h3⟩
  · simp only [ReadsS] at h3
    obtain ⟨a, b, _, h4, _⟩ := h3
    simp [Allowed, Cx.has, Cx.top] at h4
  · simp only [ReadsS] at h3
    obtain ⟨rfl, h4⟩ := h3
    simp at *

/-- `:has(:has(a))` is accepted. -/
theorem has_has_wrong : parse anyArgs [.colon, .func cs!"has" [.colon, .func cs!"has" [.ident cs!"a"]]] = some [[.has [[.has [[.type .implicit (some cs!"a")]]]]]] ∧
    ∀ before pre l, ¬ Allowed css (Cx.top.has css) before pre (.has l) := by
  refine ⟨rfl, fun before pre l h => ?_⟩
  simp [Allowed, css, Cx.has, Cx.top] at h

/-- An invalid selector in `:has()` or `:nth-child(An+B of …)` is ignored; with CSS the list is invalid. -/
theorem forgiving_wrong : parse anyArgs [.colon, .func cs!"has" [.ident cs!"a", .comma, .other 1]] = some [[.has [[.type .implicit (some cs!"a")]]]] ∧
    parse anyArgs [.colon, .func cs!"nth-child" [.anb 0 1, .ws, .ident cs!"of", .ws, .ident cs!"a", .comma, .other 1]] =
      some [[.nthOf .child 0 1 [[.type .implicit (some cs!"a")]]]] ∧ css.hasForgiving = false ∧ css.nthForgiving = false := ⟨rfl, rfl, rfl, rfl⟩

/-- `::slotted(:not(a > b))` is a selector in CSS but rejected. -/
theorem slotted_wrong : parse anyArgs [.colon, .colon, .func cs!"slotted" [.colon, .func cs!"not" [.ident cs!"a", .delim '>', .ident cs!"b"]]] = none ∧
    ∀ D, ReadsList css D anyArgs [[.slotted [.logical .not [[.type .implicit (some cs!"a"), .comb .child, .type .implicit (some cs!"b")]]]]]
      [.colon, .colon, .func cs!"slotted" [.colon, .func cs!"not" [.ident cs!"a", .delim '>', .ident cs!"b"]]] := by
  refine ⟨rfl, fun D => ?_⟩
  have np : NoPseudo [] := ⟨by simp [NoElem], by simp [NoSlotted], by simp⟩
  have np2 : NoPseudo [.type .implicit (some cs!"a")] := ⟨by simp [NoElem, Comp.isElem], by simp [NoSlotted, Comp.isSlotted], by simp [Comp.isPart]⟩
  have np3 : NoPseudo [.comb .child, .type .implicit (some cs!"a")] :=
    ⟨by simp [NoElem, Comp.isElem], by simp [NoSlotted, Comp.isSlotted], by simp [Comp.isPart]⟩
  have ws : AllWs [] := by simp [AllWs]
  have inner : ReadsS css D anyArgs ⟨false, true, false⟩ [] .no [] [.type .implicit (some cs!"a"), .comb .child, .type .implicit (some cs!"b")]
      [.ident cs!"a", .delim '>', .ident cs!"b"] := by
    simp only [ReadsS]
    refine ⟨[.ident cs!"a"], _, rfl, ⟨np, trivial⟩, by simp [ReadsC, Ns.toks, nameTok], [.delim '>'], _, rfl,
      ⟨rfl, np2, _, _, rfl, rfl⟩, ?_, [.ident cs!"b"], [], rfl, ⟨np3, trivial⟩, by simp [ReadsC, Ns.toks, nameTok], .inl ⟨ws, _, _, rfl, rfl⟩⟩
    simp only [ReadsC, Comb.Written, Comb.char]
    exact ⟨[], [], rfl, ws, ws⟩
  have piece : ∀ ts : List Tok, Tok.comma ∉ ts → Pieces [ts] ts := fun ts h => ⟨by simp, by simpa using h, by simp [List.intercalate]⟩
  have isNot : ReadsS css D anyArgs ⟨false, false, false⟩ [] .no [] [.logical .not [[.type .implicit (some cs!"a"), .comb .child, .type .implicit (some cs!"b")]]]
      [.colon, .func cs!"not" [.ident cs!"a", .delim '>', .ident cs!"b"]] := by
    simp only [ReadsS]
    refine ⟨_, [], (List.append_nil _).symm, trivial, ?_, .inl ⟨ws, _, _, rfl, rfl⟩⟩
    simp only [ReadsC]
    refine ⟨cs!"not", _, [_], rfl, rfl, piece _ (by simp), ?_⟩
    simp only [ReadsP]
    exact ⟨[], [], _, [], rfl, by simp, ws, .inl inner, by simp⟩
  refine ⟨[_], piece _ (by simp), ?_⟩
  simp only [ReadsP]
  refine ⟨[], [], _, [], rfl, by simp, ws, .inl ?_, by simp⟩
  simp only [ReadsS]
  refine ⟨_, [], (List.append_nil _).symm, ⟨rfl, np⟩, ?_, .inl ⟨ws, _, _, rfl, rfl⟩⟩
  simp only [ReadsC]
  exact ⟨cs!"slotted", [], _, rfl, rfl, ws, isNot⟩

/-- `:host(:is(a > b))` is read as `:host(:is())`, which matches nothing. -/
theorem host_wrong : parse anyArgs [.colon, .func cs!"host" [.colon, .func cs!"is" [.ident cs!"a", .delim '>', .ident cs!"b"]]] = some [[.hostFn [.logical .is []]]] := rfl

/-- `&a|` is read as `&`; CSS has no selector that ends with `|`. -/
theorem cut_wrong : parse anyArgs [.delim '&', .ident cs!"a", .delim '|'] = some [[.nesting]] ∧
    ∀ D, ¬ ReadsList css D anyArgs [[.nesting]] [.delim '&', .ident cs!"a", .delim '|'] := by
  refine ⟨rfl, fun D h => ?_⟩
  obtain ⟨ps, hps, h⟩ := h
  rw [pieces_iff] at hps
  simp [splitRaw] at hps
  subst hps
  simp only [ReadsP] at h
  obtain ⟨e, w, r, q, h1, h2, h3, h4, h5⟩ := h
  have he : e = [] := by
    cases e with
    | nil => rfl
    | cons x e => exact absurd (h2 x (by simp)).1 (by simp)
  subst he
  simp at h1
  rcases h4 with h4 | ⟨c, hc, _⟩
  · simp only [ReadsS, ReadsC] at h4
    obtain ⟨a, b, rfl, _, rfl, h6 | h6⟩ := h4
    · have : Tok.delim '|' ∈ b := by
        cases w with
        | nil => simp at h1; rw [← h1.1]; simp
        | cons x w =>
          have := h3 x (by simp)
          subst this
          simp at h1
      have := h6.1 _ this
      simp at this
    · simp [css] at h6
  · simp at hc

/-- `::-ms-input-placeholder` is stored as `::-moz-placeholder`. -/
theorem ms_wrong : parse anyArgs [.colon, .colon, .ident cs!"-ms-input-placeholder"] = some [[.pelem cs!"-moz-placeholder"]] := rfl

/-- `::before&` and `::before:has(:hover)` are accepted. -/
theorem after_wrong : parse anyArgs [.colon, .colon, .ident cs!"before", .delim '&'] = some [[.pelem cs!"before", .nesting]] ∧
    parse anyArgs [.colon, .colon, .ident cs!"before", .colon, .func cs!"has" [.colon, .ident cs!"hover"]] =
      some [[.pelem cs!"before", .has [[.pclass cs!"hover"]]]] ∧
    ¬ Allowed css .top [.pelem cs!"before"] [.pelem cs!"before"] .nesting ∧ ∀ l, ¬ Allowed css .top [.pelem cs!"before"] [.pelem cs!"before"] (.has l) := by
  have : ¬ NoPseudo [.pelem cs!"before"] := by
    intro h
    have := h.1 (.pelem cs!"before") (by simp)
    revert this; decide
  exact ⟨rfl, rfl, by simp [Allowed, css, this], fun l => by simp [Allowed, css, this]⟩

/-- `&` in `:nth-child(1 of &)` is not noticed: `& ` is put before the selector. -/
theorem nested_of_wrong : parseNested anyArgs [.colon, .func cs!"nth-child" [.anb 0 1, .ws, .ident cs!"of", .ws, .delim '&']] =
    some [[.nesting, .comb .descendant, .nthOf .child 0 1 [[.nesting]]]] := rfl

end Verif.SelParse
