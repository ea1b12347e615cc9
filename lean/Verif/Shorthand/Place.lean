import Verif.Shorthand.Lemmas
/-!
`place-content`, `place-self`, `place-items` (src/properties/align.rs): printing and reading.
-/
namespace Verif.Shorthand

theorem AlignContent.back (a : AlignContent) (r) : AlignContent.parse (a.print ++ r) = some (a, r) := by
  rcases a with _ | b | d | ⟨o, v⟩
  · rfl
  · cases b <;> rfl
  · cases d <;> rfl
  · rcases o with _ | o
    · cases v <;> rfl
    · cases o <;> cases v <;> rfl

theorem JustifyContent.back (a : JustifyContent) (r) : JustifyContent.parse (a.print ++ r) = some (a, r) := by
  rcases a with _ | d | ⟨o, v⟩ | o | o
  · rfl
  · cases d <;> rfl
  · rcases o with _ | o
    · cases v <;> rfl
    · cases o <;> cases v <;> rfl
  · rcases o with _ | o
    · rfl
    · cases o <;> rfl
  · rcases o with _ | o
    · rfl
    · cases o <;> rfl

theorem JustifyContent.back_ws (a : JustifyContent) (r) : JustifyContent.parse (.ws :: (a.print ++ r)) = some (a, r) := by
  rcases a with _ | d | ⟨o, v⟩ | o | o
  · rfl
  · cases d <;> rfl
  · rcases o with _ | o
    · cases v <;> rfl
    · cases o <;> cases v <;> rfl
  · rcases o with _ | o
    · rfl
    · cases o <;> rfl
  · rcases o with _ | o
    · rfl
    · cases o <;> rfl

theorem JustifyContent.ends {r} (h : Ends r) : JustifyContent.parse r = none := by
  rcases h with rfl | ⟨l, rfl | rfl⟩ <;> rfl

theorem AlignSelf.back (a : AlignSelf) (r) : AlignSelf.parse (a.print ++ r) = some (a, r) := by
  rcases a with _ | _ | _ | b | ⟨o, v⟩
  · rfl
  · rfl
  · rfl
  · cases b <;> rfl
  · rcases o with _ | o
    · cases v <;> rfl
    · cases o <;> cases v <;> rfl

theorem JustifySelf.back (a : JustifySelf) (r) : JustifySelf.parse (a.print ++ r) = some (a, r) := by
  rcases a with _ | _ | _ | b | ⟨o, v⟩ | o | o
  · rfl
  · rfl
  · rfl
  · cases b <;> rfl
  · rcases o with _ | o
    · cases v <;> rfl
    · cases o <;> cases v <;> rfl
  · rcases o with _ | o
    · rfl
    · cases o <;> rfl
  · rcases o with _ | o
    · rfl
    · cases o <;> rfl

theorem JustifySelf.back_ws (a : JustifySelf) (r) : JustifySelf.parse (.ws :: (a.print ++ r)) = some (a, r) := by
  rcases a with _ | _ | _ | b | ⟨o, v⟩ | o | o
  · rfl
  · rfl
  · rfl
  · cases b <;> rfl
  · rcases o with _ | o
    · cases v <;> rfl
    · cases o <;> cases v <;> rfl
  · rcases o with _ | o
    · rfl
    · cases o <;> rfl
  · rcases o with _ | o
    · rfl
    · cases o <;> rfl

theorem JustifySelf.ends {r} (h : Ends r) : JustifySelf.parse r = none := by
  rcases h with rfl | ⟨l, rfl | rfl⟩ <;> rfl

theorem AlignItems.back (a : AlignItems) (r) : AlignItems.parse (a.print ++ r) = some (a, r) := by
  rcases a with _ | _ | b | ⟨o, v⟩
  · rfl
  · rfl
  · cases b <;> rfl
  · rcases o with _ | o
    · cases v <;> rfl
    · cases o <;> cases v <;> rfl

/-- `center`, `left`, `right` and then anything but `legacy`. -/
theorem JustifyItems.back (a : JustifyItems) (r) (h : expectIdent cs!"legacy" r = none) :
    JustifyItems.parse (a.print ++ r) = some (a, r) := by
  rcases a with _ | _ | b | ⟨o, v⟩ | o | o | s
  · rfl
  · rfl
  · cases b <;> rfl
  · rcases o with _ | o
    · cases v
      case center =>
        have e : LegacySide.parse (.ident cs!"center" :: r) = none := by
          show (expectIdent cs!"legacy" r).map _ = none
          rw [h]; rfl
        show (match LegacySide.parse (.ident cs!"center" :: r) with
          | some (s, i) => some (JustifyItems.legacy s, i) | none => _) = _
        rw [e]; rfl
      all_goals rfl
    · cases o <;> cases v <;> rfl
  · rcases o with _ | o
    · have e : LegacySide.parse (.ident cs!"left" :: r) = none := by
        show (expectIdent cs!"legacy" r).map _ = none
        rw [h]; rfl
      show (match LegacySide.parse (.ident cs!"left" :: r) with
        | some (s, i) => some (JustifyItems.legacy s, i) | none => _) = _
      rw [e]; rfl
    · cases o <;> rfl
  · rcases o with _ | o
    · have e : LegacySide.parse (.ident cs!"right" :: r) = none := by
        show (expectIdent cs!"legacy" r).map _ = none
        rw [h]; rfl
      show (match LegacySide.parse (.ident cs!"right" :: r) with
        | some (s, i) => some (JustifyItems.legacy s, i) | none => _) = _
      rw [e]; rfl
    · cases o <;> rfl
  · cases s <;> rfl

theorem JustifyItems.back_ws (a : JustifyItems) (r) (h : expectIdent cs!"legacy" r = none) :
    JustifyItems.parse (.ws :: (a.print ++ r)) = some (a, r) := by
  rcases a with _ | _ | b | ⟨o, v⟩ | o | o | s
  · rfl
  · rfl
  · cases b <;> rfl
  · rcases o with _ | o
    · cases v
      case center =>
        have e : LegacySide.parse (.ws :: .ident cs!"center" :: r) = none := by
          show (expectIdent cs!"legacy" r).map _ = none
          rw [h]; rfl
        show (match LegacySide.parse (.ws :: .ident cs!"center" :: r) with
          | some (s, i) => some (JustifyItems.legacy s, i) | none => _) = _
        rw [e]; rfl
      all_goals rfl
    · cases o <;> cases v <;> rfl
  · rcases o with _ | o
    · have e : LegacySide.parse (.ws :: .ident cs!"left" :: r) = none := by
        show (expectIdent cs!"legacy" r).map _ = none
        rw [h]; rfl
      show (match LegacySide.parse (.ws :: .ident cs!"left" :: r) with
        | some (s, i) => some (JustifyItems.legacy s, i) | none => _) = _
      rw [e]; rfl
    · cases o <;> rfl
  · rcases o with _ | o
    · have e : LegacySide.parse (.ws :: .ident cs!"right" :: r) = none := by
        show (expectIdent cs!"legacy" r).map _ = none
        rw [h]; rfl
      show (match LegacySide.parse (.ws :: .ident cs!"right" :: r) with
        | some (s, i) => some (JustifyItems.legacy s, i) | none => _) = _
      rw [e]; rfl
    · cases o <;> rfl
  · cases s <;> rfl

theorem JustifyItems.ends {r} (h : Ends r) : JustifyItems.parse r = none := by
  rcases h with rfl | ⟨l, rfl | rfl⟩ <;> rfl

theorem AlignContent.sep (a : AlignContent) : Separated a.print := by
  rcases a with _ | b | d | ⟨o, v⟩
  · trivial
  · cases b <;> simp [print, Baseline.print, Separated, Sticks]
  · trivial
  · rcases o with _ | o
    · trivial
    · simp [print, printOverflow, Kw.print, Separated, Sticks]

theorem JustifyContent.sep (a : JustifyContent) : Separated a.print := by
  rcases a with _ | d | ⟨o, v⟩ | o | o
  · trivial
  · trivial
  all_goals rcases o with _ | o
  all_goals simp [print, printOverflow, Kw.print, Separated, Sticks]

theorem AlignSelf.sep (a : AlignSelf) : Separated a.print := by
  rcases a with _ | _ | _ | b | ⟨o, v⟩
  iterate 3 trivial
  · cases b <;> simp [print, Baseline.print, Separated, Sticks]
  · rcases o with _ | o
    · trivial
    · simp [print, printOverflow, Kw.print, Separated, Sticks]

theorem JustifySelf.sep (a : JustifySelf) : Separated a.print := by
  rcases a with _ | _ | _ | b | ⟨o, v⟩ | o | o
  iterate 3 trivial
  · cases b <;> simp [print, Baseline.print, Separated, Sticks]
  all_goals rcases o with _ | o
  all_goals simp [print, printOverflow, Kw.print, Separated, Sticks]

theorem AlignItems.sep (a : AlignItems) : Separated a.print := by
  rcases a with _ | _ | b | ⟨o, v⟩
  iterate 2 trivial
  · cases b <;> simp [print, Baseline.print, Separated, Sticks]
  · rcases o with _ | o
    · trivial
    · simp [print, printOverflow, Kw.print, Separated, Sticks]

theorem JustifyItems.sep (a : JustifyItems) : Separated a.print := by
  rcases a with _ | _ | b | ⟨o, v⟩ | o | o | s
  iterate 2 trivial
  · cases b <;> simp [print, Baseline.print, Separated, Sticks]
  iterate 3
    · rcases o with _ | o
      all_goals simp [print, printOverflow, Kw.print, Separated, Sticks]
  · simp [print, LegacySide.print, Separated, Sticks]

/-- **C63, `place-content`**: every value is printed as text that reads back as the same value. -/
theorem C63_place_content (p : PlaceContent) (r : List Tok) (hr : Ends r) :
    PlaceContent.parse (p.print ++ r) = some (p, r) ∧ Separated p.print := by
  obtain ⟨a, j⟩ := p
  simp only [PlaceContent.print, PlaceContent.parse, List.append_assoc, AlignContent.back]
  by_cases e : PlaceContent.isEqual ⟨a, j⟩ = true
  · refine ⟨?_, ?_⟩
    · simp only [e, Bool.not_true, Bool.false_eq_true, if_false, List.nil_append, JustifyContent.ends hr]
      cases j <;> cases a <;> simp_all [PlaceContent.isEqual]
    · simp only [e, Bool.not_true, Bool.false_eq_true, if_false, List.append_nil]; exact a.sep
  · simp only [Bool.not_eq_true] at e
    refine ⟨?_, ?_⟩
    · simp only [e, Bool.not_false, if_true, List.cons_append]
      rw [JustifyContent.back_ws]
    · simp only [e, Bool.not_false, if_true]; exact sep_append_ws a.sep j.sep

/-- A value whose parts differ, and one whose parts are the same. -/
example : PlaceContent.parse ((PlaceContent.mk (.position (some .safe) .center) (.left none)).print) =
      some (⟨.position (some .safe) .center, .left none⟩, []) ∧
    (PlaceContent.mk (.position (some .safe) .center) (.position (some .safe) .center)).print =
      [.ident cs!"safe", .ws, .ident cs!"center"] :=
  ⟨by decide, by decide⟩

/-- **C64, `place-self`** (part): a value is printed as text that reads back as the same value, unless
`justify-self` is `auto` and `align-self` is not, or the value is `normal stretch`. Missing: those values,
which lose their second part (`C64_place_self_auto`, `C64_place_self_stretch`). -/
theorem C64_place_self_partial (p : PlaceSelf) (r : List Tok) (hr : Ends r)
    (h1 : p.justify = .auto → p.align = .auto) (h2 : p ≠ ⟨.normal, .stretch⟩) :
    PlaceSelf.parse (p.print ++ r) = some (p, r) ∧ Separated p.print := by
  obtain ⟨a, j⟩ := p
  simp only [PlaceSelf.print, PlaceSelf.parse, List.append_assoc, AlignSelf.back]
  by_cases e : PlaceSelf.isEqual ⟨a, j⟩ = true
  · refine ⟨?_, ?_⟩
    · simp only [e, Bool.not_true, Bool.false_eq_true, if_false, List.nil_append, JustifySelf.ends hr]
      cases j <;> simp_all [PlaceSelf.isEqual]
    · simp only [e, Bool.not_true, Bool.false_eq_true, if_false, List.append_nil]; exact a.sep
  · simp only [Bool.not_eq_true] at e
    refine ⟨?_, ?_⟩
    · simp only [e, Bool.not_false, if_true, List.cons_append]
      rw [JustifySelf.back_ws]
    · simp only [e, Bool.not_false, if_true]; exact sep_append_ws a.sep j.sep

/-- A value with two different parts that meets the hypotheses. -/
example : let p : PlaceSelf := ⟨.stretch, .left (some .unsafe)⟩
    (p.justify = .auto → p.align = .auto) ∧ p ≠ ⟨.normal, .stretch⟩ ∧
    PlaceSelf.parse p.print = some (p, []) := by decide

/-- `place-self: center auto` is printed as `place-self: center`, which reads as `center center`. -/
theorem C64_place_self_auto :
    PlaceSelf.parse [.ident cs!"center", .ws, .ident cs!"auto"] = some (⟨.position none .center, .auto⟩, []) ∧
    (PlaceSelf.mk (.position none .center) .auto).print = [.ident cs!"center"] ∧
    PlaceSelf.parse [.ident cs!"center"] = some (⟨.position none .center, .position none .center⟩, []) := by
  decide

/-- `place-self: normal stretch` is printed as `place-self: normal`, which reads as `normal normal`. -/
theorem C64_place_self_stretch :
    PlaceSelf.parse [.ident cs!"normal", .ws, .ident cs!"stretch"] = some (⟨.normal, .stretch⟩, []) ∧
    (PlaceSelf.mk .normal .stretch).print = [.ident cs!"normal"] ∧
    PlaceSelf.parse [.ident cs!"normal"] = some (⟨.normal, .normal⟩, []) := by
  decide

/-- **C64, `place-items`** (part): a value is printed as text that reads back as the same value, unless
it is `normal stretch`. Missing: that value, which loses its second part (`C64_place_items_stretch`). -/
theorem C64_place_items_partial (p : PlaceItems) (r : List Tok) (hr : Ends r)
    (h2 : p ≠ ⟨.normal, .stretch⟩) :
    PlaceItems.parse (p.print ++ r) = some (p, r) ∧ Separated p.print := by
  obtain ⟨a, j⟩ := p
  simp only [PlaceItems.print, PlaceItems.parse, List.append_assoc, AlignItems.back]
  by_cases e : PlaceItems.isEqual ⟨a, j⟩ = true
  · refine ⟨?_, ?_⟩
    · simp only [e, Bool.not_true, Bool.false_eq_true, if_false, List.nil_append, JustifyItems.ends hr]
      cases j <;> simp_all [PlaceItems.isEqual]
    · simp only [e, Bool.not_true, Bool.false_eq_true, if_false, List.append_nil]; exact a.sep
  · simp only [Bool.not_eq_true] at e
    refine ⟨?_, ?_⟩
    · simp only [e, Bool.not_false, if_true, List.cons_append]
      rw [JustifyItems.back_ws _ _ (expectIdent_ends hr)]
    · simp only [e, Bool.not_false, if_true]; exact sep_append_ws a.sep j.sep

/-- A value with two different parts that meets the hypotheses. -/
example : let p : PlaceItems := ⟨.stretch, .legacy .center⟩
    p ≠ ⟨.normal, .stretch⟩ ∧ PlaceItems.parse p.print = some (p, []) ∧
    p.print = [.ident cs!"stretch", .ws, .ident cs!"legacy", .ws, .ident cs!"center"] := by decide

/-- `place-items: normal stretch` is printed as `place-items: normal`, which reads as `normal normal`. -/
theorem C64_place_items_stretch :
    PlaceItems.parse [.ident cs!"normal", .ws, .ident cs!"stretch"] = some (⟨.normal, .stretch⟩, []) ∧
    (PlaceItems.mk .normal .stretch).print = [.ident cs!"normal"] ∧
    PlaceItems.parse [.ident cs!"normal"] = some (⟨.normal, .normal⟩, []) := by
  decide

end Verif.Shorthand
