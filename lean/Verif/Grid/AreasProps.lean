import Verif.Grid.TracksProps
/-! Named areas: `grid-template-areas` (C107). -/
namespace Verif.Grid
open Spec

theorem isSpace_iff (c : Char) : isSpace c = true ↔ White c := by simp [isSpace, White, or_assoc]

theorem isName_iff (c : Char) : isName c = true ↔ NameChar c := by simp [isName, NameChar, or_assoc]

theorem name_not_space {c : Char} (h : NameChar c) : isSpace c = false := by
  rw [Bool.eq_false_iff, Ne, isSpace_iff]
  intro hw
  rcases hw with rfl | rfl | rfl | rfl | rfl <;> revert h <;> unfold NameChar <;> decide

theorem name_not_dot {c : Char} (h : NameChar c) : c ≠ '.' := by
  rintro rfl
  revert h
  unfold NameChar
  decide

theorem dropWhile_head {α : Type} (p : α → Bool) (l : List α) {a r} (h : l.dropWhile p = a :: r) : p a = false := by
  induction l with
  | nil => simp at h
  | cons x l ih =>
    by_cases hx : p x
    · simp [hx] at h; exact ih h
    · simp [hx] at h; rw [← h.1]; simpa using hx

theorem CellsG_white {w s : Str} {cs} (hw : ∀ c ∈ w, White c) (h : CellsG s cs) : CellsG (w ++ s) cs := by
  induction w with
  | nil => exact h
  | cons c w ih => exact .white (hw c (by simp)) (ih fun c hc => hw c (by simp [hc]))

theorem mem_takeWhile {α : Type} {p : α → Bool} {l : List α} {x : α} (h : x ∈ l.takeWhile p) : p x = true := by
  induction l with
  | nil => simp at h
  | cons a l ih =>
    by_cases ha : p a
    · simp [ha] at h
      rcases h with rfl | h
      · exact ha
      · exact ih h
    · simp [ha] at h

theorem takeWhile_dots (r : Str) : ∃ n, r = List.replicate n '.' ++ r.dropWhile (fun c => decide (c = '.')) := by
  induction r with
  | nil => exact ⟨0, rfl⟩
  | cons c r ih =>
    by_cases hc : c = '.'
    · obtain ⟨n, hn⟩ := ih
      refine ⟨n + 1, ?_⟩
      subst hc
      simp only [List.replicate_succ, List.cons_append, decide_true, List.dropWhile_cons_of_pos, List.cons.injEq, true_and]
      exact hn
    · exact ⟨0, by simp [hc]⟩

theorem cellsOf_sound (n : Nat) (s : Str) (hn : s.length ≤ n) {cs} (h : cellsOf s = some cs) : CellsG s cs := by
  induction n generalizing s cs with
  | zero =>
    have : s = [] := by simpa using hn
    subst this
    rw [cellsOf] at h
    simp at h
    subst h
    exact .nil
  | succ n ih =>
    have hs : s = s.takeWhile isSpace ++ s.dropWhile isSpace := (List.takeWhile_append_dropWhile (p := isSpace) (l := s)).symm
    have hw : ∀ c ∈ s.takeWhile isSpace, White c := fun c hc => (isSpace_iff c).1 (mem_takeWhile hc)
    rw [cellsOf] at h
    rw [hs]
    refine CellsG_white hw ?_
    have hlen := length_dropWhile_le isSpace s
    split at h
    · next he => cases h; rw [he]; exact .nil
    · next c r he =>
      rw [he] at hlen ⊢
      simp only [List.length_cons] at hlen
      split at h
      · next hc =>
        subst hc
        simp only [Option.map_eq_some_iff] at h
        obtain ⟨cs', hcs, rfl⟩ := h
        have hl := length_dropWhile_le (fun c => decide (c = '.')) r
        obtain ⟨k, hk⟩ := takeWhile_dots r
        have := ih _ (by omega) hcs
        have hd : '.' :: r = List.replicate (k + 1) '.' ++ r.dropWhile (fun c => decide (c = '.')) := by
          conv_lhs => rw [hk]
          rfl
        rw [hd]
        refine .dots (by omega) ?_ this
        intro hh
        cases hdr : r.dropWhile (fun c => decide (c = '.')) with
        | nil => rw [hdr] at hh; cases hh
        | cons a l =>
          rw [hdr] at hh
          have := dropWhile_head _ _ hdr
          simp at hh this
          exact this hh
      · split at h
        · next hc hnm =>
          simp only [Option.map_eq_some_iff] at h
          obtain ⟨cs', hcs, rfl⟩ := h
          have hl := length_dropWhile_le isName r
          have := ih _ (by omega) hcs
          have hr : c :: r = (c :: r.takeWhile isName) ++ r.dropWhile isName := by
            simp [List.takeWhile_append_dropWhile]
          rw [hr]
          refine .name (by simp) ?_ ?_ this
          · intro x hx
            rcases List.mem_cons.1 hx with rfl | hx
            · exact (isName_iff _).1 hnm
            · exact (isName_iff _).1 (mem_takeWhile hx)
          · intro x hx hnx
            cases hdr : r.dropWhile isName with
            | nil => rw [hdr] at hx; cases hx
            | cons a l =>
              rw [hdr] at hx
              have := dropWhile_head _ _ hdr
              simp at hx
              subst hx
              rw [(isName_iff _).2 hnx] at this
              cases this
        · cases h

theorem cellsOf_eq (s : Str) : cellsOf s = match s.dropWhile isSpace with
    | [] => some []
    | c :: r =>
      if c = '.' then (cellsOf (r.dropWhile (· = '.'))).map (none :: ·)
      else if isName c then (cellsOf (r.dropWhile isName)).map (some (c :: r.takeWhile isName) :: ·)
      else none := by
  rw [cellsOf]
  split
  · next h => rw [h]
  · next h => rw [h]

theorem cellsOf_space {c : Char} (hc : isSpace c = true) (s : Str) : cellsOf (c :: s) = cellsOf s := by
  rw [cellsOf_eq (c :: s), cellsOf_eq s]
  simp [hc]

theorem takeWhile_append_stop {α : Type} {p : α → Bool} {w s : List α} (hw : ∀ x ∈ w, p x = true)
    (hs : ∀ x, s.head? = some x → p x = false) : (w ++ s).takeWhile p = w ∧ (w ++ s).dropWhile p = s := by
  induction w with
  | nil =>
    cases s with
    | nil => simp
    | cons a s => simp [hs a rfl]
  | cons a w ih =>
    have := ih fun x hx => hw x (by simp [hx])
    simp [hw a (by simp), this]

theorem cellsOf_complete {s : Str} {cs} (h : CellsG s cs) : cellsOf s = some cs := by
  induction h with
  | nil => rw [cellsOf]; simp
  | white hw _ ih => rw [cellsOf_space ((isSpace_iff _).2 hw)]; exact ih
  | @name w s cs hne hw hs _ ih =>
    cases w with
    | nil => exact absurd rfl hne
    | cons c w =>
      have hc := hw c (by simp)
      have ht := takeWhile_append_stop (p := isName) (w := w) (s := s) (fun x hx => (isName_iff x).2 (hw x (by simp [hx])))
        (fun x hx => by rw [Bool.eq_false_iff, Ne, isName_iff]; exact hs x hx)
      have hd : ((c :: w) ++ s).dropWhile isSpace = c :: (w ++ s) := by simp [name_not_space hc]
      rw [cellsOf]
      split
      · next he => rw [hd] at he; cases he
      · next c' r he =>
        rw [hd] at he
        cases he
        simp [name_not_dot hc, (isName_iff _).2 hc, ht, ih]
  | @dots n s cs hn hs _ ih =>
    obtain ⟨k, rfl⟩ : ∃ k, n = k + 1 := ⟨n - 1, by omega⟩
    have ht := takeWhile_append_stop (p := fun c => decide (c = '.')) (w := List.replicate k '.') (s := s)
      (fun x hx => by simp at hx; simp [hx.2])
      (fun x hx => by
        rw [decide_eq_false_iff_not]
        rintro rfl
        exact hs hx)
    have hd : (List.replicate (k + 1) '.' ++ s).dropWhile isSpace = '.' :: (List.replicate k '.' ++ s) := by
      simp [List.replicate_succ, isSpace]
    rw [cellsOf]
    split
    · next he => rw [hd] at he; cases he
    · next c' r he =>
      rw [hd] at he
      cases he
      simp [ht.2, ih]

theorem parseString_iff (s : Str) (cs : List (Option Str)) : parseString s = some cs ↔ CellsG s cs ∧ cs ≠ [] := by
  unfold parseString
  constructor
  · intro h
    split at h
    · next c cs' hc => cases h; exact ⟨cellsOf_sound _ s (Nat.le_refl _) hc, by simp⟩
    · cases h
  · rintro ⟨h, hn⟩
    rw [cellsOf_complete h]
    cases cs with
    | nil => exact absurd rfl hn
    | cons c cs => rfl

/-! ### Printing a row -/

/-- The names a row can have. -/
def CellOk : Option Str → Prop
  | none => True
  | some w => w ≠ [] ∧ ∀ c ∈ w, NameChar c

theorem CellsG.ok {s cs} (h : CellsG s cs) : ∀ c ∈ cs, CellOk c := by
  induction h with
  | nil => simp
  | white _ _ ih => exact ih
  | name hne hw _ _ ih =>
    intro c hc
    rcases List.mem_cons.1 hc with rfl | hc
    · exact ⟨hne, hw⟩
    · exact ih c hc
  | dots _ _ _ ih =>
    intro c hc
    rcases List.mem_cons.1 hc with rfl | hc
    · trivial
    · exact ih c hc

theorem rowText_G (m : Bool) (n i : Nat) (ln : Bool) (cs : List (Option Str)) (hn : n ≤ cs.length) (hok : ∀ c ∈ cs, CellOk c) :
    CellsG (rowText m n i ln cs) (cs.take n) ∧
      (0 < i → ln = false → ∀ c, (rowText m n i ln cs).head? = some c → ¬ NameChar c) ∧
      (0 < i → ln = true → (rowText m n i ln cs).head? ≠ some '.') := by
  induction n generalizing i ln cs with
  | zero => exact ⟨.nil, by simp [rowText], by simp [rowText]⟩
  | succ n ih =>
    cases cs with
    | nil => simp at hn
    | cons c cs =>
      have hok' : ∀ c ∈ cs, CellOk c := fun c hc => hok c (by simp [hc])
      have hn' : n ≤ cs.length := by simpa using hn
      cases c with
      | some w =>
        obtain ⟨hne, hw⟩ : CellOk (some w) := hok _ (by simp)
        obtain ⟨h1, h2, _⟩ := ih (i + 1) false cs hn' hok'
        have hcell : CellsG (w ++ rowText m n (i + 1) false cs) (some w :: cs.take n) :=
          .name hne hw (h2 (by omega) rfl) h1
        simp only [rowText, List.append_assoc, List.take_succ_cons]
        refine ⟨?_, ?_, ?_⟩
        · split
          · exact .white (.inl rfl) hcell
          · exact hcell
        · intro hi hl c hc
          subst hl
          simp [hi] at hc
          subst hc
          unfold NameChar
          decide
        · intro hi hl
          subst hl
          obtain ⟨a, w', rfl⟩ : ∃ a w', w = a :: w' := by
            cases w with
            | nil => exact absurd rfl hne
            | cons a b => exact ⟨a, b, rfl⟩
          split
          · simp
          · simp [name_not_dot (hw a (by simp))]
      | none =>
        obtain ⟨h1, _, h3⟩ := ih (i + 1) true cs hn' hok'
        have hcell : CellsG ('.' :: rowText m n (i + 1) true cs) (none :: cs.take n) :=
          CellsG.dots (n := 1) (by omega) (h3 (by omega) rfl) h1
        simp only [rowText, List.take_succ_cons]
        refine ⟨?_, ?_, ?_⟩
        · split
          · exact .white (.inl rfl) hcell
          · exact hcell
        · intro hi hl c hc
          split at hc <;> simp at hc <;> subst hc <;> unfold NameChar <;> decide
        · intro hi hl
          subst hl
          simp [hi]

/-- One row, printed from the cells that are left. -/
theorem rowTok_G (m : Bool) (cs rest : List (Option Str)) (hok : ∀ c ∈ cs ++ rest, CellOk c) :
    ∃ s, rowTok m cs.length (cs ++ rest) = .str s ∧ CellsG s cs := by
  refine ⟨_, rfl, ?_⟩
  have := (rowText_G m cs.length 0 false (cs ++ rest) (by simp) hok).1
  simpa using this

/-! ### Rows -/

theorem RowsG.ok {n ts css} (h : RowsG n ts css) : ∀ cs ∈ css, cs.length = n ∧ ∀ c ∈ cs, CellOk c := by
  induction h with
  | nil => simp
  | cons hc hl _ ih =>
    intro cs hm
    rcases List.mem_cons.1 hm with rfl | hm
    · exact ⟨hl, CellsG.ok hc⟩
    · exact ih cs hm

theorem printRows_G (m : Bool) {n : Nat} (hn : 0 < n) (css : List (List (Option Str)))
    (h : ∀ cs ∈ css, cs.length = n ∧ ∀ c ∈ cs, CellOk c) : RowsG n (printRows m n css.flatten) css := by
  induction css with
  | nil => rw [List.flatten_nil, printRows]; exact .nil
  | cons cs css ih =>
    have hcs := h cs (by simp)
    have hall : ∀ c ∈ cs ++ css.flatten, CellOk c := by
      intro c hc
      rcases List.mem_append.1 hc with hc | hc
      · exact hcs.2 c hc
      · obtain ⟨l, hl, hc⟩ := List.mem_flatten.1 hc
        exact (h l (by simp [hl])).2 c hc
    obtain ⟨s, hs, hg⟩ := rowTok_G m cs css.flatten hall
    rw [hcs.1] at hs
    have hd : (cs ++ css.flatten).drop n = css.flatten := by
      rw [← hcs.1]; simp
    simp only [List.flatten_cons]
    cases hcc : cs ++ css.flatten with
    | nil =>
      have : cs = [] := by simp at hcc; exact hcc.1
      subst this
      simp at hcs
      omega
    | cons a l =>
      rw [printRows]
      rw [if_neg (by omega), ← hcc, hs, hd]
      exact .cons hg hcs.1 (ih fun cs hc => h cs (by simp [hc]))

theorem parseAreasLoop_complete {n ts css} (h : RowsG n ts css) {r} (hr : Stop r) (hn : 0 < n) (row : Nat) (hrow : 0 < row) (cells : List (Option Str)) :
    parseAreasLoop row n cells (ts ++ r) = some (.areas n (cells ++ css.flatten), r) := by
  induction h generalizing row cells with
  | nil =>
    rcases hr with rfl | ⟨r, rfl⟩ <;> simp [parseAreasLoop]
  | @cons s cs ts css hc hl _ ih =>
    have hp : parseString s = some cs := (parseString_iff _ _).2 ⟨hc, by rintro rfl; simp at hl; omega⟩
    have hr0 : ¬ row = 0 := by omega
    simp only [List.cons_append, parseAreasLoop, hp, hr0, if_false, hl, ne_eq, not_true_eq_false]
    rw [ih (row + 1) (by omega)]
    simp

theorem parseAreasLoop_sound (ts : List Tok) (row n : Nat) (hrow : 0 < row) (cells : List (Option Str)) {v r}
    (h : parseAreasLoop row n cells ts = some (v, r)) :
    ∃ u css, ts = u ++ r ∧ RowsG n u css ∧ v = .areas n (cells ++ css.flatten) := by
  induction ts generalizing row cells with
  | nil =>
    simp only [parseAreasLoop] at h
    cases h
    exact ⟨[], [], rfl, .nil, by simp⟩
  | cons t ts ih =>
    cases t with
    | str s =>
      simp only [parseAreasLoop] at h
      cases hp : parseString s with
      | none => simp [hp] at h
      | some cs =>
        have hr0 : ¬ row = 0 := by omega
        simp only [hp, hr0, if_false] at h
        split at h
        · cases h
        · next hl =>
          obtain ⟨u, css, hu, hg, hv⟩ := ih (row + 1) (by omega) _ h
          refine ⟨.str s :: u, cs :: css, by simp [hu], .cons ((parseString_iff _ _).1 hp).1 (by simpa using hl) hg, by simp [hv]⟩
    | _ =>
      simp only [parseAreasLoop] at h
      cases h
      exact ⟨[], [], rfl, .nil, by simp⟩

theorem parseAreasLoop_zero (s : Str) (ts : List Tok) : parseAreasLoop 0 0 [] (.str s :: ts) =
    (parseString s).bind fun cs => parseAreasLoop 1 cs.length cs ts := by
  simp only [parseAreasLoop]
  cases parseString s <;> simp

theorem parseAreas_iff (ts : List Tok) (v : Areas) (hne : ts ≠ []) : parseAreas ts = some (v, []) ↔ AreasG ts v := by
  constructor
  · intro h
    have body : ∀ ts : List Tok, ts ≠ [] → parseAreasLoop 0 0 [] ts = some (v, []) → AreasG ts v := by
      intro ts hne h
      cases ts with
      | nil => exact absurd rfl hne
      | cons t ts =>
        cases t with
        | str s =>
          rw [parseAreasLoop_zero] at h
          simp only [Option.bind_eq_some_iff] at h
          obtain ⟨cs, hp, h⟩ := h
          have hs := (parseString_iff _ _).1 hp
          have hpos : 0 < cs.length := List.length_pos_iff.2 hs.2
          obtain ⟨u, css, hu, hg, hv⟩ := parseAreasLoop_sound ts 1 _ (by omega) _ h
          simp only [List.append_nil] at hu
          subst hu hv
          have := AreasG.areas (css := cs :: css) (RowsG.cons hs.1 rfl hg) (by simp) hpos
          simpa using this
        | _ => simp [parseAreasLoop] at h
    unfold parseAreas at h
    split at h
    · next s r =>
      split at h
      · next hk => cases h; exact .none ((kw_iff _ _).1 hk)
      · exact body _ (by simp) h
    · exact body _ hne h
  · intro h
    cases h with
    | none hw => simp [parseAreas, (kw_iff _ _).2 hw]
    | @areas n _ css hg hc hn =>
      cases hg with
      | nil => exact absurd rfl hc
      | @cons s cs ts css' hcs hl hg =>
        have hp : parseString s = some cs := (parseString_iff _ _).2 ⟨hcs, by rintro rfl; simp at hl; omega⟩
        have := parseAreasLoop_complete hg (r := []) (.inl rfl) hn 1 (by omega) cs
        simp only [parseAreas, parseAreasLoop_zero, hp, Option.bind_some, hl]
        simpa using this

theorem Spec.AreasG.ne_nil {ts v} (h : AreasG ts v) : ts ≠ [] := by
  cases h with
  | none => simp
  | areas hg hc _ =>
    rintro rfl
    cases hg
    exact hc rfl

/-! ### C107 -/

/-- A row of `grid-template-areas` is cut into cells exactly as the longest-match tokenisation of CSS says, and a
string is rejected exactly if it has another character or no cell. -/
theorem C107_string (s : Str) (cs : List (Option Str)) : parseString s = some cs ↔ CellsG s cs ∧ cs ≠ [] := parseString_iff s cs

/-- `grid-template-areas` is read as the CSS grammar says, for every value that is not empty. -/
theorem C107_read (ts : List Tok) (v : Areas) (h : ts ≠ []) : parseAreas ts = some (v, []) ↔ AreasG ts v := parseAreas_iff ts v h

/-- The printed value of `grid-template-areas` (minified, without the spaces around null cells, or not) describes
the same areas. -/
theorem C107_print (minify : Bool) (ts : List Tok) (v : Areas) (h : AreasG ts v) : AreasG (printAreas minify v) v := by
  cases h with
  | none => exact .none (by unfold word; decide)
  | areas hg hc hn => exact .areas (printRows_G minify hn _ (RowsG.ok hg)) hc hn

/-- The grammar is unambiguous. -/
theorem C107_unique (ts : List Tok) (v w : Areas) (hv : AreasG ts v) (hw : AreasG ts w) : v = w := by
  have hne := hv.ne_nil
  have h1 := (parseAreas_iff ts v hne).2 hv
  rw [(parseAreas_iff ts w hne).2 hw] at h1
  cases h1
  rfl

/-- The round trip for everything that is accepted, the empty value too. -/
theorem C107_round_trip (minify : Bool) (ts : List Tok) (v : Areas) (h : parseAreas ts = some (v, [])) :
    parseAreas (printAreas minify v) = some (v, []) := by
  by_cases hne : ts = []
  · subst hne
    have h' : some (Areas.areas 0 [], ([] : List Tok)) = some (v, []) := h
    cases h'
    simp only [printAreas, printRows]
    rfl
  · have hg := C107_print minify ts v ((parseAreas_iff ts v hne).1 h)
    exact (parseAreas_iff _ _ hg.ne_nil).2 hg

/-- `"a . b" ".. c 1d"` minifies to `"a.b" ".c 1d"`. -/
example : AreasG [.str cs!"a  . b", .str cs!".. c 1d"] (.areas 3 [some cs!"a", none, some cs!"b", none, some cs!"c", some cs!"1d"]) :=
  (C107_read _ _ (by simp)).1 (eval_parse (by decide +kernel))
example : printAreas true (.areas 3 [some cs!"a", none, some cs!"b", none, some cs!"c", some cs!"1d"]) = [.str cs!"a.b", .str cs!".c 1d"] := by
  simp [printAreas, printRows, rowTok, rowText]

/-- The empty value is accepted, although CSS requires a string; it has no columns. -/
theorem C107_empty : parseAreas [] = some (.areas 0 [], []) ∧ ¬ AreasG [] (.areas 0 []) := by
  refine ⟨rfl, ?_⟩
  exact fun h => h.ne_nil rfl

end Verif.Grid
