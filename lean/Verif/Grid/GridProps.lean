import Verif.Grid.TemplateProps
/-! The `grid` shorthand (C112), and that the grammar of `grid-template` and `grid` is unambiguous. -/
namespace Verif.Grid
open Spec

/-! ### The grammar of `grid-template` is unambiguous -/

theorem noStr_names {ts ns} (h : NamesG ts ns) (s : Str) : Tok.str s ∉ ts := by cases h <;> simp

theorem noStr_size {t z} (h : SizeG t z) (s : Str) : t ≠ .str s := by
  rintro rfl
  cases h with
  | breadth h => cases h

theorem noStr_item {t i} (h : ItemG t i) (s : Str) : t ≠ .str s := by
  cases h with
  | size h => exact noStr_size h s
  | rep => simp

theorem noStr_tracks {ts nss xs} (h : TracksG ItemG ts nss xs) (s : Str) : Tok.str s ∉ ts := by
  induction h with
  | last h => exact noStr_names h s
  | more h1 hx _ ih =>
    simp only [List.mem_append, List.mem_cons, not_or]
    exact ⟨noStr_names h1 s, fun h => noStr_item hx s h.symm, ih⟩

theorem noStr_sizing {ts v} (h : SizingG ts v) (s : Str) : Tok.str s ∉ ts := by
  cases h with
  | none => simp
  | list h => exact noStr_tracks h.1 s

theorem str_areas {n pend ts nss zs css} (h : AreaRowsG n pend ts nss zs css) (hz : zs ≠ []) : ∃ s, Tok.str s ∈ ts := by
  cases h with
  | nil => exact absurd rfl hz
  | @cons _ _ _ s => exact ⟨s, by simp⟩

theorem cons_brack {ts t} (h : TemplateG ts t) (ha : t.areas ≠ .none) (hb : ¬ Brack ts) : TemplateG (.brack [] :: ts) t := by
  cases h with
  | none => exact absurd rfl ha
  | tracks => exact absurd rfl ha
  | areas h1 hz hn hc =>
    cases h1 with
    | nil => exact absurd rfl hz
    | cons h1 hcell hl hs h3 hr =>
      cases h1 with
      | none =>
        have := AreaRowsG.cons (pend := []) (NamesG.some (ns := []) (by simp)) hcell hl hs h3 hr
        exact TemplateG.areas this hz hn hc
      | some => simp [Brack] at hb

/-- No token list has two meanings as a `grid-template`. -/
theorem C111_unique (ts : List Tok) (t t' : Template) (h : TemplateG ts t) (h' : TemplateG ts t') : t = t' := by
  by_cases hnone : ∃ s r, ts = .ident s :: .slash :: r ∧ word s cs!"none"
  · obtain ⟨s, r, rfl, hw⟩ := hnone
    have key : ∀ t, TemplateG (.ident s :: .slash :: r) t → ∃ c, t = ⟨.none, c, .none⟩ ∧ SizingG r c := by
      intro t h
      generalize hts : Tok.ident s :: .slash :: r = ts at h
      cases h with
      | none => simp at hts
      | @tracks t1 rows t2 cols h1 h2 =>
        cases h1 with
        | none _ =>
          simp at hts
          rw [hts.2]
          exact ⟨cols, rfl, h2⟩
        | @list _ l hl =>
          exfalso
          cases t1 with
          | nil => simp at hts
          | cons a t1' =>
            simp only [List.cons_append, List.cons.injEq] at hts
            rw [← hts.1] at hl
            exact TrackListG_not_none hl rfl hw
      | areas h1 hz => exact absurd hts.symm (AreaRowsG_not_ident h1 hz)
    obtain ⟨c, rfl, hc⟩ := key t h
    obtain ⟨c', rfl, hc'⟩ := key t' h'
    rw [C110_unique r c c' hc hc']
  · have hn : ∀ s r, ts = .ident s :: .slash :: r → ¬ word s cs!"none" := fun s r he hw => hnone ⟨s, r, he, hw⟩
    have fin : ∀ ts : List Tok, (∀ s r, ts = .ident s :: .slash :: r → ¬ word s cs!"none") → TemplateG ts t → TemplateG ts t' →
        (Brack ts ∨ (t.areas = .none ∧ t'.areas = .none)) → t = t' := by
      intro ts hn h h' hb
      have h1 := C111_read_partial ts t h hn (by rcases hb with hb | hb; exact .inl hb; exact .inr (.inl hb.1))
      have h2 := C111_read_partial ts t' h' hn (by rcases hb with hb | hb; exact .inl hb; exact .inr (.inl hb.2))
      rw [h1] at h2
      cases h2
      rfl
    by_cases hb : Brack ts
    · exact fin ts hn h h' (.inl hb)
    · -- either both have areas or none has
      have str : ∀ t, TemplateG ts t → (t.areas ≠ .none ↔ ∃ s, Tok.str s ∈ ts) := by
        intro t h
        cases h with
        | none => simp
        | tracks h1 h2 =>
          simp only [ne_eq, not_true_eq_false, false_iff, not_exists]
          intro s hs
          simp only [List.mem_append, List.mem_cons, reduceCtorEq, false_or] at hs
          rcases hs with hs | hs
          · exact noStr_sizing h1 s hs
          · exact noStr_sizing h2 s hs
        | areas h1 hz =>
          simp only [ne_eq, reduceCtorEq, not_false_eq_true, true_iff]
          obtain ⟨s, hs⟩ := str_areas h1 hz
          exact ⟨s, by simp [hs]⟩
      by_cases ha : t.areas = .none
      · have ha' : t'.areas = .none := by
          by_contra hc
          exact (str t h).2 ((str t' h').1 hc) ha
        exact fin ts hn h h' (.inr ⟨ha, ha'⟩)
      · have ha' : t'.areas ≠ .none := (str t' h').2 ((str t h).1 ha)
        exact fin (.brack [] :: ts) (by simp) (cons_brack h ha hb) (cons_brack h' ha' hb) (.inl trivial)

/-! ### Printing the `grid` shorthand -/

theorem printAutoFlow_G (d : Bool) (zs : List Size) (hok : ∀ z ∈ zs, z.Ok) (ha : zs ≠ [.breadth .auto]) :
    ∃ t1 t2, printAutoFlow d zs = t1 ++ t2 ∧ AutoFlowG t1 d ∧ OptSizesG t2 zs := by
  refine ⟨.ident cs!"auto-flow" :: (if d then [.ident cs!"dense"] else []), if zs = [] then [] else printSizeList zs, by simp [printAutoFlow], ?_, ?_⟩
  · cases d with
    | false => exact .flow (by unfold word; decide)
    | true => exact .flowDense (by unfold word; decide) (by unfold word; decide)
  · split
    · next h => subst h; exact .none
    · exact .some (printSizeList_G hok ha)

/-- The values the longhands can have (each by its own grammar). -/
structure GridV.Ok (g : GridV) : Prop where
  rows : ∃ ts, SizingG ts g.rows
  columns : ∃ ts, SizingG ts g.columns
  areas : ∃ ts, AreasG ts g.areas
  autoRows : ∃ ts, SizeListG ts g.autoRows
  autoColumns : ∃ ts, SizeListG ts g.autoColumns

/-- The rows of cells of an area list. -/
def Areas.rowCount : Areas → Nat
  | .none => 0
  | .areas n cells => cells.length / n

/-- The tracks of a track list (`none`: there are none). -/
def Sizing.trackCount : Sizing → Nat
  | .none => 0
  | .list l => l.items.length

theorem flatten_length {n : Nat} {css : List (List (Option Str))} (h : ∀ cs ∈ css, cs.length = n) : css.flatten.length = css.length * n := by
  induction css with
  | nil => simp
  | cons cs css ih =>
    simp only [List.flatten_cons, List.length_append, List.length_cons, h cs (by simp), ih fun cs hc => h cs (by simp [hc])]
    rw [Nat.add_mul]
    omega

theorem explicit_sizes {items : List Item} (h : items.all Item.explicit = true) : ∃ zs : List Size, items = zs.map .size := by
  induction items with
  | nil => exact ⟨[], rfl⟩
  | cons i items ih =>
    simp only [List.all_cons, Bool.and_eq_true] at h
    obtain ⟨zs, rfl⟩ := ih h.2
    cases i with
    | size z => exact ⟨z :: zs, rfl⟩
    | rep r => simp [Item.explicit] at h

theorem SizingG.sizesOk {ts nss} {zs : List Size} (h : SizingG ts (.list ⟨nss, zs.map .size⟩)) :
    (∀ z ∈ zs, z.Ok) ∧ nss.length = zs.length + 1 ∧ (∀ ns ∈ nss, ∀ x ∈ ns, Custom x) ∧ zs ≠ [] := by
  have hl := SizingG_list h
  refine ⟨?_, by simpa using hl.1.length, hl.1.custom, by simpa using hl.2⟩
  intro z hz
  obtain ⟨t, ht⟩ := hl.1.mem (.size z) (by simp [hz])
  cases ht with
  | size h => exact h.ok

theorem SizingG.columnsG {ts v} (h : SizingG ts v) (he : v.explicit = true) : ∃ t2, ColumnsG t2 v := by
  cases h with
  | none => exact ⟨[], .none⟩
  | list hl =>
    refine ⟨_, .list hl ?_⟩
    intro i hi
    have := List.all_eq_true.1 he i hi
    cases i with
    | size z => exact ⟨z, rfl⟩
    | rep r => simp [Item.explicit] at this

/-- `grid-template` printed from longhand values, when it counts as valid and the areas have as many rows as there are
row tracks. -/
theorem template_of_longhands {g : GridV} (hok : g.Ok) (hv : Template.valid g.rows g.columns g.areas = true)
    (hrows : g.areas ≠ .none → g.areas.rowCount = g.rows.trackCount) :
    ∃ out, printTemplate true ⟨g.rows, g.columns, g.areas⟩ = some out ∧ TemplateG out ⟨g.rows, g.columns, g.areas⟩ := by
  obtain ⟨rows, columns, areas, autoRows, autoColumns, flow⟩ := g
  simp only at hv hrows ⊢
  obtain ⟨_, hr⟩ := hok.rows
  obtain ⟨_, hc⟩ := hok.columns
  obtain ⟨_, ha⟩ := hok.areas
  simp only at hr hc ha
  cases ha with
  | none => exact C111_minified _ _ (.tracks hr hc)
  | @areas n ts css hg hne hn =>
    simp only [Template.valid, reduceCtorEq, decide_false, Bool.false_or, Bool.and_eq_true, ne_eq, decide_not, Bool.not_eq_true',
      decide_eq_false_iff_not] at hv
    cases rows with
    | none => simp at hv
    | list l =>
      obtain ⟨nss, items⟩ := l
      obtain ⟨zs, rfl⟩ := explicit_sizes hv.1.2
      obtain ⟨hzok, hlen, hcu, hz⟩ := SizingG.sizesOk hr
      obtain ⟨_, hcol⟩ := SizingG.columnsG hc hv.2
      have hrow := RowsG.ok hg
      have hcnt := hrows (by simp)
      simp only [Areas.rowCount, Sizing.trackCount, List.length_map, flatten_length fun cs hc => (hrow cs hc).1] at hcnt
      rw [Nat.mul_div_cancel _ hn] at hcnt
      exact printTemplate_areas hn ⟨hlen, hcnt, hcu, hzok, hrow⟩ hz hcol (.inl rfl)

/-- `Grid::to_css` never panics on a value that `Grid::is_valid` accepts and whose longhands are valid, and where the
areas have as many rows as there are row tracks. -/
theorem C112_no_panic (g : GridV) (hok : g.Ok) (hv : GridV.valid g.rows g.columns g.areas g.autoRows g.autoColumns g.flow = true)
    (hrows : g.areas ≠ .none → g.rows ≠ .none → g.flow.column = false → g.areas.rowCount = g.rows.trackCount) : printGrid true g ≠ none := by
  by_cases h1 : g.areas ≠ .none ∧ g.rows = .none
  · simp [printGrid, h1.1, h1.2]
  · by_cases h2 : g.areas ≠ .none ∧ g.columns = .none ∧ g.flow.column = true
    · rw [printGrid, if_neg h1, if_pos h2]
      simp
    · simp only [GridV.valid, h1, if_false, Bool.or_eq_true, Bool.and_eq_true, decide_eq_true_eq, Bool.not_eq_true'] at hv
      simp only [printGrid, h1, h2, if_false]
      by_cases h3 : g.areas ≠ .none ∨ (g.rows ≠ .none ∧ g.columns ≠ .none) ∨
          (g.areas = .none ∧ g.autoRows = [] ∧ g.autoColumns = [] ∧ g.flow = Flow.default)
      · rw [if_pos h3]
        rcases hv with (⟨ht, ⟨ha, hb⟩, hc⟩ | ⟨⟨hf, hr⟩, ha⟩) | ⟨⟨hf, hc⟩, ha⟩
        · rw [if_pos ⟨ha, hb, hc⟩]
          obtain ⟨out, ho, _⟩ := template_of_longhands hok ht (fun h => hrows h (fun h' => h1 ⟨h, h'⟩) (by rw [hc]; rfl))
          rw [ho]
          simp
        · have hna : g.areas = .none := by
            by_contra h
            exact h1 ⟨h, hr⟩
          rcases h3 with h | ⟨h, _⟩ | ⟨_, hi⟩
          · exact absurd hna h
          · exact absurd hr h
          · rw [if_pos hi, hna]
            simp only [printTemplate]
            split <;> simp
        · have hna : g.areas = .none := by
            by_contra h
            exact h2 ⟨h, hc, hf⟩
          rcases h3 with h | ⟨_, h⟩ | ⟨_, hi⟩
          · exact absurd hna h
          · exact absurd hc h
          · rw [if_pos hi, hna]
            simp only [printTemplate]
            split <;> simp
      · rw [if_neg h3]
        simp only [not_or, not_and, ne_eq, not_not] at h3
        rcases hv with (⟨ht, ⟨ha, hb⟩, hc⟩ | ⟨⟨hf, hr⟩, ha⟩) | ⟨⟨hf, hc⟩, ha⟩
        · exact absurd hc (h3.2.2 h3.1 ha hb)
        · simp [hf, hr, ha]
        · simp [hf, hc, ha]

/-- The value that the printed shorthand can express: in the `auto-flow` forms the areas are not part of it. -/
def GridV.shown (g : GridV) : GridV :=
  if g.areas ≠ .none ∧ (g.rows = .none ∨ (g.columns = .none ∧ g.flow.column = true)) then { g with areas := .none } else g

/-- The `grid` shorthand printed for longhand values that `Grid::is_valid` accepts means those values by the CSS
grammar, except for the areas in the `auto-flow` forms (which the caller writes separately); with areas and no row
tracks the implicit columns have to be `auto`. -/
theorem C112_print_partial (g : GridV) (hok : g.Ok) (hv : GridV.valid g.rows g.columns g.areas g.autoRows g.autoColumns g.flow = true)
    (hrows : g.areas ≠ .none → g.rows ≠ .none → g.flow.column = false → g.areas.rowCount = g.rows.trackCount)
    (hauto : g.areas ≠ .none → g.rows = .none → g.autoColumns = []) :
    ∃ out, printGrid true g = some out ∧ GridG out g.shown := by
  obtain ⟨_, hr⟩ := hok.rows
  obtain ⟨_, hc⟩ := hok.columns
  obtain ⟨_, har⟩ := hok.autoRows
  obtain ⟨_, hac⟩ := hok.autoColumns
  have hpr := C110_print _ _ hr
  have hpc := C110_print _ _ hc
  obtain ⟨r1, r2, hre, hrf, hro⟩ := printAutoFlow_G g.flow.dense g.autoRows (SizeListG.ok har).1 (SizeListG.ok har).2
  obtain ⟨c1, c2, hce, hcf, hco⟩ := printAutoFlow_G g.flow.dense g.autoColumns (SizeListG.ok hac).1 (SizeListG.ok hac).2
  have rowsForm : ∀ a, g.rows = .none → g.autoColumns = [] → g.flow.column = false → a = Areas.none →
      GridG (printAutoFlow g.flow.dense g.autoRows ++ .slash :: printSizing g.columns) { g with areas := a } := by
    intro a h1 h2 h3 ha
    have := GridG.rows hrf hro hpc
    rw [hre, List.append_assoc]
    obtain ⟨rows, columns, areas, autoRows, autoColumns, ⟨c, d⟩⟩ := g
    simp only at h1 h2 h3 this ⊢
    subst h1 h2 h3 ha
    exact this
  have columnsForm : ∀ a, g.columns = .none → g.autoRows = [] → g.flow.column = true → a = Areas.none →
      GridG (printSizing g.rows ++ .slash :: printAutoFlow g.flow.dense g.autoColumns) { g with areas := a } := by
    intro a h1 h2 h3 ha
    have := GridG.columns hpr hcf hco
    rw [hce]
    obtain ⟨rows, columns, areas, autoRows, autoColumns, ⟨c, d⟩⟩ := g
    simp only at h1 h2 h3 this ⊢
    subst h1 h2 h3 ha
    exact this
  by_cases h1 : g.areas ≠ .none ∧ g.rows = .none
  · have hsh : g.shown = { g with areas := .none } := by simp [GridV.shown, h1.1, h1.2]
    have hf : g.flow.column = false := by
      rw [GridV.valid, if_pos h1] at hv
      simpa using hv
    refine ⟨_, by rw [printGrid, if_pos h1], ?_⟩
    rw [hsh]
    exact rowsForm _ h1.2 (hauto h1.1 h1.2) hf rfl
  · by_cases h2 : g.areas ≠ .none ∧ g.columns = .none ∧ g.flow.column = true
    · have hsh : g.shown = { g with areas := .none } := by simp [GridV.shown, h2.1, h2.2]
      have hz : g.autoRows = [] := by
        simp only [GridV.valid, h1, if_false, Bool.or_eq_true, Bool.and_eq_true, decide_eq_true_eq, Bool.not_eq_true'] at hv
        rcases hv with (⟨ht, ⟨ha, hb⟩, hc⟩ | ⟨⟨hf, hr⟩, ha⟩) | ⟨⟨hf, hc⟩, ha⟩
        · exact ha
        · rw [h2.2.2] at hf; cases hf
        · exact ha
      refine ⟨_, by rw [printGrid, if_neg h1, if_pos h2], ?_⟩
      rw [hsh]
      exact columnsForm _ h2.2.1 hz h2.2.2 rfl
    · have hsh : g.shown = g := by
        rw [GridV.shown, if_neg]
        rintro ⟨ha, h | h⟩
        · exact h1 ⟨ha, h⟩
        · exact h2 ⟨ha, h⟩
      rw [hsh]
      have hself : { g with areas := g.areas } = g := rfl
      simp only [GridV.valid, h1, if_false, Bool.or_eq_true, Bool.and_eq_true, decide_eq_true_eq, Bool.not_eq_true'] at hv
      by_cases h3 : g.areas ≠ .none ∨ (g.rows ≠ .none ∧ g.columns ≠ .none) ∨
          (g.areas = .none ∧ g.autoRows = [] ∧ g.autoColumns = [] ∧ g.flow = Flow.default)
      · have template : Template.valid g.rows g.columns g.areas = true → g.autoRows = [] ∧ g.autoColumns = [] ∧ g.flow = Flow.default →
            ∃ out, printGrid true g = some out ∧ GridG out g := by
          intro ht hi
          obtain ⟨out, ho, hg⟩ := template_of_longhands hok ht (fun h => hrows h (fun h' => h1 ⟨h, h'⟩) (by rw [hi.2.2]; rfl))
          refine ⟨out, by rw [printGrid, if_neg h1, if_neg h2, if_pos h3, if_pos hi, ho], ?_⟩
          have := GridG.template hg
          obtain ⟨rows, columns, areas, autoRows, autoColumns, flow⟩ := g
          simp only [Flow.default] at hi this
          obtain ⟨rfl, rfl, rfl⟩ := hi
          exact this
        rcases hv with (⟨ht, ⟨ha, hb⟩, hc⟩ | ⟨⟨hf, hr⟩, ha⟩) | ⟨⟨hf, hc⟩, ha⟩
        · exact template ht ⟨ha, hb, hc⟩
        · have hna : g.areas = .none := by
            by_contra h
            exact h1 ⟨h, hr⟩
          rcases h3 with h | ⟨h, _⟩ | ⟨_, hi⟩
          · exact absurd hna h
          · exact absurd hr h
          · exact template (by simp [Template.valid, hna]) hi
        · have hna : g.areas = .none := by
            by_contra h
            exact h2 ⟨h, hc, hf⟩
          rcases h3 with h | ⟨_, h⟩ | ⟨_, hi⟩
          · exact absurd hna h
          · exact absurd hc h
          · exact template (by simp [Template.valid, hna]) hi
      · have h3' := h3
        simp only [not_or, not_and, ne_eq, not_not] at h3'
        rcases hv with (⟨ht, ⟨ha, hb⟩, hc⟩ | ⟨⟨hf, hr⟩, ha⟩) | ⟨⟨hf, hc⟩, ha⟩
        · exact absurd hc (h3'.2.2 h3'.1 ha hb)
        · refine ⟨_, ?_, hself ▸ rowsForm g.areas hr ha hf h3'.1⟩
          rw [printGrid, if_neg h1, if_neg h2, if_neg h3]
          simp [hf, hr, ha]
        · refine ⟨_, ?_, hself ▸ columnsForm g.areas hc ha hf h3'.1⟩
          rw [printGrid, if_neg h1, if_neg h2, if_neg h3]
          simp [hf, hc, ha]

/-- A shorthand that `Grid::is_valid` accepts loses its implicit columns: `grid-template-areas: "a"`,
`grid-template-columns: 1fr`, `grid-auto-columns: 5px` become `grid: auto-flow / 1fr`. -/
theorem C112_auto_columns_lost :
    GridV.valid .none (.list ⟨[[], []], [.size (.breadth (.flex 1))]⟩) (.areas 1 [some cs!"a"]) [] [.breadth (.length 5)] ⟨false, false⟩ = true ∧
    printGrid true ⟨.none, .list ⟨[[], []], [.size (.breadth (.flex 1))]⟩, .areas 1 [some cs!"a"], [], [.breadth (.length 5)], ⟨false, false⟩⟩ =
      some [.ident cs!"auto-flow", .slash, .fr 1] ∧
    GridG [.ident cs!"auto-flow", .slash, .fr 1] ⟨.none, .list ⟨[[], []], [.size (.breadth (.flex 1))]⟩, .none, [], [], ⟨false, false⟩⟩ := by
  refine ⟨by decide +kernel, rfl, ?_⟩
  have h := (C110_read [.fr 1] (.list ⟨[[], []], [.size (.breadth (.flex 1))]⟩)).2
    ⟨eval_parse (by decide +kernel), by intro i hi; simp at hi; subst hi; trivial⟩
  exact GridG.rows (t1 := [.ident cs!"auto-flow"]) (t2 := []) (.flow (by unfold word; decide)) .none h

/-! ### Reading the `grid` shorthand -/

theorem parseAutoFlow_complete {ts d} (h : AutoFlowG ts d) (c : Bool) {X} (hX : ∀ s r, X = .ident s :: r → ¬ word s cs!"dense") :
    parseAutoFlow c (ts ++ X) = some (⟨c, d⟩, X) := by
  cases h with
  | flow h =>
    simp only [List.cons_append, List.nil_append, parseAutoFlow, (kw_iff _ _).2 h, if_true]
    split
    · next s r =>
      have := hX s r rfl
      rw [← kw_iff] at this
      simp [this]
    · rfl
  | flowDense h h2 => simp [parseAutoFlow, (kw_iff _ _).2 h, (kw_iff _ _).2 h2]
  | denseFlow h h2 => simp [parseAutoFlow, (kw_iff _ _).2 h, (kw_iff _ _).2 h2, word_ne (b := cs!"auto-flow") h2 (by decide)]

theorem SizeG_word {s w : Str} {z : Size} (h : SizeG (.ident s) z) (hw : word s w) : w ∈ [cs!"auto", cs!"min-content", cs!"max-content"] := by
  cases h with
  | breadth hb =>
    cases hb with
    | auto h => have : w = _ := hw.symm.trans h; rw [this]; decide
    | minContent h => have : w = _ := hw.symm.trans h; rw [this]; decide
    | maxContent h => have : w = _ := hw.symm.trans h; rw [this]; decide

theorem OptSizes_head {ts zs} (h : OptSizesG ts zs) {s r X} (hX : Stop X) (he : ts ++ X = .ident s :: r) {w : Str} (hw : word s w) :
    w ∈ [cs!"auto", cs!"min-content", cs!"max-content"] := by
  have key : ∀ t rest z, SizeG t z → t :: rest = .ident s :: r → w ∈ [cs!"auto", cs!"min-content", cs!"max-content"] := by
    intro t rest z hz h
    cases h
    exact SizeG_word hz hw
  cases h with
  | none => exact absurd he (by simpa using stop_not_ident hX)
  | some h =>
    cases h with
    | auto hz => exact key _ _ _ hz he
    | list hg hn _ =>
      cases hg with
      | nil => exact absurd rfl hn
      | cons hz _ => exact key _ _ _ hz he

theorem parseSizeList_opt {ts zs} (h : OptSizesG ts zs) {r} (hr : Stop r) : parseSizeList (ts ++ r) = (zs, r) := by
  cases h with
  | none => rcases hr with rfl | ⟨r, rfl⟩ <;> rfl
  | some h => exact parseSizeList_complete h hr

theorem AutoFlow_head {ts d} (h : AutoFlowG ts d) (X : List Tok) : ∃ s r, ts ++ X = .ident s :: r ∧ (word s cs!"auto-flow" ∨ word s cs!"dense") := by
  cases h with
  | flow h => exact ⟨_, _, rfl, .inl h⟩
  | flowDense h => exact ⟨_, _, rfl, .inl h⟩
  | denseFlow _ h => exact ⟨_, _, rfl, .inr h⟩

/-- The words of the automatic flow are no tracks. -/
theorem parseSizing_flow {s : Str} {r} (h : word s cs!"auto-flow" ∨ word s cs!"dense") : parseSizing (.ident s :: r) = none := by
  have hne : ∀ w ∈ [cs!"none", cs!"auto", cs!"min-content", cs!"max-content"], kw s w = false := by
    intro w hw
    rcases h with h | h
    · exact word_ne h (by rintro rfl; revert hw; decide)
    · exact word_ne h (by rintro rfl; revert hw; decide)
  have hi : parseItem (.ident s) = none := by
    simp [parseItem, parseSize, parseBreadth, parseRepeat, hne]
  have hk := hne cs!"none" (by simp)
  simp only [parseSizing, hk, Bool.false_eq_true, if_false, parseTrackList]
  rw [parseTracks]
  simp [optNames, lineNames, hi]

theorem parseTemplate_flow {s : Str} {r} (h : word s cs!"auto-flow" ∨ word s cs!"dense") : parseTemplate (.ident s :: r) = none := by
  have hk : ∀ s' r', Tok.ident s :: r = .ident s' :: r' → ¬ word s' cs!"none" := by
    intro s' r' he hw
    cases he
    rcases h with h | h
    · exact absurd (h.symm.trans hw) (by decide)
    · exact absurd (h.symm.trans hw) (by decide)
  rw [parseTemplate_body hk]
  have hl : parseTmplLoop {} (.ident s :: r) = some ({}, .ident s :: r) := by
    rw [parseTmplLoop_eq, lead_none (by simp [NoBrack])]
  simp [parseTemplate.body, hl, parseSizing_flow h]

/-- The `grid` shorthand is read as the CSS grammar says: the two `auto-flow` forms always, the `grid-template` form
as in `C111_read_partial`. -/
theorem C112_read_partial (ts : List Tok) (g : GridV) (h : GridG ts g)
    (htemplate : ∀ t, TemplateG ts t → parseTemplate ts = some (t, [])) : parseGrid ts = some (g, []) := by
  cases h with
  | template ht => simp [parseGrid, htemplate _ ht, Flow.default]
  | @columns t1 rows t2 d t3 zs h1 h2 h3 =>
    obtain ⟨s, r, he, hw⟩ := AutoFlow_head h2 t3
    have hsz := parseSizing_complete h1 (r := .slash :: (t2 ++ t3)) (.inr ⟨_, rfl⟩)
    have htmpl : parseTemplate (t1 ++ .slash :: (t2 ++ t3)) = none := by
      cases h1 with
      | none hn => simp [parseTemplate, (kw_iff _ _).2 hn]
      | @list _ l hl =>
        have hni : ∀ s r, t1 ++ .slash :: (t2 ++ t3) = .ident s :: r → ¬ word s cs!"none" := by
          intro s r he
          cases ht : t1 with
          | nil => rw [ht] at he; cases he
          | cons a t1' => rw [ht] at he; cases he; exact TrackListG_not_none hl ht
        rw [parseTemplate_body hni]
        obtain ⟨st, r', hp, hc⟩ := parseTmplLoop_tracks hl (.slash :: (t2 ++ t3))
        simp only [parseTemplate.body, hp, Option.bind_some, hc, ne_eq, not_true_eq_false, if_false, hsz, slash_cons]
        rw [he, parseSizing_flow hw]
        rfl
    have hfl := parseAutoFlow_complete h2 true (X := t3) (by
      intro s r he hw
      have := OptSizes_head h3 (X := []) (.inl rfl) (by simpa using he) hw
      simp at this)
    have hsl := parseSizeList_opt h3 (r := []) (.inl rfl)
    rw [List.append_nil] at hsl
    simp [parseGrid, htmpl, hsz, slash_cons, hfl, hsl]
  | @rows t1 d t2 zs t3 cols h1 h2 h3 =>
    obtain ⟨s, r, he, hw⟩ := AutoFlow_head h1 (t2 ++ .slash :: t3)
    have htmpl : parseTemplate (t1 ++ (t2 ++ .slash :: t3)) = none := by rw [he]; exact parseTemplate_flow hw
    have hsz : parseSizing (t1 ++ (t2 ++ .slash :: t3)) = none := by rw [he]; exact parseSizing_flow hw
    have hfl := parseAutoFlow_complete h1 false (X := t2 ++ .slash :: t3) (by
      intro s r he hw
      have := OptSizes_head h2 (X := .slash :: t3) (.inr ⟨_, rfl⟩) he hw
      simp at this)
    have hsl := parseSizeList_opt h2 (r := .slash :: t3) (.inr ⟨_, rfl⟩)
    have hcl := parseSizing_complete h3 (r := []) (.inl rfl)
    rw [List.append_nil] at hcl
    simp [parseGrid, htmpl, hsz, hfl, hsl, slash_cons, hcl]

/-- `[a] 10px / auto-flow dense 2fr`. -/
example : GridG ([.brack [.ident cs!"a"], .len 10] ++ .slash :: ([.ident cs!"auto-flow", .ident cs!"dense"] ++ [.fr 2]))
    ⟨.list ⟨[[cs!"a"], []], [.size (.breadth (.length 10))]⟩, .none, .none, [], [.breadth (.flex 2)], ⟨true, true⟩⟩ ∧
    GridV.valid (.list ⟨[[cs!"a"], []], [.size (.breadth (.length 10))]⟩) .none .none [] [.breadth (.flex 2)] ⟨true, true⟩ = true := by
  refine ⟨.columns ?_ (.flowDense (by unfold word; decide) (by unfold word; decide)) (.some ?_), by decide +kernel⟩
  · exact (C110_read _ _).2 ⟨eval_parse (by decide +kernel), by intro i hi; simp at hi; subst hi; trivial⟩
  · exact .list (.cons (.breadth (.flex (by decide))) .nil) (by simp) (by simp)

end Verif.Grid
