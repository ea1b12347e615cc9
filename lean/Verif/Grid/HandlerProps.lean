import Verif.Grid.HandlerSpec
import Verif.Grid.GridProps
import Verif.Grid.LinesProps
import Mathlib.Data.List.Forall2
/-!
C113: collecting the grid declarations of a block into shorthands keeps the layout.
-/
namespace Verif.Grid
open Spec

theorem win_foldl (ds : List Sets) (l : LH) (acc : Option Val) :
    ds.foldl (fun acc d => (d l).or acc) acc = (win ds l).or acc := by
  induction ds generalizing acc with
  | nil => simp [win]
  | cons d ds ih =>
    simp only [List.foldl_cons, win]
    rw [ih, ih ((d l).or none)]
    simp [Option.or_assoc]

theorem win_append (a b : List Sets) (l : LH) : win (a ++ b) l = (win b l).or (win a l) := by
  simp only [win, List.foldl_append]
  exact win_foldl b l _

theorem win_cons (d : Sets) (ds : List Sets) (l : LH) : win (d :: ds) l = (win ds l).or (d l) := by
  have := win_append [d] ds l
  simpa [win] using this

@[simp] theorem win_nil (l : LH) : win [] l = none := rfl

/-- What the fields of the handler stand for. -/
def Handler.held (h : Handler) : Sets
  | .rows => h.rows.map .sizing
  | .columns => h.columns.map .sizing
  | .areas => h.areas.map .areas
  | .autoRows => h.autoRows.map .sizes
  | .autoColumns => h.autoColumns.map .sizes
  | .flow => h.flow.map .flow
  | .rowStart => h.rowStart.map .line
  | .rowEnd => h.rowEnd.map .line
  | .columnStart => h.columnStart.map .line
  | .columnEnd => h.columnEnd.map .line

/-- The fields of the handler hold values of the grammar, and there is nothing without `has_any`. -/
structure Handler.Ok (h : Handler) : Prop where
  rows : ∀ v, h.rows = some v → ∃ ts, SizingG ts v
  columns : ∀ v, h.columns = some v → ∃ ts, SizingG ts v
  areas : ∀ v, h.areas = some v → ∃ ts, AreasG ts v
  autoRows : ∀ v, h.autoRows = some v → ∃ ts, SizeListG ts v
  autoColumns : ∀ v, h.autoColumns = some v → ∃ ts, SizeListG ts v
  rowStart : ∀ v, h.rowStart = some v → v.Ok
  rowEnd : ∀ v, h.rowEnd = some v → v.Ok
  columnStart : ∀ v, h.columnStart = some v → v.Ok
  columnEnd : ∀ v, h.columnEnd = some v → v.Ok
  any : h.hasAny = false → ∀ l, h.held l = none

/-- Written out and read again. -/
def Written (ds : List Decl) (read : List Decl) : Prop :=
  ∃ texts, ds.mapM printDecl = some texts ∧ List.Forall₂ (fun (w : PropId × Text) d => DeclG w.1 w.2 d) texts read

theorem Written.nil : Written [] [] := ⟨[], rfl, .nil⟩

theorem Written.cons {d p t r ds rs} (h : printDecl d = some (p, t)) (hg : DeclG p t r) (hs : Written ds rs) : Written (d :: ds) (r :: rs) := by
  obtain ⟨texts, ht, hf⟩ := hs
  exact ⟨(p, t) :: texts, by simp [List.mapM_cons, h, ht], .cons hg hf⟩

theorem Written.append {a b ra rb} (ha : Written a ra) (hb : Written b rb) : Written (a ++ b) (ra ++ rb) := by
  obtain ⟨ta, h1, h2⟩ := ha
  obtain ⟨tb, h3, h4⟩ := hb
  exact ⟨ta ++ tb, by simp [List.mapM_append, h1, h3], List.rel_append h2 h4⟩

/-- A declaration that is read as itself. -/
def Faithful (d : Decl) : Prop := ∃ p t, printDecl d = some (p, t) ∧ DeclG p t d

theorem Written.of_faithful {ds : List Decl} (h : ∀ d ∈ ds, Faithful d) : Written ds ds := by
  induction ds with
  | nil => exact .nil
  | cons d ds ih =>
    obtain ⟨p, t, h1, h2⟩ := h d (by simp)
    exact .cons h1 h2 (ih fun d hd => h d (by simp [hd]))

theorem faithful_rows {v} (h : ∃ ts, SizingG ts v) : Faithful (.templateRows v) := ⟨_, _, rfl, .rows (C110_print _ _ h.choose_spec)⟩
theorem faithful_columns {v} (h : ∃ ts, SizingG ts v) : Faithful (.templateColumns v) := ⟨_, _, rfl, .columns (C110_print _ _ h.choose_spec)⟩
theorem faithful_areas {v} (h : ∃ ts, AreasG ts v) : Faithful (.templateAreas v) := ⟨_, _, rfl, .areas (C107_print true _ _ h.choose_spec)⟩
theorem faithful_autoRows {v} (h : ∃ ts, SizeListG ts v) : Faithful (.autoRows v) := ⟨_, _, rfl, .autoRows (C110_auto _ _ h.choose_spec).2⟩
theorem faithful_autoColumns {v} (h : ∃ ts, SizeListG ts v) : Faithful (.autoColumns v) := ⟨_, _, rfl, .autoColumns (C110_auto _ _ h.choose_spec).2⟩
theorem faithful_flow (v) : Faithful (.autoFlow v) := ⟨_, _, rfl, .flow (C109_print true v)⟩

theorem printLine_ok {l : Line} (h : l.Ok) : LineG (printLine l) l :=
  (C108_print ⟨l, .auto, .auto, .auto⟩ h trivial trivial trivial).2.2

theorem printPlacement_ok {a b : Line} (ha : a.Ok) (hb : b.Ok) : PlacementG (printPlacement a b) a b :=
  (C108_print ⟨a, .auto, b, .auto⟩ ha trivial hb trivial).2.1

/-- The written placement declarations. -/
theorem placement_written {h : Handler} (hok : h.Ok) :
    Written (finalizePlacement h) (finalizePlacement h) ∧
      ∀ l, win ((finalizePlacement h).map meaning) l =
        if l ∈ [LH.rowStart, .rowEnd, .columnStart, .columnEnd] then h.held l else none := by
  have h1 := hok.rowStart
  have h2 := hok.rowEnd
  have h3 := hok.columnStart
  have h4 := hok.columnEnd
  obtain ⟨rows, columns, areas, autoRows, autoColumns, flow, rs, cs, re, ce, any⟩ := h
  simp only at h1 h2 h3 h4
  constructor
  · apply Written.of_faithful
    intro d hd
    rcases rs with _ | rs <;> rcases re with _ | re <;> rcases cs with _ | cs <;> rcases ce with _ | ce <;>
      simp only [finalizePlacement, single, Option.toList, List.map_nil, List.map_cons, List.nil_append, List.append_nil, List.cons_append,
        List.mem_cons, List.not_mem_nil, or_false] at hd
    all_goals (try rcases hd with rfl | rfl | rfl | rfl)
    all_goals first
      | exact ⟨_, _, rfl, .area ((C108_print ⟨_, _, _, _⟩ (h1 _ rfl) (h3 _ rfl) (h2 _ rfl) (h4 _ rfl)).1)⟩
      | exact ⟨_, _, rfl, .row (printPlacement_ok (h1 _ rfl) (h2 _ rfl))⟩
      | exact ⟨_, _, rfl, .column (printPlacement_ok (h3 _ rfl) (h4 _ rfl))⟩
      | exact ⟨_, _, rfl, .rowStart (printLine_ok (h1 _ rfl))⟩
      | exact ⟨_, _, rfl, .rowEnd (printLine_ok (h2 _ rfl))⟩
      | exact ⟨_, _, rfl, .columnStart (printLine_ok (h3 _ rfl))⟩
      | exact ⟨_, _, rfl, .columnEnd (printLine_ok (h4 _ rfl))⟩
  · intro l
    rcases rs with _ | rs <;> rcases re with _ | re <;> rcases cs with _ | cs <;> rcases ce with _ | ce <;> cases l <;> rfl


theorem areas_pad {ts n cells} (h : AreasG ts (.areas n cells)) (k : Nat) :
    0 < n ∧ (∃ r, cells.length = r * n) ∧ ∃ ts', AreasG ts' (.areas n (cells ++ List.replicate (k * n) none)) := by
  generalize ha : Areas.areas n cells = a at h
  cases h with
  | none => cases ha
  | @areas columns ts css hg hne hn =>
    cases ha
    have hrow := RowsG.ok hg
    refine ⟨hn, ⟨css.length, flatten_length fun cs hc => (hrow cs hc).1⟩, ?_⟩
    have hrep : ∀ k, List.replicate (k * n) (none : Option Str) = (List.replicate k (List.replicate n none)).flatten := by
      intro k
      induction k with
      | zero => simp
      | succ k ih => rw [Nat.succ_mul, Nat.add_comm, List.replicate_add, ih]; simp [List.replicate_succ]
    rw [hrep, ← List.flatten_append]
    refine ⟨_, .areas (printRows_G true hn (css ++ List.replicate k (List.replicate n none)) ?_) (by simp [hne]) hn⟩
    intro cs hc
    rcases List.mem_append.1 hc with hc | hc
    · exact hrow cs hc
    · rw [List.mem_replicate] at hc
      rw [hc.2]
      exact ⟨by simp, fun c hc => by rw [(List.mem_replicate.1 hc).2]; simp [CellOk]⟩

/-- Padding areas that are not larger than the rows. -/
theorem padAreas_spec {rows : Sizing} {areas : Areas} (ha : ∃ ts, AreasG ts areas)
    (hr : ∀ l n cells, rows = .list l → areas = .areas n cells → cells.length ≤ l.items.length * n) :
    ∃ a', padAreas rows areas = some a' ∧ (∃ ts, AreasG ts a') ∧ (areas = .none ↔ a' = .none) ∧
      (areas ≠ .none → rows ≠ .none → a'.rowCount = rows.trackCount) ∧
      (a' = areas ∨ ∃ l n cells k, rows = .list l ∧ areas = .areas n cells ∧ a' = .areas n (cells ++ List.replicate (k * n) none) ∧
        (cells ++ List.replicate (k * n) none).length ≤ l.items.length * n) := by
  obtain ⟨ts, ha⟩ := ha
  cases rows with
  | none => exact ⟨areas, rfl, ⟨ts, ha⟩, Iff.rfl, by simp, .inl rfl⟩
  | list l =>
    cases areas with
    | none => exact ⟨.none, rfl, ⟨ts, ha⟩, Iff.rfl, by simp, .inl rfl⟩
    | areas n cells =>
      obtain ⟨hn, ⟨r, hlen⟩, hpad⟩ := areas_pad ha (l.items.length - cells.length / n)
      have hle := hr l n cells rfl rfl
      have hdiv : cells.length / n = r := by rw [hlen, Nat.mul_div_cancel _ hn]
      have hr' : r ≤ l.items.length := by rw [hlen] at hle; exact Nat.le_of_mul_le_mul_right hle hn
      have hne : n ≠ 0 := by omega
      simp only [padAreas, hne, if_false]
      by_cases hlt : cells.length / n < l.items.length
      · rw [if_pos hlt]
        have hl2 : (cells ++ List.replicate ((l.items.length - cells.length / n) * n) (none : Option Str)).length = l.items.length * n := by
          rw [List.length_append, List.length_replicate, hdiv, hlen, ← Nat.add_mul]
          congr 1
          omega
        refine ⟨_, rfl, hpad, by simp, ?_, .inr ⟨l, n, cells, _, rfl, rfl, rfl, Nat.le_of_eq hl2⟩⟩
        intro _ _
        simp only [Areas.rowCount, Sizing.trackCount, hl2]
        exact Nat.mul_div_cancel _ hn
      · rw [if_neg hlt]
        refine ⟨_, rfl, ⟨ts, ha⟩, Iff.rfl, ?_, .inl rfl⟩
        intro _ _
        simp only [Areas.rowCount, Sizing.trackCount]
        omega

/-- The template part keeps the six longhands. -/
def TemplateSame (h : Handler) (s : Sets) : Prop :=
  (∀ l ∈ [LH.rows, .columns, .autoRows, .autoColumns, .flow], s l = h.held l) ∧
    (∀ l ∈ [LH.rowStart, .rowEnd, .columnStart, .columnEnd], s l = none) ∧
    (s .areas = h.held .areas ∨
      ∃ l n cells k, h.rows = some (.list l) ∧ l.items.all Item.explicit = true ∧ h.areas = some (.areas n cells) ∧
        s .areas = some (.areas (.areas n (cells ++ List.replicate (k * n) none))) ∧
        (cells ++ List.replicate (k * n) none).length ≤ l.items.length * n ∧ h.columns ≠ none)

theorem singles_written {h : Handler} (hok : h.Ok) :
    let ds := single .templateRows h.rows ++ single .templateColumns h.columns ++ single .templateAreas h.areas ++
          single .autoRows h.autoRows ++ single .autoColumns h.autoColumns ++ single .autoFlow h.flow
    Written ds ds ∧ TemplateSame h (win (ds.map meaning)) := by
  intro ds
  constructor
  · apply Written.of_faithful
    intro d hd
    simp only [ds, single, List.mem_append, List.mem_map, Option.mem_toList] at hd
    rcases hd with ((((⟨v, hv, rfl⟩ | ⟨v, hv, rfl⟩) | ⟨v, hv, rfl⟩) | ⟨v, hv, rfl⟩) | ⟨v, hv, rfl⟩) | ⟨v, hv, rfl⟩
    · exact faithful_rows (hok.rows v hv)
    · exact faithful_columns (hok.columns v hv)
    · exact faithful_areas (hok.areas v hv)
    · exact faithful_autoRows (hok.autoRows v hv)
    · exact faithful_autoColumns (hok.autoColumns v hv)
    · exact faithful_flow v
  · clear hok
    simp only [ds]
    clear ds
    obtain ⟨rows, columns, areas, autoRows, autoColumns, flow, rs, cs, re, ce, any⟩ := h
    have key : ∀ l, win ((single Decl.templateRows rows ++ single .templateColumns columns ++ single .templateAreas areas ++
          single .autoRows autoRows ++ single .autoColumns autoColumns ++ single .autoFlow flow).map meaning) l =
        if l ∈ [LH.rowStart, .rowEnd, .columnStart, .columnEnd] then none
        else Handler.held ⟨rows, columns, areas, autoRows, autoColumns, flow, rs, cs, re, ce, any⟩ l := by
      intro l
      rcases rows with _ | rows <;> rcases columns with _ | columns <;> rcases areas with _ | areas <;> rcases autoRows with _ | autoRows <;>
        rcases autoColumns with _ | autoColumns <;> rcases flow with _ | flow <;> cases l <;> rfl
    refine ⟨?_, ?_, .inl ?_⟩
    · intro l hl
      simp only [List.mem_cons, List.not_mem_nil, or_false] at hl
      rcases hl with rfl | rfl | rfl | rfl | rfl <;> exact key _
    · intro l hl
      rw [key, if_pos hl]
    · exact key _

theorem asTemplate_written {h : Handler} (hok : h.Ok) {rows columns areas} (h1 : h.rows = some rows) (h2 : h.columns = some columns)
    (h3 : h.areas = some areas) (hr : ∀ l n cells, rows = .list l → areas = .areas n cells → cells.length ≤ l.items.length * n) :
    ∃ out read, (if Template.valid rows columns areas then (padAreas rows areas).map fun a => Decl.template ⟨rows, columns, a⟩ ::
        (single .autoRows h.autoRows ++ single .autoColumns h.autoColumns ++ single .autoFlow h.flow)
      else some (.templateRows rows :: .templateColumns columns :: .templateAreas areas ::
        (single .autoRows h.autoRows ++ single .autoColumns h.autoColumns ++ single .autoFlow h.flow))) = some out ∧
      Written out read ∧ TemplateSame h (win (read.map meaning)) := by
  by_cases hv : Template.valid rows columns areas = true
  · rw [if_pos hv]
    obtain ⟨a', hp, ha', hnone, hcount, hsame⟩ := padAreas_spec (hok.areas _ h3) hr
    have hv' : Template.valid rows columns a' = true := by
      simp only [Template.valid, Bool.or_eq_true, decide_eq_true_eq] at hv ⊢
      rcases hv with h | h
      · exact .inl (hnone.1 h)
      · exact .inr h
    have hg : GridV.Ok ⟨rows, columns, a', [], [], ⟨false, false⟩⟩ :=
      ⟨hok.rows _ h1, hok.columns _ h2, ha', ⟨_, .auto (t := .ident cs!"auto") (.breadth (.auto (by unfold word; decide)))⟩,
        ⟨_, .auto (t := .ident cs!"auto") (.breadth (.auto (by unfold word; decide)))⟩⟩
    obtain ⟨out, ho, htg⟩ := template_of_longhands hg hv' (by
      intro hne
      simp only at hne ⊢
      have hane : areas ≠ .none := fun h => hne (hnone.1 h)
      have : rows ≠ .none := by
        simp only [Template.valid, hane, decide_false, Bool.false_or, Bool.and_eq_true, decide_eq_true_eq] at hv
        exact hv.1.1
      exact hcount hane this)
    refine ⟨_, .template ⟨rows, columns, a'⟩ :: (single .autoRows h.autoRows ++ single .autoColumns h.autoColumns ++ single .autoFlow h.flow),
      by rw [hp]; rfl, .cons (p := .template) (t := .toks out) (by simp [printDecl, ho]) (.template htg) (Written.of_faithful ?_), ?_⟩
    · intro d hd
      simp only [single, List.mem_append, List.mem_map, Option.mem_toList] at hd
      rcases hd with (⟨v, hv, rfl⟩ | ⟨v, hv, rfl⟩) | ⟨v, hv, rfl⟩
      · exact faithful_autoRows (hok.autoRows v hv)
      · exact faithful_autoColumns (hok.autoColumns v hv)
      · exact faithful_flow v
    · have key : ∀ l, win ((Decl.template ⟨rows, columns, a'⟩ ::
          (single .autoRows h.autoRows ++ single .autoColumns h.autoColumns ++ single .autoFlow h.flow)).map meaning) l =
          if l ∈ [LH.rowStart, .rowEnd, .columnStart, .columnEnd] then none
          else if l = .areas then some (.areas a') else h.held l := by
        clear hsame hcount hp hr hok
        obtain ⟨rows, columns, areas, autoRows, autoColumns, flow, rs, cs, re, ce, any⟩ := h
        simp only at h1 h2 h3
        subst h1 h2 h3
        intro l
        rcases autoRows with _ | autoRows <;> rcases autoColumns with _ | autoColumns <;> rcases flow with _ | flow <;> cases l <;> rfl
      refine ⟨?_, ?_, ?_⟩
      · intro l hl
        simp only [List.mem_cons, List.not_mem_nil, or_false] at hl
        rcases hl with rfl | rfl | rfl | rfl | rfl <;> exact key _
      · intro l hl
        rw [key, if_pos hl]
      · have hk : win _ LH.areas = some (.areas a') := key .areas
        rw [hk]
        rcases hsame with rfl | ⟨l, n, cells, k, rfl, rfl, rfl, hle⟩
        · left; simp [Handler.held, h3]
        · right
          refine ⟨l, n, cells, k, h1, ?_, h3, rfl, hle, by simp [h2]⟩
          simp only [Template.valid, reduceCtorEq, decide_false, Bool.false_or, Bool.and_eq_true] at hv
          exact hv.1.2
  · rw [if_neg hv]
    have := singles_written hok
    simp only [h1, h2, h3, single, Option.toList, List.map_cons, List.map_nil, List.cons_append, List.nil_append] at this
    exact ⟨_, _, rfl, this.1, this.2⟩

theorem template_written {h : Handler} (hok : h.Ok) {rows columns areas} (h1 : h.rows = some rows) (h2 : h.columns = some columns)
    (h3 : h.areas = some areas) (hex : Expressible h.held) :
    ∃ out read, finalizeTemplate h rows columns areas = some out ∧ Written out read ∧ TemplateSame h (win (read.map meaning)) := by
  have hr : ∀ l n cells, rows = .list l → areas = .areas n cells → cells.length ≤ l.items.length * n := by
    rintro l n cells rfl rfl
    exact hex.rows l n cells (by simp [Handler.held, h1]) (by simp [Handler.held, h3]) (by simp [Handler.held, h2])
  have base := asTemplate_written hok h1 h2 h3 hr
  have other : (h.autoRows = none ∨ h.autoColumns = none ∨ h.flow = none) → finalizeTemplate h rows columns areas =
      (if Template.valid rows columns areas then (padAreas rows areas).map fun a => Decl.template ⟨rows, columns, a⟩ ::
        (single .autoRows h.autoRows ++ single .autoColumns h.autoColumns ++ single .autoFlow h.flow)
      else some (.templateRows rows :: .templateColumns columns :: .templateAreas areas ::
        (single .autoRows h.autoRows ++ single .autoColumns h.autoColumns ++ single .autoFlow h.flow))) := by
    intro hn
    rcases e1 : h.autoRows with _ | ar
    · simp only [finalizeTemplate, e1]
    · rcases e2 : h.autoColumns with _ | ac
      · simp only [finalizeTemplate, e1, e2]
      · rcases e3 : h.flow with _ | fl
        · simp only [finalizeTemplate, e1, e2, e3]
        · simp [e1, e2, e3] at hn
  rcases e1 : h.autoRows with _ | ar
  · rw [other (.inl e1)]; exact base
  rcases e2 : h.autoColumns with _ | ac
  · rw [other (.inr (.inl e2))]; exact base
  rcases e3 : h.flow with _ | fl
  · rw [other (.inr (.inr e3))]; exact base
  · simp only [finalizeTemplate, e1, e2, e3]
    by_cases hv : GridV.valid rows columns areas ar ac fl = true
    · rw [if_pos hv]
      have hauto : areas ≠ .none → rows = .none → ac = [] := by
        intro ha hrn
        subst hrn
        cases areas with
        | none => exact absurd rfl ha
        | areas n cells =>
          have hf : fl.column = false := by simpa [GridV.valid] using hv
          obtain ⟨c, d⟩ := fl
          simp only at hf
          subst hf
          exact hex.columns n cells ac d (by simp [Handler.held, h1]) (by simp [Handler.held, h3]) (by simp [Handler.held, h2])
            (by simp [Handler.held, e1]) (by simp [Handler.held, e2]) (by simp [Handler.held, e3])
      by_cases hsep : areas ≠ .none ∧ ((rows = .none ∧ fl.column = false) ∨ (columns = .none ∧ fl.column = true))
      · rw [if_pos hsep]
        have hg : GridV.Ok ⟨rows, columns, areas, ar, ac, fl⟩ := ⟨hok.rows _ h1, hok.columns _ h2, hok.areas _ h3, hok.autoRows _ e1, hok.autoColumns _ e2⟩
        obtain ⟨out, ho, hgg⟩ := C112_print_partial _ hg hv (by
          intro _ hrn hfc
          rcases hsep.2 with h | h
          · exact absurd h.1 hrn
          · simp only at hfc; rw [hfc] at h; cases h.2) hauto
        refine ⟨_, [.grid _, .templateAreas areas], rfl, .cons (p := .grid) (t := .toks out) (by simp [printDecl, ho]) (.grid hgg)
          (Written.of_faithful (by simpa using faithful_areas (hok.areas _ h3))), ?_⟩
        have hsh : GridV.shown ⟨rows, columns, areas, ar, ac, fl⟩ = ⟨rows, columns, .none, ar, ac, fl⟩ := by
          rw [GridV.shown, if_pos]
          exact ⟨hsep.1, hsep.2.imp And.left id⟩
        rw [hsh]
        have key : ∀ l, win ([Decl.grid ⟨rows, columns, .none, ar, ac, fl⟩, .templateAreas areas].map meaning) l =
            if l ∈ [LH.rowStart, .rowEnd, .columnStart, .columnEnd] then none else h.held l := by
          clear hok hex base
          obtain ⟨rows, columns, areas, autoRows, autoColumns, flow, rs, cs, re, ce, any⟩ := h
          simp only at h1 h2 h3 e1 e2 e3
          subst h1 h2 h3 e1 e2 e3
          intro l
          cases l <;> rfl
        refine ⟨?_, ?_, .inl (key _)⟩
        · intro l hl
          simp only [List.mem_cons, List.not_mem_nil, or_false] at hl
          rcases hl with rfl | rfl | rfl | rfl | rfl <;> exact key _
        · intro l hl
          rw [key, if_pos hl]
      · rw [if_neg hsep]
        obtain ⟨a', hp, ha', hnone, hcount, hsame⟩ := padAreas_spec (hok.areas _ h3) hr
        have hne : areas ≠ .none ↔ a' ≠ .none := not_congr hnone
        have hrn : areas ≠ .none → rows ≠ .none := by
          intro ha hr
          have hf : fl.column = false := by
            rw [GridV.valid, if_pos ⟨ha, hr⟩] at hv
            simpa using hv
          exact hsep ⟨ha, .inl ⟨hr, hf⟩⟩
        have hv' : GridV.valid rows columns a' ar ac fl = true := by
          have : ¬ (a' ≠ .none ∧ rows = .none) := fun h => hrn (hne.2 h.1) h.2
          have h' : ¬ (areas ≠ .none ∧ rows = .none) := fun h => hrn h.1 h.2
          rw [GridV.valid, if_neg h'] at hv
          rw [GridV.valid, if_neg this]
          have ht : Template.valid rows columns areas = Template.valid rows columns a' := by
            simp only [Template.valid, decide_eq_decide.2 hnone]
          rw [← ht]
          exact hv
        have hg : GridV.Ok ⟨rows, columns, a', ar, ac, fl⟩ := ⟨hok.rows _ h1, hok.columns _ h2, ha', hok.autoRows _ e1, hok.autoColumns _ e2⟩
        obtain ⟨out, ho, hgg⟩ := C112_print_partial _ hg hv' (fun ha hr _ => hcount (hne.2 ha) hr) (fun ha hr => hauto (hne.2 ha) hr)
        refine ⟨_, [.grid _], by rw [hp]; rfl, .cons (p := .grid) (t := .toks out) (by simp [printDecl, ho]) (.grid hgg) .nil, ?_⟩
        have hsh : GridV.shown ⟨rows, columns, a', ar, ac, fl⟩ = ⟨rows, columns, a', ar, ac, fl⟩ := by
          rw [GridV.shown, if_neg]
          rintro ⟨ha, h | h⟩
          · exact hrn (hne.2 ha) h
          · exact hsep ⟨hne.2 ha, .inr h⟩
        rw [hsh]
        have key : ∀ l, win ([Decl.grid ⟨rows, columns, a', ar, ac, fl⟩].map meaning) l =
            if l ∈ [LH.rowStart, .rowEnd, .columnStart, .columnEnd] then none else if l = .areas then some (.areas a') else h.held l := by
          clear hsame hcount hp hr hok hex base
          obtain ⟨rows, columns, areas, autoRows, autoColumns, flow, rs, cs, re, ce, any⟩ := h
          simp only at h1 h2 h3 e1 e2 e3
          subst h1 h2 h3 e1 e2 e3
          intro l
          cases l <;> rfl
        refine ⟨?_, ?_, ?_⟩
        · intro l hl
          simp only [List.mem_cons, List.not_mem_nil, or_false] at hl
          rcases hl with rfl | rfl | rfl | rfl | rfl <;> exact key _
        · intro l hl
          rw [key, if_pos hl]
        · have hk : win _ LH.areas = some (.areas a') := key .areas
          rw [hk]
          rcases hsame with rfl | ⟨l, n, cells, k, rfl, rfl, rfl, hle⟩
          · left; simp [Handler.held, h3]
          · by_cases hex : l.items.all Item.explicit = true
            · exact .inr ⟨l, n, cells, k, h1, hex, h3, rfl, hle, by simp [h2]⟩
            · exfalso
              simp only [GridV.valid, Template.valid, Sizing.explicit, hex] at hv
              simp only [ne_eq, reduceCtorEq, not_false_eq_true, and_false, if_false, Bool.and_false, Bool.false_and, decide_false, Bool.or_false,
                Bool.false_or, Bool.and_eq_true, decide_eq_true_eq, not_true_eq_false] at hv
              exact hsep ⟨by simp, .inr ⟨hv.1.2, hv.1.1⟩⟩
    · rw [if_neg hv]
      simp only [e1, e2, e3, single, Option.toList, List.map_cons, List.map_nil, List.cons_append, List.nil_append] at base
      exact base

/-- One flush of the collected values. -/
theorem finalize_written {h : Handler} (hok : h.Ok) (hex : Expressible h.held) :
    ∃ out read, h.finalize = some out ∧ Written out read ∧ SameLayout h.held (win (read.map meaning)) ∧
      (h.held .columns = none → win (read.map meaning) .areas = h.held .areas) := by
  by_cases hany : h.hasAny = false
  · refine ⟨[], [], by simp [Handler.finalize, hany], .nil, ?_⟩
    have := hok.any hany
    exact ⟨⟨fun l _ => (this l).symm, .inl (this _).symm⟩, fun _ => (this _).symm⟩
  · have htemplate : ∃ out read, finalizeTracks h = some out ∧ Written out read ∧ TemplateSame h (win (read.map meaning)) := by
      unfold finalizeTracks
      split
      · next e1 e2 e3 => exact template_written hok e1 e2 e3 hex
      · exact ⟨_, _, rfl, (singles_written hok).1, (singles_written hok).2⟩
    obtain ⟨out, read, ho, hw, hs⟩ := htemplate
    obtain ⟨hpw, hps⟩ := placement_written hok
    refine ⟨out ++ finalizePlacement h, read ++ finalizePlacement h, ?_, hw.append hpw, ⟨?_, ?_⟩, ?_⟩
    · simp [Handler.finalize, hany, ho]
    · intro l hl
      rw [List.map_append, win_append, hps]
      by_cases hm : l ∈ [LH.rowStart, .rowEnd, .columnStart, .columnEnd]
      · rw [if_pos hm, hs.2.1 l hm]
        simp
      · rw [if_neg hm, Option.none_or]
        apply hs.1
        cases l <;> simp at hl hm ⊢
    · rw [List.map_append, win_append, hps]
      have hm : LH.areas ∉ [LH.rowStart, .rowEnd, .columnStart, .columnEnd] := by decide
      rw [if_neg hm, Option.none_or]
      rcases hs.2.2 with h | ⟨l, n, cells, k, e1, e2, e3, e4, e5, _⟩
      · exact .inl h
      · right
        obtain ⟨names, items⟩ := l
        obtain ⟨zs, rfl⟩ := explicit_sizes e2
        exact ⟨names, zs, n, cells, k, by simp [Handler.held, e1], by simp [Handler.held, e3], e4, by simpa using e5⟩
    · intro hc
      rw [List.map_append, win_append, hps]
      have hm : LH.areas ∉ [LH.rowStart, .rowEnd, .columnStart, .columnEnd] := by decide
      rw [if_neg hm, Option.none_or]
      rcases hs.2.2 with h | ⟨l, n, cells, k, _, _, _, _, _, hne⟩
      · exact h
      · exact absurd (by simpa [Handler.held] using hc) hne

theorem PlacementG.ok {ts a b} (h : PlacementG ts a b) : a.Ok ∧ b.Ok := by
  cases h with
  | one h e =>
    refine ⟨LineG.ok h, ?_⟩
    cases e with
    | area => exact LineG.ok h
    | other => trivial
  | two h h2 => exact ⟨LineG.ok h, LineG.ok h2⟩

theorem EndG.ok {a b} (h : EndG a b) (ha : a.Ok) : b.Ok := by
  cases h with
  | area => exact ha
  | other => trivial

theorem AreaG.ok {ts a} (h : AreaG ts a) : a.rowStart.Ok ∧ a.rowEnd.Ok ∧ a.columnStart.Ok ∧ a.columnEnd.Ok := by
  cases h with
  | one h e => exact ⟨LineG.ok h, EndG.ok e (LineG.ok h), EndG.ok e (LineG.ok h), EndG.ok e (LineG.ok h)⟩
  | two h h2 e e2 => exact ⟨LineG.ok h, EndG.ok e (LineG.ok h), LineG.ok h2, EndG.ok e2 (LineG.ok h2)⟩
  | three h h2 h3 e => exact ⟨LineG.ok h, LineG.ok h3, LineG.ok h2, EndG.ok e (LineG.ok h2)⟩
  | four h h2 h3 h4 => exact ⟨LineG.ok h, LineG.ok h3, LineG.ok h2, LineG.ok h4⟩

theorem AreaRowsG.legit {n pend ts nss zs css} (hp : ∀ x ∈ pend, Custom x) (hn : 0 < n) (h : AreaRowsG n pend ts nss zs css) (hz : zs ≠ []) :
    (∃ ts, SizingG ts (.list ⟨nss, zs.map .size⟩)) ∧ ∃ ts, AreasG ts (.areas n css.flatten) := by
  have hok := AreaRowsG.ok hp h
  constructor
  · refine ⟨printTracks printItem nss (zs.map .size), .list ⟨printTracks_G _ _ (by simpa using hok.names) hok.custom ?_, by simpa using hz⟩⟩
    intro x hx
    obtain ⟨z, hz, rfl⟩ := List.mem_map.1 hx
    exact .size (printSize_G (hok.sizes z hz))
  · refine ⟨_, .areas (printRows_G true hn css hok.rows) ?_ hn⟩
    rintro rfl
    have := hok.cells
    exact hz (List.length_eq_zero_iff.1 this.symm)

theorem TemplateG.legit {ts t} (h : TemplateG ts t) : (∃ ts, SizingG ts t.rows) ∧ (∃ ts, SizingG ts t.columns) ∧ ∃ ts, AreasG ts t.areas := by
  have hnone : ∃ ts, SizingG ts .none := ⟨[.ident cs!"none"], .none (by unfold word; decide)⟩
  have hnone' : ∃ ts, AreasG ts .none := ⟨[.ident cs!"none"], .none (by unfold word; decide)⟩
  cases h with
  | none => exact ⟨hnone, hnone, hnone'⟩
  | tracks h1 h2 => exact ⟨⟨_, h1⟩, ⟨_, h2⟩, hnone'⟩
  | areas h hz hn hc =>
    have := AreaRowsG.legit (by simp) hn h hz
    refine ⟨this.1, ?_, this.2⟩
    cases hc with
    | none => exact hnone
    | list hl => exact ⟨_, .list hl⟩

theorem auto_legit : ∃ ts, SizeListG ts [] := ⟨_, .auto (t := .ident cs!"auto") (.breadth (.auto (by unfold word; decide)))⟩

theorem OptSizesG.legit {ts zs} (h : OptSizesG ts zs) : ∃ ts, SizeListG ts zs := by
  cases h with
  | none => exact auto_legit
  | some h => exact ⟨_, h⟩

theorem GridG.legit {ts g} (h : GridG ts g) : g.Ok := by
  have hnone : ∃ ts, SizingG ts .none := ⟨[.ident cs!"none"], .none (by unfold word; decide)⟩
  have hnone' : ∃ ts, AreasG ts .none := ⟨[.ident cs!"none"], .none (by unfold word; decide)⟩
  cases h with
  | template h => exact ⟨(TemplateG.legit h).1, (TemplateG.legit h).2.1, (TemplateG.legit h).2.2, auto_legit, auto_legit⟩
  | columns h _ h2 => exact ⟨⟨_, h⟩, hnone, hnone', auto_legit, OptSizesG.legit h2⟩
  | rows _ h2 h => exact ⟨hnone, ⟨_, h⟩, hnone', OptSizesG.legit h2, auto_legit⟩

/-- A parsed declaration only updates the fields. -/
theorem handle_parsed {h : Handler} (hok : h.Ok) {d : Decl} (hd : Legit d) (hp : ¬ IsUnparsed d) :
    ∃ h', h.handle d = some (h', []) ∧ h'.Ok ∧ ∀ l, h'.held l = (meaning d l).or (h.held l) := by
  obtain ⟨p, text, hd⟩ := hd
  cases hd with
  | raw => exact absurd ⟨_, _, rfl⟩ hp
  | rows g => exact ⟨_, rfl, { hok with rows := by rintro v ⟨⟩; exact ⟨_, g⟩, any := by simp }, by intro l; cases l <;> rfl⟩
  | columns g => exact ⟨_, rfl, { hok with columns := by rintro v ⟨⟩; exact ⟨_, g⟩, any := by simp }, by intro l; cases l <;> rfl⟩
  | areas g => exact ⟨_, rfl, { hok with areas := by rintro v ⟨⟩; exact ⟨_, g⟩, any := by simp }, by intro l; cases l <;> rfl⟩
  | autoRows g => exact ⟨_, rfl, { hok with autoRows := by rintro v ⟨⟩; exact ⟨_, g⟩, any := by simp }, by intro l; cases l <;> rfl⟩
  | autoColumns g => exact ⟨_, rfl, { hok with autoColumns := by rintro v ⟨⟩; exact ⟨_, g⟩, any := by simp }, by intro l; cases l <;> rfl⟩
  | flow g => exact ⟨_, rfl, { hok with any := by simp }, by intro l; cases l <;> rfl⟩
  | template g =>
    exact ⟨_, rfl, { hok with
      rows := by rintro v ⟨⟩; exact (TemplateG.legit g).1
      columns := by rintro v ⟨⟩; exact (TemplateG.legit g).2.1
      areas := by rintro v ⟨⟩; exact (TemplateG.legit g).2.2
      any := by simp }, by intro l; cases l <;> rfl⟩
  | grid g =>
    exact ⟨_, rfl, { hok with
      rows := by rintro v ⟨⟩; exact (GridG.legit g).rows
      columns := by rintro v ⟨⟩; exact (GridG.legit g).columns
      areas := by rintro v ⟨⟩; exact (GridG.legit g).areas
      autoRows := by rintro v ⟨⟩; exact (GridG.legit g).autoRows
      autoColumns := by rintro v ⟨⟩; exact (GridG.legit g).autoColumns
      any := by simp }, by intro l; cases l <;> rfl⟩
  | rowStart g => exact ⟨_, rfl, { hok with rowStart := by rintro v ⟨⟩; exact LineG.ok g, any := by simp }, by intro l; cases l <;> rfl⟩
  | rowEnd g => exact ⟨_, rfl, { hok with rowEnd := by rintro v ⟨⟩; exact LineG.ok g, any := by simp }, by intro l; cases l <;> rfl⟩
  | columnStart g => exact ⟨_, rfl, { hok with columnStart := by rintro v ⟨⟩; exact LineG.ok g, any := by simp }, by intro l; cases l <;> rfl⟩
  | columnEnd g => exact ⟨_, rfl, { hok with columnEnd := by rintro v ⟨⟩; exact LineG.ok g, any := by simp }, by intro l; cases l <;> rfl⟩
  | row g =>
    exact ⟨_, rfl, { hok with
      rowStart := by rintro v ⟨⟩; exact (PlacementG.ok g).1
      rowEnd := by rintro v ⟨⟩; exact (PlacementG.ok g).2
      any := by simp }, by intro l; cases l <;> rfl⟩
  | column g =>
    exact ⟨_, rfl, { hok with
      columnStart := by rintro v ⟨⟩; exact (PlacementG.ok g).1
      columnEnd := by rintro v ⟨⟩; exact (PlacementG.ok g).2
      any := by simp }, by intro l; cases l <;> rfl⟩
  | area g =>
    exact ⟨_, rfl, { hok with
      rowStart := by rintro v ⟨⟩; exact (AreaG.ok g).1
      rowEnd := by rintro v ⟨⟩; exact (AreaG.ok g).2.1
      columnStart := by rintro v ⟨⟩; exact (AreaG.ok g).2.2.1
      columnEnd := by rintro v ⟨⟩; exact (AreaG.ok g).2.2.2
      any := by simp }, by intro l; cases l <;> rfl⟩

theorem empty_ok (b : Bool) : Handler.Ok { hasAny := b } :=
  ⟨by simp, by simp, by simp, by simp, by simp, by simp, by simp, by simp, by simp, by intro _ l; cases l <;> rfl⟩

theorem run_written {ds : List Decl} (hl : ∀ d ∈ ds, Legit d) (hp : ∀ d ∈ ds, ¬ IsUnparsed d) {h : Handler} (hok : h.Ok)
    (hex : Expressible fun l => (win (ds.map meaning) l).or (h.held l)) :
    ∃ out read, handleGrid h ds = some out ∧ Written out read ∧
      SameLayout (fun l => (win (ds.map meaning) l).or (h.held l)) (win (read.map meaning)) := by
  induction ds generalizing h with
  | nil =>
    simp only [List.map_nil, win_nil, Option.none_or] at hex ⊢
    obtain ⟨out, read, h1, h2, h3, _⟩ := finalize_written hok hex
    exact ⟨out, read, h1, h2, h3⟩
  | cons d ds ih =>
    obtain ⟨h', e, hok', hheld⟩ := handle_parsed hok (hl d (by simp)) (hp d (by simp))
    have hw : (fun l => (win ((d :: ds).map meaning) l).or (h.held l)) = fun l => (win (ds.map meaning) l).or (h'.held l) := by
      funext l
      rw [List.map_cons, win_cons, hheld, Option.or_assoc]
    rw [hw] at hex ⊢
    obtain ⟨out, read, e2, hwr, hs⟩ := ih (fun d hd => hl d (by simp [hd])) (fun d hd => hp d (by simp [hd])) hok' hex
    exact ⟨out, read, by simp [handleGrid, e, e2], hwr, hs⟩

/-- For every list of grid declarations without unparsed values, in every order and with every mix of longhands and
shorthands: the declarations that are written, read by the CSS grammar, give the same layout, when the combination of
values that wins does not contain areas with more rows than row tracks, or areas without row tracks but with implicit
columns. -/
theorem C113_run_partial (ds : List Decl) (hl : ∀ d ∈ ds, Legit d) (hp : ∀ d ∈ ds, ¬ IsUnparsed d)
    (hex : Expressible (win (ds.map meaning))) :
    ∃ out texts read, handleGrid {} ds = some out ∧ out.mapM printDecl = some texts ∧
      List.Forall₂ (fun (w : PropId × Text) d => DeclG w.1 w.2 d) texts read ∧
      SameLayout (win (ds.map meaning)) (win (read.map meaning)) := by
  have he : (fun l => (win (ds.map meaning) l).or (Handler.held {} l)) = win (ds.map meaning) := by
    funext l
    cases l <;> exact Option.or_none
  obtain ⟨out, read, h1, ⟨texts, h2, h3⟩, h4⟩ := run_written hl hp (empty_ok false) (by rw [he]; exact hex)
  rw [he] at h4
  exact ⟨out, texts, read, h1, h2, h3, h4⟩

/-- The condition on every run of declarations between unparsed values. -/
def Good (w : Sets) : Prop := Expressible w ∧ FullAreas w

/-- `Good` for the run that is being collected and all later ones. -/
def Runs : Sets → List Decl → Prop
  | w, [] => Good w
  | w, .unparsed _ _ :: ds => Good w ∧ Runs (fun _ => none) ds
  | w, d :: ds => Runs (fun l => (meaning d l).or (w l)) ds

theorem runs_cons {w d ds} (hp : ¬ IsUnparsed d) : Runs w (d :: ds) = Runs (fun l => (meaning d l).or (w l)) ds := by
  cases d
  all_goals first
    | rfl
    | exact absurd ⟨_, _, rfl⟩ hp

theorem runs_of_maximal {ds0 : List Decl} (h : ∀ pre run post, ds0 = pre ++ run ++ post →
      (pre = [] ∨ ∃ pre' u, pre = pre' ++ [u] ∧ IsUnparsed u) → (post = [] ∨ ∃ u post', post = u :: post' ∧ IsUnparsed u) →
      (∀ d ∈ run, ¬ IsUnparsed d) → Good (win (run.map meaning))) (ds : List Decl) :
    ∀ pre cur, ds0 = pre ++ cur ++ ds → (pre = [] ∨ ∃ pre' u, pre = pre' ++ [u] ∧ IsUnparsed u) → (∀ d ∈ cur, ¬ IsUnparsed d) →
      Runs (win (cur.map meaning)) ds := by
  induction ds with
  | nil => intro pre cur he hpre hcur; exact h pre cur [] he hpre (.inl rfl) hcur
  | cons d ds ih =>
    intro pre cur he hpre hcur
    by_cases hp : IsUnparsed d
    · obtain ⟨p, n, rfl⟩ := hp
      refine ⟨h pre cur (.unparsed p n :: ds) he hpre (.inr ⟨_, _, rfl, p, n, rfl⟩) hcur, ?_⟩
      exact ih (pre ++ cur ++ [.unparsed p n]) [] (by simp [he]) (.inr ⟨_, _, rfl, p, n, rfl⟩) (by simp)
    · rw [runs_cons hp]
      have := ih pre (cur ++ [d]) (by simp [he]) hpre (by
        intro x hx
        rcases List.mem_append.1 hx with hx | hx
        · exact hcur x hx
        · rw [List.mem_singleton.1 hx]; exact hp)
      have hw : win ((cur ++ [d]).map meaning) = fun l => (meaning d l).or (win (cur.map meaning) l) := by
        funext l
        rw [List.map_append, win_append]
        simp [win]
      rw [hw] at this
      exact this

theorem same_of_full {w s : Sets} (hf : FullAreas w) (hc : w .columns ≠ none) (h : SameLayout w s) : s = w := by
  funext l
  by_cases hl : l = .areas
  · subst hl
    rcases h.2 with h | ⟨names, sizes, n, cells, k, h1, h2, h3, h4⟩
    · exact h
    · have := hf ⟨names, sizes.map .size⟩ n cells h1 h2 hc
      simp only [List.length_map] at this
      rw [List.length_append, List.length_replicate, this] at h4
      have hz : k * n = 0 := by omega
      rw [hz] at h3
      simpa [h2] using h3
  · exact h.1 l hl

theorem finalize_exact {h : Handler} (hok : h.Ok) (hg : Good h.held) :
    ∃ out read, h.finalize = some out ∧ Written out read ∧ win (read.map meaning) = h.held := by
  obtain ⟨out, read, h1, h2, h3, h4⟩ := finalize_written hok hg.1
  refine ⟨out, read, h1, h2, ?_⟩
  by_cases hc : h.held .columns = none
  · funext l
    by_cases hl : l = .areas
    · subst hl; exact h4 hc
    · exact h3.1 l hl
  · exact same_of_full hg.2 hc h3

theorem lists_written {ds : List Decl} (hl : ∀ d ∈ ds, Legit d) {h : Handler} (hok : h.Ok) (hr : Runs h.held ds) :
    ∃ out read, handleGrid h ds = some out ∧ Written out read ∧
      ∀ l, win (read.map meaning) l = (win (ds.map meaning) l).or (h.held l) := by
  induction ds generalizing h with
  | nil =>
    obtain ⟨out, read, h1, h2, h3⟩ := finalize_exact hok hr
    exact ⟨out, read, h1, h2, by intro l; simp [h3]⟩
  | cons d ds ih =>
    by_cases hp : IsUnparsed d
    · obtain ⟨p, n, rfl⟩ := hp
      obtain ⟨hg, hr⟩ := hr
      obtain ⟨out, read, h1, h2, h3⟩ := finalize_exact hok hg
      have he : Handler.held { hasAny := true } = fun _ => none := by funext l; cases l <;> rfl
      obtain ⟨out', read', e1, e2, e3⟩ := ih (fun d hd => hl d (by simp [hd])) (empty_ok true) (by rw [he]; exact hr)
      refine ⟨out ++ [.unparsed p n] ++ out', read ++ [.unparsed p n] ++ read', ?_, (h2.append (.cons rfl .raw .nil)).append e2, ?_⟩
      · simp [handleGrid, Handler.handle, h1, e1]
      · intro l
        rw [List.map_append, win_append, e3, he, Option.or_none, List.map_append, win_append, h3, List.map_cons (l := ds), win_cons, Option.or_assoc]
        simp [win]
    · obtain ⟨h', e, hok', hheld⟩ := handle_parsed hok (hl d (by simp)) hp
      rw [runs_cons hp] at hr
      have hw : (fun l => (meaning d l).or (h.held l)) = h'.held := by funext l; rw [hheld]
      rw [hw] at hr
      obtain ⟨out, read, e2, hwr, hs⟩ := ih (fun d hd => hl d (by simp [hd])) hok' hr
      refine ⟨out, read, by simp [handleGrid, e, e2], hwr, ?_⟩
      intro l
      rw [hs, hheld, List.map_cons, win_cons, Option.or_assoc]

/-- For every list of grid declarations, with unparsed values anywhere: every longhand gets the same value, when in
every run of declarations between unparsed values the combination that wins does not contain areas with more or less
rows than row tracks, or areas without row tracks but with implicit columns. -/
theorem C113_partial (ds : List Decl) (hl : ∀ d ∈ ds, Legit d)
    (hex : ∀ pre run post, ds = pre ++ run ++ post →
      (pre = [] ∨ ∃ pre' u, pre = pre' ++ [u] ∧ IsUnparsed u) → (post = [] ∨ ∃ u post', post = u :: post' ∧ IsUnparsed u) →
      (∀ d ∈ run, ¬ IsUnparsed d) → Expressible (win (run.map meaning)) ∧ FullAreas (win (run.map meaning))) :
    ∃ out texts read, handleGrid {} ds = some out ∧ out.mapM printDecl = some texts ∧
      List.Forall₂ (fun (w : PropId × Text) d => DeclG w.1 w.2 d) texts read ∧
      ∀ l, win (read.map meaning) l = win (ds.map meaning) l := by
  have he : Handler.held {} = fun _ => none := by funext l; cases l <;> rfl
  have hr := runs_of_maximal hex ds [] [] rfl (.inl rfl) (by simp)
  obtain ⟨out, read, h1, ⟨texts, h2, h3⟩, h4⟩ := lists_written hl (h := {}) (empty_ok false) (by rw [he]; exact hr)
  refine ⟨out, texts, read, h1, h2, h3, ?_⟩
  intro l
  rw [h4, he, Option.or_none]

/-- One track `1fr`. -/
def oneFr : Sizing := .list ⟨[[], []], [.size (.breadth (.flex 1))]⟩

theorem oneFr_G : SizingG [.fr 1] oneFr :=
  (C110_read [.fr 1] oneFr).2 ⟨eval_parse (by decide +kernel), by intro i hi; simp at hi; subst hi; trivial⟩

/-- `grid-template-rows: 1fr; grid-template-areas: "a"; grid-template-columns: 1fr; grid-row: 2 / 3` is within the
hypotheses and becomes `grid-template: "a" 1fr / 1fr; grid-row: 2 / 3`. -/
example : let ds : List Decl := [.templateRows oneFr, .templateAreas (.areas 1 [some cs!"a"]), .templateColumns oneFr, .row (.line 2 none) (.line 3 none)]
    (∀ d ∈ ds, Legit d) ∧ (∀ d ∈ ds, ¬ IsUnparsed d) ∧ Expressible (win (ds.map meaning)) ∧ FullAreas (win (ds.map meaning)) ∧
    handleGrid {} ds = some [.template ⟨oneFr, oneFr, .areas 1 [some cs!"a"]⟩, .row (.line 2 none) (.line 3 none)] := by
  intro ds
  have h : FullAreas (win (ds.map meaning)) := by
    intro l n cells h1 h2 _
    have h1' : some (Val.sizing oneFr) = some (.sizing (.list l)) := h1
    have h2' : some (Val.areas (.areas 1 [some cs!"a"])) = some (.areas (.areas n cells)) := h2
    cases h1'
    cases h2'
    rfl
  refine ⟨?_, ?_, ⟨?_, ?_⟩, h, by rfl⟩
  · intro d hd
    simp only [ds, List.mem_cons, List.not_mem_nil, or_false] at hd
    rcases hd with rfl | rfl | rfl | rfl
    · exact ⟨_, _, .rows oneFr_G⟩
    · exact ⟨_, _, .areas ((C107_read [.str cs!"a"] _ (by simp)).1 (eval_parse (by decide +kernel)))⟩
    · exact ⟨_, _, .columns oneFr_G⟩
    · exact ⟨_, _, .row (.two (.int (by decide)) (.int (by decide)))⟩
  · intro d hd
    simp only [ds, List.mem_cons, List.not_mem_nil, or_false] at hd
    rcases hd with rfl | rfl | rfl | rfl <;> rintro ⟨_, _, ⟨⟩⟩
  · intro l n cells h1 h2 hc
    exact Nat.le_of_eq (h l n cells h1 h2 hc)
  · intro n cells zs d h1 _ _ _ _ _
    have h1' : some (Val.sizing oneFr) = some (.sizing .none) := h1
    cases h1'

/-- An empty `grid-template-areas:` is accepted and makes the minifier panic (division by zero). -/
theorem C113_empty_areas : (parseAreas []).isSome = true ∧
    handleGrid {} [.templateRows oneFr, .templateAreas (.areas 0 []), .templateColumns oneFr] = none := ⟨rfl, rfl⟩

/-- Areas with more rows than row tracks: `grid-auto-rows: 10px; grid-template-rows: 1fr; grid-template-areas: "a" "b";
grid-template-columns: 1fr` becomes `grid-template: "a" 1fr "b" / 1fr; grid-auto-rows: 10px`, where the second row is
`auto` instead of `10px`. -/
theorem C113_more_rows : ∃ out,
    handleGrid {} [.autoRows [.breadth (.length 10)], .templateRows oneFr, .templateAreas (.areas 1 [some cs!"a", some cs!"b"]), .templateColumns oneFr] =
      some out ∧
    (out.mapM printDecl).map (fun ts => ts.head?) =
      some (some (.template, .toks [.str cs!"a", .fr 1, .str cs!"b", .slash, .fr 1])) ∧
    ∃ cols areas, TemplateG [.str cs!"a", .fr 1, .str cs!"b", .slash, .fr 1]
      ⟨.list ⟨[[], [], []], [.size (.breadth (.flex 1)), .size (.breadth .auto)]⟩, cols, areas⟩ := by
  refine ⟨_, rfl, by with_unfolding_all rfl, .list ⟨[[], []], [.size (.breadth (.flex 1))]⟩, .areas 1 [some cs!"a", some cs!"b"], ?_⟩
  have hcell : ∀ c, NameChar c → CellsG [c] [some [c]] := by
    intro c hc
    exact CellsG.name (w := [c]) (s := []) (by simp) (by simpa using hc) (by simp) .nil
  refine TemplateG.areas (columns := 1) (t1 := [.str cs!"a", .fr 1, .str cs!"b"]) (zs := [.breadth (.flex 1), .breadth .auto])
    (css := [[some cs!"a"], [some cs!"b"]]) (t2 := [.slash, .fr 1]) ?_ (by simp) (by decide) ?_
  · refine AreaRowsG.cons (t1 := []) (before := []) (t2 := [.fr 1]) (t3 := []) (after := []) (ts := [.str cs!"b"]) .none
      (hcell 'a' (by unfold NameChar; decide)) rfl (.size (.breadth (.flex (by decide)))) .none ?_
    exact AreaRowsG.cons (t1 := []) (before := []) (t2 := []) (t3 := []) (after := []) (ts := []) .none
      (hcell 'b' (by unfold NameChar; decide)) rfl .auto .none .nil
  · exact .list (SizingG_list oneFr_G) (by simp)

/-- The implicit columns are lost: `grid-template-rows: none; grid-template-columns: 1fr; grid-template-areas: "a";
grid-auto-rows: auto; grid-auto-columns: 5px; grid-auto-flow: row` becomes
`grid: auto-flow / 1fr; grid-template-areas: "a"`, which sets `grid-auto-columns` to `auto`. -/
theorem C113_auto_columns : ∃ out,
    handleGrid {} [.templateRows .none, .templateColumns oneFr, .templateAreas (.areas 1 [some cs!"a"]), .autoRows [],
      .autoColumns [.breadth (.length 5)], .autoFlow ⟨false, false⟩] = some out ∧
    out.mapM printDecl = some [(.grid, .toks [.ident cs!"auto-flow", .slash, .fr 1]), (.templateAreas, .toks [.str cs!"a"])] ∧
    GridG [.ident cs!"auto-flow", .slash, .fr 1] ⟨.none, oneFr, .none, [], [], ⟨false, false⟩⟩ :=
  ⟨_, rfl, by with_unfolding_all rfl, C112_auto_columns_lost.2.2⟩

/-- Three tracks `1fr`. -/
def threeFr : Sizing := .list ⟨[[], [], [], []], [.size (.breadth (.flex 1)), .size (.breadth (.flex 1)), .size (.breadth (.flex 1))]⟩

/-- The null rows added to the areas stay when the rows are overridden after an unparsed value:
`grid-template-rows: 1fr 1fr 1fr; grid-template-areas: "a"; grid-template-columns: 1fr; grid-auto-flow: var(--x);
grid-template-rows: none` has one explicit row before and three after. -/
theorem C113_padding_stays : ∃ out,
    handleGrid {} [.templateRows threeFr, .templateAreas (.areas 1 [some cs!"a"]), .templateColumns oneFr, .unparsed .autoFlow 0, .templateRows .none] =
      some out ∧
    win (out.map meaning) .areas = some (.areas (.areas 1 [some cs!"a", none, none])) ∧
    win (out.map meaning) .rows = some (.sizing .none) ∧
    ¬ SameLayout (win ([Decl.templateRows threeFr, .templateAreas (.areas 1 [some cs!"a"]), .templateColumns oneFr, .unparsed .autoFlow 0,
        .templateRows .none].map meaning)) (win (out.map meaning)) := by
  refine ⟨_, rfl, by rfl, by rfl, ?_⟩
  rintro ⟨_, h | ⟨names, sizes, n, cells, k, h, _⟩⟩
  · have h' : some (Val.areas (.areas 1 [some cs!"a", none, none])) = some (.areas (.areas 1 [some cs!"a"])) := h
    cases h'
  · have h' : some (Val.sizing .none) = some (Val.sizing (.list ⟨names, sizes.map Item.size⟩)) := h
    cases h'

end Verif.Grid
