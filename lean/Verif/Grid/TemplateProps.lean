import Verif.Grid.LinesProps
/-! The `grid-template` shorthand (C111). -/
namespace Verif.Grid
open Spec

/-! ### Printing -/

theorem printLeadNames_eq (m : Bool) (ns : List Str) (h : m = true ∨ ns.length ≠ 2) : printLeadNames m ns = printNames ns := by
  unfold printLeadNames
  split
  · rcases h with rfl | h
    · simp
    · simp at h
  · rfl

theorem printRowSize_G {z : Size} (h : z.Ok) (items : List Item) :
    ∃ ts, printRowSize (.size z :: items) = some ts ∧ RowSizeG ts z := by
  simp only [printRowSize]
  split
  · next hz => subst hz; exact ⟨[], rfl, .auto⟩
  · exact ⟨_, rfl, .size (printSize_G h)⟩

/-- The rows of a value that can be written: one more list of names than rows, as many rows of cells as track sizes. -/
structure RowsOk (n : Nat) (nss : List (List Str)) (zs : List Size) (css : List (List (Option Str))) : Prop where
  names : nss.length = zs.length + 1
  cells : css.length = zs.length
  custom : ∀ ns ∈ nss, ∀ x ∈ ns, Custom x
  sizes : ∀ z ∈ zs, z.Ok
  rows : ∀ cs ∈ css, cs.length = n ∧ ∀ c ∈ cs, CellOk c

theorem printTmplRows_G (m : Bool) {n : Nat} (hn : 0 < n) (nss : List (List Str)) (zs : List Size) (css : List (List (Option Str)))
    (h : RowsOk n nss zs css) :
    ∃ R, printTmplRows m n nss (zs.map .size) css.flatten = some R ∧
      (∃ t3 ts after, R = t3 ++ ts ∧ NamesG t3 after ∧ AreaRowsG n after ts nss zs css) ∧
      ((m = true ∨ ∀ ns, nss.head? = some ns → ns.length ≠ 2) → zs ≠ [] → AreaRowsG n [] R nss zs css) := by
  induction css generalizing nss zs with
  | nil =>
    have hz : zs = [] := by simpa using h.cells.symm
    subst hz
    obtain ⟨ns, rfl⟩ : ∃ ns, nss = [ns] := by
      have := h.names
      match nss, this with
      | [ns], _ => exact ⟨ns, rfl⟩
    refine ⟨printNames ns, by rw [List.flatten_nil, printTmplRows], ⟨printNames ns, [], ns, by simp, printNames_G (h.custom ns (by simp)), .nil⟩, by simp⟩
  | cons cs css ih =>
    obtain ⟨z, zs', rfl⟩ : ∃ z zs', zs = z :: zs' := by
      have := h.cells
      match zs, this with
      | z :: zs', _ => exact ⟨z, zs', rfl⟩
    obtain ⟨ns, nss', rfl⟩ : ∃ ns nss', nss = ns :: nss' := by
      have := h.names
      match nss, this with
      | ns :: nss', _ => exact ⟨ns, nss', rfl⟩
    have hcs := h.rows cs (by simp)
    have hall : ∀ c ∈ cs ++ css.flatten, CellOk c := by
      intro c hc
      rcases List.mem_append.1 hc with hc | hc
      · exact hcs.2 c hc
      · obtain ⟨l, hl, hc⟩ := List.mem_flatten.1 hc
        exact (h.rows l (by simp [hl])).2 c hc
    obtain ⟨s, hs, hg⟩ := rowTok_G m cs css.flatten hall
    rw [hcs.1] at hs
    have hd : (cs ++ css.flatten).drop n = css.flatten := by
      rw [← hcs.1]; simp
    obtain ⟨zt, hzt, hzg⟩ := printRowSize_G (h.sizes z (by simp)) (zs'.map .size)
    obtain ⟨R, hR, ⟨t3, ts, after, rfl, hnm, har⟩, _⟩ := ih nss' zs' ⟨by simpa using h.names, by simpa using h.cells,
      fun ns hns => h.custom ns (by simp [hns]), fun z hz => h.sizes z (by simp [hz]), fun cs hc => h.rows cs (by simp [hc])⟩
    have hp : printTmplRows m n (ns :: nss') ((z :: zs').map .size) (cs :: css).flatten =
        some (printLeadNames m ns ++ .str s :: (zt ++ (t3 ++ ts))) := by
      simp only [List.flatten_cons]
      cases hcc : cs ++ css.flatten with
      | nil =>
        have : cs = [] := by simp at hcc; exact hcc.1
        subst this
        simp at hcs
        omega
      | cons a l =>
        rw [printTmplRows]
        rw [if_neg (by omega), ← hcc, hd, hs]
        simp only [List.map_cons, List.tail_cons, hzt, hR, Option.bind_some, Option.map_some]
        simp
    refine ⟨_, hp, ?_, ?_⟩
    · by_cases hm : m = true ∨ ns.length ≠ 2
      · rw [printLeadNames_eq m ns hm]
        exact ⟨[], _, [], rfl, .none, AreaRowsG.cons (pend := []) (printNames_G (h.custom ns (by simp))) hg hcs.1 hzg hnm har⟩
      · simp only [not_or, Bool.not_eq_true, ne_eq, not_not] at hm
        obtain ⟨rfl, hl⟩ := hm
        obtain ⟨a, b, rfl⟩ : ∃ a b, ns = [a, b] := by
          match ns, hl with
          | [a, b], _ => exact ⟨a, b, rfl⟩
        have ha : ∀ x ∈ [a], Custom x := fun x hx => h.custom [a, b] (by simp) x (by simp at hx; simp [hx])
        have hb : ∀ x ∈ [b], Custom x := fun x hx => h.custom [a, b] (by simp) x (by simp at hx; simp [hx])
        exact ⟨printNames [a], _, [a], by simp [printLeadNames], printNames_G ha,
          AreaRowsG.cons (pend := [a]) (printNames_G hb) hg hcs.1 hzg hnm har⟩
    · intro hm _
      have hm' : m = true ∨ ns.length ≠ 2 := by
        rcases hm with hm | hm
        · exact .inl hm
        · exact .inr (hm ns rfl)
      rw [printLeadNames_eq m ns hm']
      exact AreaRowsG.cons (pend := []) (printNames_G (h.custom ns (by simp))) hg hcs.1 hzg hnm har

/-! ### What values come from the grammar -/

theorem AreaRowsG.ok {n pend ts nss zs css} (hp : ∀ x ∈ pend, Custom x) (h : AreaRowsG n pend ts nss zs css) : RowsOk n nss zs css := by
  induction h with
  | nil => exact ⟨rfl, rfl, by simpa using hp, by simp, by simp⟩
  | @cons pend t1 before s cs t2 z t3 after ts nss zs css h1 hc hl hz h3 _ ih =>
    have := ih h3.custom
    refine ⟨by simp [this.names], by simp [this.cells], ?_, ?_, ?_⟩
    · intro ns hns x hx
      rcases List.mem_cons.1 hns with rfl | hns
      · rcases List.mem_append.1 hx with hx | hx
        · exact hp x hx
        · exact h1.custom x hx
      · exact this.custom ns hns x hx
    · intro z' hz'
      rcases List.mem_cons.1 hz' with rfl | hz'
      · cases hz with
        | auto => trivial
        | size h => exact h.ok
      · exact this.sizes z' hz'
    · intro cs' hcs
      rcases List.mem_cons.1 hcs with rfl | hcs
      · exact ⟨hl, CellsG.ok hc⟩
      · exact this.rows cs' hcs

theorem SizingG_list {ts l} (h : SizingG ts (.list l)) : TrackListG ts l := by
  cases h with
  | list h => exact h

theorem printTemplate_areas {m : Bool} {n : Nat} {nss : List (List Str)} {zs : List Size} {css : List (List (Option Str))} {cols t2}
    (hn : 0 < n) (hok : RowsOk n nss zs css) (hz : zs ≠ []) (hcol : ColumnsG t2 cols)
    (hm : m = true ∨ ∀ ns, nss.head? = some ns → ns.length ≠ 2) :
    ∃ out, printTemplate m ⟨.list ⟨nss, zs.map .size⟩, cols, .areas n css.flatten⟩ = some out ∧
      TemplateG out ⟨.list ⟨nss, zs.map .size⟩, cols, .areas n css.flatten⟩ := by
  obtain ⟨R, hR, _, hfirst⟩ := printTmplRows_G m hn nss zs css hok
  simp only [printTemplate, hR, Option.map_some]
  refine ⟨_, rfl, .areas (hfirst hm hz) hz hn ?_⟩
  cases hcol with
  | none => exact .none
  | @list ts l hl he =>
    refine .list ?_ he
    exact SizingG_list (C110_print ts (.list l) (.list hl))

/-! ### Reading -/

theorem parseTmplLoop_eq (st : TmplState) (ts : List Tok) : parseTmplLoop st ts =
    match (leadNames st ts).2 with
    | .str s :: r =>
      match parseString s with
      | none => none
      | some cs =>
        if (leadNames st ts).1.row ≠ 0 ∧ cs.length ≠ (leadNames st ts).1.columns then none
        else
          parseTmplLoop
            { names := (leadNames st ts).1.names ++ [(optNames (optSize r).2).1]
              items := (leadNames st ts).1.items ++ [.size (optSize r).1]
              columns := if (leadNames st ts).1.row = 0 then cs.length else (leadNames st ts).1.columns
              row := (leadNames st ts).1.row + 1
              cells := (leadNames st ts).1.cells ++ cs }
            (optNames (optSize r).2).2
    | r => some ((leadNames st ts).1, r) := by
  rw [parseTmplLoop]
  split
  · next h => simp only [h]; rfl
  · next h =>
    split
    · next s r' h' => exact absurd h' (h s r')
    · rfl

/-- No line names at the start. -/
def NoBrack : List Tok → Prop
  | .brack _ :: _ => False
  | _ => True

theorem lineNames_noBrack {ts} (h : NoBrack ts) : lineNames ts = none := by
  unfold lineNames
  split
  · exact absurd h (by simp [NoBrack])
  · rfl

/-- Line names between two rows may be counted to either. -/
theorem norm {n t3 after ts nss zs css} (h3 : NamesG t3 after) (h : AreaRowsG n after ts nss zs css) :
    ∃ t3' after' ts', t3 ++ ts = t3' ++ ts' ∧ NamesG t3' after' ∧ AreaRowsG n after' ts' nss zs css ∧ (t3' = [] → NoBrack ts') := by
  cases h3 with
  | some hc => exact ⟨_, _, ts, rfl, .some hc, h, by simp⟩
  | none =>
    cases h with
    | nil => exact ⟨[], [], [], rfl, .none, .nil, fun _ => trivial⟩
    | @cons _ t1 before s cs t2 z t3 after ts nss zs css h1 hc hl hz h3 hr =>
      cases h1 with
      | none => exact ⟨[], [], _, rfl, .none, .cons .none hc hl hz h3 hr, fun _ => by simp [NoBrack]⟩
      | some hcu =>
        refine ⟨[.brack (before.map .ident)], before, _, rfl, .some hcu, ?_, by simp⟩
        have := AreaRowsG.cons (pend := before) (t1 := []) .none hc hl hz h3 hr
        simpa using this

theorem extendLast_append (A : List (List Str)) (p ns : List Str) : extendLast (A ++ [p]) ns = A ++ [p ++ ns] := by
  induction A with
  | nil => rfl
  | cons a A ih =>
    cases A with
    | nil => simp [extendLast]
    | cons b A =>
      simp only [List.cons_append] at ih ⊢
      rw [extendLast, ih]
      simp

theorem optSize_complete {t2 : List Tok} {z : Size} (h : RowSizeG t2 z) {X : List Tok} (hX : ∀ t r, X = t :: r → parseSize t = none) :
    optSize (t2 ++ X) = (z, X) := by
  cases h with
  | auto =>
    simp only [List.nil_append]
    unfold optSize
    split
    · next t r => simp [hX t r rfl, Size.default]
    · rfl
  | size hz => simp [optSize, (parseSize_iff _ _).2 hz]

/-- What can follow a row: nothing that could be a track size. -/
theorem follow {n t3 after ts nss zs css r} (h3 : NamesG t3 after) (h : AreaRowsG n after ts nss zs css) (hr : Stop r) :
    ∀ t r', t3 ++ ts ++ r = t :: r' → parseSize t = none := by
  intro t r' he
  cases h3 with
  | some hc => simp at he; rw [← he.1]; rfl
  | none =>
    cases h with
    | nil =>
      rcases hr with rfl | ⟨_, rfl⟩
      · cases he
      · cases he; rfl
    | cons h1 hc hl hz h3 hr =>
      cases h1 with
      | none => simp at he; rw [← he.1]; rfl
      | some => simp at he; rw [← he.1]; rfl

theorem optNames_noBrack {t3 : List Tok} {after : List Str} (h : NamesG t3 after) {X : List Tok} (hX : t3 = [] → NoBrack X) :
    optNames (t3 ++ X) = (after, X) := by
  cases h with
  | none => simp [optNames, lineNames_noBrack (hX rfl)]
  | some hc => simp [optNames, (lineNames_iff _ _ X).2 ⟨rfl, hc⟩]

theorem NoBrack_append {ts r : List Tok} (h : NoBrack ts) (hr : Stop r) : NoBrack (ts ++ r) := by
  cases ts with
  | nil => rcases hr with rfl | ⟨r, rfl⟩ <;> simp [NoBrack]
  | cons t ts => cases t <;> simp_all [NoBrack]

/-- One row, once the leading names have been handled. -/
theorem loop_row {n s cs t2 z t3 after ts nss zs css r} (hc : CellsG s cs) (hl : cs.length = n) (hn : 0 < n) (hz : RowSizeG t2 z)
    (h3 : NamesG t3 after) (hrest : AreaRowsG n after ts nss zs css) (hr : Stop r)
    (st : TmplState) (ts0 : List Tok) (hlead : (leadNames st ts0).2 = .str s :: (t2 ++ (t3 ++ ts)) ++ r)
    (hcol : (leadNames st ts0).1.row ≠ 0 → (leadNames st ts0).1.columns = n) :
    ∃ after' ts', AreaRowsG n after' ts' nss zs css ∧
      parseTmplLoop st ts0 = parseTmplLoop
        { names := (leadNames st ts0).1.names ++ [after']
          items := (leadNames st ts0).1.items ++ [.size z]
          columns := n
          row := (leadNames st ts0).1.row + 1
          cells := (leadNames st ts0).1.cells ++ cs } (ts' ++ r) := by
  obtain ⟨t3', after', ts', he, hnm, har, hnb⟩ := norm h3 hrest
  refine ⟨after', ts', har, ?_⟩
  have hp : parseString s = some cs := (parseString_iff _ _).2 ⟨hc, by rintro rfl; simp at hl; omega⟩
  have hsz : optSize (t2 ++ (t3 ++ ts) ++ r) = (z, t3' ++ (ts' ++ r)) := by
    rw [List.append_assoc, optSize_complete hz (follow h3 hrest hr), he, List.append_assoc]
  have hon := optNames_noBrack hnm (X := ts' ++ r) (fun h => NoBrack_append (hnb h) hr)
  rw [parseTmplLoop_eq]
  simp only [hlead, List.cons_append, hp]
  rw [List.append_assoc] at hsz
  simp only [List.append_assoc] at hsz ⊢
  rw [hsz]
  simp only [hon, hl]
  by_cases h0 : (leadNames st ts0).1.row = 0
  · simp [h0]
  · simp [h0, hcol h0]

theorem lead_none {st ts} (h : NoBrack ts) : leadNames st ts = (st, ts) := by simp [leadNames, lineNames_noBrack h]

theorem lead_some {st : TmplState} {ns : List Str} {r} (h : ∀ n ∈ ns, Custom n) :
    leadNames st (.brack (ns.map .ident) :: r) = ({ st with names := extendLast st.names ns }, r) := by
  simp [leadNames, (lineNames_iff _ _ r).2 ⟨rfl, h⟩]

theorem loop_end {st r} (hr : Stop r) : parseTmplLoop st r = some (st, r) := by
  rw [parseTmplLoop_eq]
  rcases hr with rfl | ⟨r, rfl⟩ <;> rfl

/-- The loop, once there is a list of names to extend. -/
theorem loop_complete {n} (hn : 0 < n) (zs : List Size) {pend ts nss css r} (h : AreaRowsG n pend ts nss zs css) (hr : Stop r)
    (A : List (List Str)) (st : TmplState) (hst : st.names = A ++ [pend]) (hcol : st.row ≠ 0 → st.columns = n) (hzr : zs = [] → st.columns = n) :
    parseTmplLoop st (ts ++ r) =
      some (⟨A ++ nss, st.items ++ zs.map .size, n, st.row + zs.length, st.cells ++ css.flatten⟩, r) := by
  induction zs generalizing pend ts nss css A st with
  | nil =>
    cases h with
    | nil =>
      rw [List.nil_append, loop_end hr]
      cases st
      simp_all
  | cons z zs ih =>
    cases h with
    | @cons _ t1 before s cs t2 _ t3 after ts nss _ css h1 hc hl hz h3 hrest =>
      cases h1 with
      | none =>
        have hlead : leadNames st ([] ++ .str s :: (t2 ++ (t3 ++ ts)) ++ r) = (st, .str s :: (t2 ++ (t3 ++ ts)) ++ r) := by
          rw [List.nil_append]
          exact lead_none (by simp [NoBrack])
        obtain ⟨after', ts', har, hp⟩ := loop_row hc hl hn hz h3 hrest hr st _ (by rw [hlead]) (by rw [hlead]; exact hcol)
        rw [hp, hlead]
        rw [ih har (A ++ [pend]) _ (by simp [hst]) (by simp) (by simp)]
        simp
        omega
      | some hcu =>
        have hlead : leadNames st ([.brack (before.map .ident)] ++ .str s :: (t2 ++ (t3 ++ ts)) ++ r) =
            ({ st with names := extendLast st.names before }, .str s :: (t2 ++ (t3 ++ ts)) ++ r) := by
          simp only [List.cons_append, List.nil_append]
          exact lead_some hcu
        obtain ⟨after', ts', har, hp⟩ := loop_row hc hl hn hz h3 hrest hr st _ (by rw [hlead]) (by rw [hlead]; exact hcol)
        rw [hp, hlead]
        rw [ih har (A ++ [pend ++ before]) _ (by simp [hst, extendLast_append]) (by simp) (by simp)]
        simp
        omega

/-- The loop when no line has a name and the first row had no `[]`. -/
theorem loop_complete0 {n} (hn : 0 < n) (zs : List Size) {ts nss css r} (h : AreaRowsG n [] ts nss zs css) (hr : Stop r)
    (hno : ∀ ns ∈ nss, ns = []) (k : Nat) (hk : 0 < k) (st : TmplState) (hst : st.names = List.replicate k [])
    (hcol : st.columns = n) :
    parseTmplLoop st (ts ++ r) =
      some (⟨List.replicate (k + zs.length) [], st.items ++ zs.map .size, n, st.row + zs.length, st.cells ++ css.flatten⟩, r) := by
  obtain ⟨k', rfl⟩ : ∃ k', k = k' + 1 := ⟨k - 1, by omega⟩
  have hst' : st.names = List.replicate k' [] ++ [[]] := by rw [hst, List.replicate_succ']
  rw [loop_complete hn zs h hr _ st hst' (fun _ => hcol) (fun _ => hcol)]
  have hnss : nss = List.replicate (zs.length + 1) [] := by
    rw [List.eq_replicate_iff]
    refine ⟨(AreaRowsG.ok (by simp) h).names, hno⟩
  rw [hnss, List.replicate_append_replicate]
  congr 4
  omega

/-- Tokens that start with line names. -/
def Brack : List Tok → Prop
  | .brack _ :: _ => True
  | _ => False

theorem not_brack {ts} (h : ¬ Brack ts) : NoBrack ts := by
  unfold NoBrack
  split
  · exact h trivial
  · trivial

/-- The loop from the start, on rows with names at the start or without any names. -/
theorem loop_start {n} (hn : 0 < n) {zs ts nss css r} (h : AreaRowsG n [] ts nss zs css) (hz : zs ≠ []) (hr : Stop r)
    (hfirst : Brack ts ∨ ∀ ns ∈ nss, ns = []) :
    ∃ st, parseTmplLoop {} (ts ++ r) = some (st, r) ∧ st.items = zs.map .size ∧ st.columns = n ∧ st.cells = css.flatten ∧
      (if st.names.length = st.items.length then st.names ++ [[]] else st.names) = nss := by
  have hlen := (AreaRowsG.ok (by simp) h).names
  cases h with
  | nil => exact absurd rfl hz
  | @cons _ t1 before s cs t2 z t3 after ts nss zs css h1 hc hl hzz h3 hrest =>
    cases h1 with
    | some hcu =>
      have hlead : leadNames {} ([.brack (before.map .ident)] ++ .str s :: (t2 ++ (t3 ++ ts)) ++ r) =
          ({ names := [before] }, .str s :: (t2 ++ (t3 ++ ts)) ++ r) := by
        simp only [List.cons_append, List.nil_append]
        exact lead_some hcu
      obtain ⟨after', ts', har, hp⟩ := loop_row hc hl hn hzz h3 hrest hr {} _ (by rw [hlead]) (by rw [hlead]; simp)
      rw [hlead] at hp
      rw [loop_complete hn zs har hr [before] _ (by simp) (by simp) (by simp)] at hp
      refine ⟨_, hp, by simp, rfl, by simp, ?_⟩
      simp at hlen
      simp [hlen]
    | none =>
      have hno : ∀ ns ∈ ([] ++ []) :: nss, ns = [] := by
        rcases hfirst with hf | hf
        · simp [Brack] at hf
        · exact hf
      have hlead : leadNames {} ([] ++ .str s :: (t2 ++ (t3 ++ ts)) ++ r) = ({}, .str s :: (t2 ++ (t3 ++ ts)) ++ r) := by
        rw [List.nil_append]
        exact lead_none (by simp [NoBrack])
      obtain ⟨after', ts', har, hp⟩ := loop_row hc hl hn hzz h3 hrest hr {} _ (by rw [hlead]) (by rw [hlead]; simp)
      have hafter : after' = [] := by
        cases har with
        | nil => exact hno _ (by simp)
        | @cons _ _ before' _ _ _ _ _ _ _ nss' =>
          have := hno (after' ++ before') (by simp)
          simp at this
          exact this.1
      subst hafter
      rw [hlead] at hp
      rw [loop_complete0 hn zs har hr (fun ns hns => hno ns (by simp [hns])) 1 (by omega) _ (by simp) (by simp)] at hp
      refine ⟨_, hp, by simp, rfl, by simp, ?_⟩
      · simp at hlen
        have hnss : nss = List.replicate (zs.length + 1) [] := by
          rw [List.eq_replicate_iff]
          exact ⟨hlen, fun b hb => hno b (by simp [hb])⟩
        simp [hnss, Nat.add_comm 1, List.replicate_succ]
        rw [← List.replicate_succ', List.replicate_succ]

theorem TracksG_head {ts nss} {x : Item} {xs} (h : TracksG ItemG ts nss (x :: xs)) (r : List Tok) (st : TmplState) :
    ∃ st' t r', leadNames st (ts ++ r) = (st', t :: r') ∧ (∀ s, t ≠ .str s) ∧ st'.cells = st.cells := by
  cases h with
  | @more t1 ns t _ t2 nss _ h1 hx h2 =>
    have hstr : ∀ s, t ≠ .str s := by
      rintro s rfl
      cases hx with
      | size h => cases h with | breadth h => cases h
    cases h1 with
    | none => exact ⟨st, t, t2 ++ r, by simp [leadNames, lineNames_of_not_brack (parseItem_not_brack (parseItem_complete hx))], hstr, rfl⟩
    | some hc =>
      refine ⟨{ st with names := extendLast st.names ns }, t, t2 ++ r, ?_, hstr, rfl⟩
      simp only [List.cons_append, List.nil_append]
      exact lead_some hc

theorem parseTmplLoop_tracks {ts l} (h : TrackListG ts l) (r : List Tok) : ∃ st r', parseTmplLoop {} (ts ++ r) = some (st, r') ∧ st.cells = [] := by
  obtain ⟨hg, hn⟩ := h
  cases hl : l.items with
  | nil => exact absurd hl hn
  | cons x xs =>
    rw [hl] at hg
    obtain ⟨st', t, r', h1, h2, h3⟩ := TracksG_head hg r {}
    refine ⟨st', t :: r', ?_, h3⟩
    rw [parseTmplLoop_eq, h1]
    simp only
    split
    · next he => cases he; exact absurd rfl (h2 _)
    · rfl

theorem parseTemplate_body {ts : List Tok} (h : ∀ s r, ts = .ident s :: r → ¬ word s cs!"none") : parseTemplate ts = parseTemplate.body ts := by
  unfold parseTemplate
  split
  · next s r =>
    have := h s r rfl
    rw [← kw_iff] at this
    simp [this]
  · rfl

theorem AreaRowsG_not_ident {n pend ts nss zs css} (h : AreaRowsG n pend ts nss zs css) (hz : zs ≠ []) {s r r'} : ts ++ r ≠ .ident s :: r' := by
  cases h with
  | nil => exact absurd rfl hz
  | cons h1 => cases h1 <;> simp

/-! ### C111 -/

/-- `grid-template` is read as the CSS grammar says, for every value but those that start with `none /` and those
that have line names somewhere but none before the first row. -/
theorem C111_read_partial (ts : List Tok) (t : Template) (h : TemplateG ts t)
    (hnone : ∀ s r, ts = .ident s :: .slash :: r → ¬ word s cs!"none")
    (hnames : Brack ts ∨ t.areas = .none ∨ ∀ l, t.rows = .list l → ∀ ns ∈ l.names, ns = []) :
    parseTemplate ts = some (t, []) := by
  cases h with
  | none hw => simp [parseTemplate, (kw_iff _ _).2 hw]
  | @tracks t1 rows t2 cols h1 h2 =>
    cases h1 with
    | none hw => exact absurd hw (hnone _ t2 (by simp))
    | @list _ l hl =>
      have hni : ∀ s r, t1 ++ .slash :: t2 = .ident s :: r → ¬ word s cs!"none" := by
        intro s r he
        cases ht : t1 with
        | nil =>
          rw [ht] at he
          cases he
        | cons a t1' =>
          rw [ht] at he
          cases he
          exact TrackListG_not_none hl ht
      rw [parseTemplate_body hni]
      obtain ⟨st, r', hp, hc⟩ := parseTmplLoop_tracks hl (.slash :: t2)
      have hs := parseSizing_complete (SizingG.list hl) (r := .slash :: t2) (.inr ⟨_, rfl⟩)
      have hs2 := parseSizing_complete h2 (r := []) (.inl rfl)
      rw [List.append_nil] at hs2
      simp [parseTemplate.body, hp, hc, hs, slash, hs2]
  | @areas n t1 nss zs css t2 cols h1 hz hn hcol =>
    have hni : ∀ s r, t1 ++ t2 = .ident s :: r → ¬ word s cs!"none" := fun s r he => absurd he (AreaRowsG_not_ident h1 hz)
    rw [parseTemplate_body hni]
    have hstop : Stop t2 := by
      cases hcol with
      | none => exact .inl rfl
      | list => exact .inr ⟨_, rfl⟩
    have hfirst : Brack t1 ∨ ∀ ns ∈ nss, ns = [] := by
      rcases hnames with h | h | h
      · left
        cases ht : t1 with
        | nil =>
          rw [ht] at h1
          cases zs with
          | nil => exact absurd rfl hz
          | cons z zs =>
            exfalso
            generalize hts : ([] : List Tok) = X at h1
            cases h1
            simp at hts
        | cons a b => rw [ht] at h; cases a <;> simp_all [Brack]
      · cases h
      · exact .inr (h _ rfl)
    obtain ⟨st, hp, hi, hcl, hce, hnm⟩ := loop_start hn h1 hz hstop hfirst
    have hok := AreaRowsG.ok (by simp) h1
    have hne : css.flatten ≠ [] := by
      cases css with
      | nil =>
        have := hok.cells
        simp at this
        exact absurd this.symm (by simpa using hz)
      | cons cs css =>
        have := (hok.rows cs (by simp)).1
        intro h0
        simp at h0
        rw [h0.1] at this
        simp at this
        omega
    cases hcol with
    | none =>
      simp only [parseTemplate.body, hp, Option.bind_some, hne, ne_eq, not_false_eq_true, if_true, slash_nil, hi, hcl, hce]
      rw [hi] at hnm
      rw [hnm]
    | @list ts l hl he =>
      have htl := parseTrackList_complete hl (r := []) (.inl rfl)
      rw [List.append_nil] at htl
      have hex : l.items.all Item.explicit = true := by
        rw [List.all_eq_true]
        intro i hi
        obtain ⟨z, rfl⟩ := he i hi
        rfl
      rw [hi] at hnm
      simp only [parseTemplate.body, hp, Option.bind_some, hne, ne_eq, not_false_eq_true, if_true, slash_cons, htl, hex, hi, hcl, hce, hnm]

/-- Printed values of `grid-template` mean the same by the CSS grammar: minified, every value; otherwise every value
where the first line does not have exactly two names. -/
theorem C111_print_partial (minify : Bool) (ts : List Tok) (t : Template) (h : TemplateG ts t)
    (hm : minify = true ∨ t.areas = .none ∨ ∀ l ns nss, t.rows = .list l → l.names = ns :: nss → ns.length ≠ 2) :
    ∃ out, printTemplate minify t = some out ∧ TemplateG out t := by
  cases h with
  | none => exact ⟨_, rfl, .none (by unfold word; decide)⟩
  | tracks h1 h2 =>
    simp only [printTemplate]
    split
    · next h =>
      obtain ⟨rfl, rfl⟩ := h
      exact ⟨_, rfl, .none (by unfold word; decide)⟩
    · exact ⟨_, rfl, .tracks (C110_print _ _ h1) (C110_print _ _ h2)⟩
  | @areas n t1 nss zs css t2 cols h1 hz hn hcol =>
    refine printTemplate_areas hn (AreaRowsG.ok (by simp) h1) hz hcol ?_
    rcases hm with h | h | h
    · exact .inl h
    · cases h
    · right
      intro ns hns
      cases nss with
      | nil => cases hns
      | cons a b => cases hns; exact h _ _ _ rfl rfl

/-- The minified value of `grid-template` always means the same. -/
theorem C111_minified (ts : List Tok) (t : Template) (h : TemplateG ts t) :
    ∃ out, printTemplate true t = some out ∧ TemplateG out t := C111_print_partial true ts t h (.inl rfl)

/-- Line names after the first row move to the line before it if there are none there: `"a" [x] "b"` becomes
`[x] "a" "b"`. -/
theorem C111_names_shifted :
    TemplateG [.str cs!"a", .brack [.ident cs!"x"], .str cs!"b"]
      ⟨.list ⟨[[], [cs!"x"], []], [.size (.breadth .auto), .size (.breadth .auto)]⟩, .none, .areas 1 [some cs!"a", some cs!"b"]⟩ ∧
    parseTemplate [.str cs!"a", .brack [.ident cs!"x"], .str cs!"b"] = some
      (⟨.list ⟨[[cs!"x"], [], []], [.size (.breadth .auto), .size (.breadth .auto)]⟩, .none, .areas 1 [some cs!"a", some cs!"b"]⟩, []) ∧
    printTemplate true ⟨.list ⟨[[cs!"x"], [], []], [.size (.breadth .auto), .size (.breadth .auto)]⟩, .none, .areas 1 [some cs!"a", some cs!"b"]⟩ =
      some [.brack [.ident cs!"x"], .str cs!"a", .str cs!"b"] := by
  have hx : Custom cs!"x" := by unfold Custom word; decide
  have ha : CellsG cs!"a" [some cs!"a"] := (parseString_iff _ _).1 (by decide +kernel) |>.1
  have hb : CellsG cs!"b" [some cs!"b"] := (parseString_iff _ _).1 (by decide +kernel) |>.1
  refine ⟨?_, eval_parse (by decide +kernel), ?_⟩
  · have h2 := AreaRowsG.cons (columns := 1) (pend := [cs!"x"]) (t1 := []) .none hb rfl .auto .none .nil
    have h1 := AreaRowsG.cons (columns := 1) (pend := []) (t1 := []) .none ha rfl .auto (.some (ns := [cs!"x"]) (by simpa using hx)) h2
    exact TemplateG.areas h1 (by simp) (by decide) .none
  · simp [printTemplate, printTmplRows, printRowSize, printLeadNames, printNames, rowTok, rowText, Size.default]

/-- `none / 1fr` is valid, and is what is printed for these longhands, but it is not understood. -/
theorem C111_none_rows : TemplateG [.ident cs!"none", .slash, .fr 1] ⟨.none, .list ⟨[[], []], [.size (.breadth (.flex 1))]⟩, .none⟩ ∧
    printTemplate true ⟨.none, .list ⟨[[], []], [.size (.breadth (.flex 1))]⟩, .none⟩ = some [.ident cs!"none", .slash, .fr 1] ∧
    parseTemplate [.ident cs!"none", .slash, .fr 1] = none := by
  refine ⟨?_, rfl, by decide +kernel⟩
  have h := (C110_read [.fr 1] (.list ⟨[[], []], [.size (.breadth (.flex 1))]⟩)).2
    ⟨eval_parse (by decide +kernel), by intro i hi; simp at hi; subst hi; trivial⟩
  exact .tracks (t1 := [.ident cs!"none"]) (.none (by unfold word; decide)) h

/-- Without minification `[a b] "x"` is printed as `[a] [b] "x"`, which is not valid. -/
theorem C111_two_names :
    (∃ t, TemplateG [.brack [.ident cs!"a", .ident cs!"b"], .str cs!"x"] t ∧
      printTemplate false t = some [.brack [.ident cs!"a"], .brack [.ident cs!"b"], .str cs!"x"]) ∧
    ¬ ∃ t, TemplateG [.brack [.ident cs!"a"], .brack [.ident cs!"b"], .str cs!"x"] t := by
  have ha : Custom cs!"a" := by unfold Custom word; decide
  have hb : Custom cs!"b" := by unfold Custom word; decide
  have hx : CellsG cs!"x" [some cs!"x"] := (parseString_iff _ _).1 (by decide +kernel) |>.1
  constructor
  · refine ⟨⟨.list ⟨[[cs!"a", cs!"b"], []], [.size (.breadth .auto)]⟩, .none, .areas 1 [some cs!"x"]⟩, ?_, ?_⟩
    · have h1 := AreaRowsG.cons (columns := 1) (pend := []) (.some (ns := [cs!"a", cs!"b"]) (by simp [ha, hb])) hx rfl .auto .none .nil
      exact TemplateG.areas h1 (by simp) (by decide) .none
    · simp [printTemplate, printTmplRows, printRowSize, printLeadNames, printNames, rowTok, rowText, Size.default]
  · rintro ⟨t, h⟩
    generalize hts : [Tok.brack [.ident cs!"a"], .brack [.ident cs!"b"], .str cs!"x"] = ts at h
    cases h with
    | none => simp at hts
    | @tracks t1 _ t2 _ h1 h2 =>
      have : Tok.slash ∈ [Tok.brack [.ident cs!"a"], .brack [.ident cs!"b"], .str cs!"x"] := by rw [hts]; simp
      simp at this
    | @areas n t1 nss zs css t2 cols h1 hz hn hcol =>
      cases h1 with
      | nil => exact hz rfl
      | cons hn1 => cases hn1 <;> simp at hts

/-- A shorthand built from longhands (`Shorthand::from_longhands`) with more row tracks than rows of areas counts as
valid, but its printed value has lost the last track. -/
theorem C111_rows_dropped :
    Template.valid (.list ⟨[[], [], []], [.size (.breadth (.flex 1)), .size (.breadth (.flex 2))]⟩) .none (.areas 1 [some cs!"a"]) = true ∧
    printTemplate true ⟨.list ⟨[[], [], []], [.size (.breadth (.flex 1)), .size (.breadth (.flex 2))]⟩, .none, .areas 1 [some cs!"a"]⟩ =
      some [.str cs!"a", .fr 1] := by
  refine ⟨by decide +kernel, ?_⟩
  simp [printTemplate, printTmplRows, printRowSize, printLeadNames, printNames, rowTok, rowText, Size.default, printSize, printBreadth]

/-- `[x y] "a ." 1fr [z] "b c" / 1fr 2fr` meets the hypotheses of the theorems above (minified). -/
example : TemplateG ([.brack [.ident cs!"x"]] ++ .str cs!"a" :: ([.fr 1] ++ ([.brack [.ident cs!"z"]] ++ [])) ++ [])
    ⟨.list ⟨[[cs!"x"], [cs!"z"]], [.size (.breadth (.flex 1))]⟩, .none, .areas 1 [some cs!"a"]⟩ := by
  have hx : Custom cs!"x" := by unfold Custom word; decide
  have hz : Custom cs!"z" := by unfold Custom word; decide
  have ha : CellsG cs!"a" [some cs!"a"] := (parseString_iff _ _).1 (by decide +kernel) |>.1
  have h1 := AreaRowsG.cons (columns := 1) (pend := []) (.some (ns := [cs!"x"]) (by simpa using hx)) ha rfl
    (.size (.breadth (.flex (q := 1) (by decide)))) (.some (ns := [cs!"z"]) (by simpa using hz)) .nil
  exact TemplateG.areas h1 (by simp) (by decide) .none

end Verif.Grid
