import Verif.Grid.Lemmas
/-! Track lists: `grid-template-rows`, `grid-template-columns`, `grid-auto-rows`, `grid-auto-columns` (C110). -/
namespace Verif.Grid
open Spec

/-- What CSS requires of `repeat()` and the parser does not check: a positive count and at least one track. -/
def Item.Strict : Item → Prop
  | .size _ => True
  | .rep r => (∀ n, r.count = .number n → 1 ≤ n) ∧ r.sizes ≠ []

def Sizing.Strict : Sizing → Prop
  | .none => True
  | .list l => ∀ i ∈ l.items, i.Strict

theorem parseCount_sound {t c} (h : parseCount t = some c) (hs : ∀ n, c = .number n → 1 ≤ n) : CountG t c := by
  cases t with
  | int n => simp [parseCount] at h; subst h; exact .number (hs n rfl)
  | ident s =>
    simp only [parseCount] at h
    split at h
    · next hk => cases h; exact .autoFill ((kw_iff _ _).1 hk)
    · split at h
      · next hk => cases h; exact .autoFit ((kw_iff _ _).1 hk)
      · cases h
  | _ => simp [parseCount] at h

theorem parseCount_complete {t c} (h : CountG t c) : parseCount t = some c := by
  cases h with
  | number => rfl
  | autoFill hw => simp [parseCount, (kw_iff _ _).2 hw]
  | autoFit hw => simp [parseCount, (kw_iff _ _).2 hw, word_ne (b := cs!"auto-fill") hw (by decide)]

theorem parseCount_print (c : Count) : parseCount (printCount c) = some c := by
  cases c with
  | number n => rfl
  | autoFill => decide
  | autoFit => decide

/-- `parseRepeat` in terms of its parts. -/
theorem parseRepeat_iff (t : Tok) (r : Repeat) : parseRepeat t = some r ↔
    ∃ n c ts, t = .func n (c :: .comma :: ts) ∧ word n cs!"repeat" ∧ parseCount c = some r.count ∧
      parseTracks parseSize ts = (r.names, r.sizes, []) := by
  constructor
  · intro h
    unfold parseRepeat at h
    split at h
    · next name c args =>
      split at h
      · next hk =>
        simp only [Option.bind_eq_some_iff] at h
        obtain ⟨c', hc, h⟩ := h
        split at h
        · next ns zs hp =>
          cases h
          exact ⟨name, c, args, rfl, (kw_iff _ _).1 hk, hc, hp⟩
        · cases h
      · cases h
    · cases h
  · rintro ⟨n, c, ts, rfl, hw, hc, hp⟩
    simp [parseRepeat, (kw_iff _ _).2 hw, hc, hp]

theorem parseSize_repeat {n : Str} {args} (hw : word n cs!"repeat") : parseSize (.func n args) = none := by
  simp [parseSize, word_ne (b := cs!"minmax") hw (by decide), word_ne (b := cs!"fit-content") hw (by decide)]

theorem parseItem_size {t z} (h : parseSize t = some z) : parseItem t = some (.size z) := by simp [parseItem, h]

theorem parseItem_iff (t : Tok) (i : Item) : parseItem t = some i ↔
    (∃ z, i = .size z ∧ parseSize t = some z) ∨ (∃ r, i = .rep r ∧ parseRepeat t = some r) := by
  unfold parseItem
  cases h : parseSize t with
  | some z =>
    constructor
    · intro h'; cases h'; exact .inl ⟨z, rfl, rfl⟩
    · rintro (⟨z', rfl, h'⟩ | ⟨r, rfl, hr⟩)
      · cases h'; rfl
      · obtain ⟨n, c, ts, rfl, hw, _⟩ := (parseRepeat_iff _ _).1 hr
        rw [parseSize_repeat hw] at h
        cases h
  | none =>
    simp only [Option.map_eq_some_iff]
    constructor
    · rintro ⟨r, hr, rfl⟩; exact .inr ⟨r, rfl, hr⟩
    · rintro (⟨z', _, h'⟩ | ⟨r, rfl, hr⟩)
      · cases h'
      · exact ⟨r, hr, rfl⟩

theorem parseItem_sound {t i} (h : parseItem t = some i) (hs : i.Strict) : ItemG t i := by
  rcases (parseItem_iff t i).1 h with ⟨z, rfl, hz⟩ | ⟨r, rfl, hr⟩
  · exact .size ((parseSize_iff _ _).1 hz)
  · obtain ⟨n, c, ts, rfl, hw, hc, hp⟩ := (parseRepeat_iff _ _).1 hr
    obtain ⟨u, hu, hg⟩ := parseTracks_sound (It := SizeG) (fun t x => (parseSize_iff t x).1) ts.length ts (Nat.le_refl _)
    rw [hp] at hu hg
    simp only [List.append_nil] at hu
    subst hu
    exact .rep hw (parseCount_sound hc hs.1) hg hs.2

theorem parseSize_not_brack {t z} (h : parseSize t = some z) : ∀ as, t ≠ .brack as :=
  SizeG_not_brack ((parseSize_iff _ _).1 h)

theorem parseItem_not_brack {t i} (h : parseItem t = some i) : ∀ as, t ≠ .brack as := by
  rcases (parseItem_iff t i).1 h with ⟨z, rfl, hz⟩ | ⟨r, rfl, hr⟩
  · exact parseSize_not_brack hz
  · obtain ⟨n, c, ts, rfl, _⟩ := (parseRepeat_iff _ _).1 hr
    intro as h
    cases h

theorem parseItem_complete {t i} (h : ItemG t i) : parseItem t = some i := by
  rw [parseItem_iff]
  cases h with
  | size h => exact .inl ⟨_, rfl, (parseSize_iff _ _).2 h⟩
  | rep hw hc hg hz =>
    refine .inr ⟨_, rfl, (parseRepeat_iff _ _).2 ⟨_, _, _, rfl, hw, parseCount_complete hc, ?_⟩⟩
    have := parseTracks_complete (item := parseSize) (fun t x => (parseSize_iff t x).2) (fun t x => SizeG_not_brack) rfl hg (rest := []) (.inl rfl)
    simpa using this

theorem ItemG.strict {t i} (h : ItemG t i) : i.Strict := by
  cases h with
  | size => trivial
  | rep _ hc _ hz =>
    refine ⟨?_, hz⟩
    intro n hn
    simp only at hn
    subst hn
    cases hc with
    | number h => exact h

/-- Every parsed track size is printed as itself. -/
theorem parseSize_print {t z} (h : parseSize t = some z) : parseSize (printSize z) = some z :=
  (parseSize_iff _ _).2 (printSize_G ((parseSize_iff _ _).1 h).ok)

theorem Spec.TracksG.mem {α : Type} {It : Tok → α → Prop} {ts nss} {xs : List α} (h : TracksG It ts nss xs) :
    ∀ x ∈ xs, ∃ t, It t x := by
  induction h with
  | last => simp
  | more _ hx _ ih =>
    intro x hm
    rcases List.mem_cons.1 hm with rfl | hm
    · exact ⟨_, hx⟩
    · exact ih x hm

/-- The general form: if the items read back, then so does the list. -/
theorem parseTracks_print {α : Type} {item : Tok → Option α} {pr : α → Tok}
    (hi : ∀ t x, item t = some x → item (pr x) = some x) (hb : ∀ t x, item t = some x → ∀ as, t ≠ .brack as)
    (hs : item .slash = none) (ts : List Tok) {rest : List Tok} (hr : Stop rest) :
    parseTracks item (printTracks pr (parseTracks item ts).1 (parseTracks item ts).2.1 ++ rest) =
      ((parseTracks item ts).1, (parseTracks item ts).2.1, rest) := by
  obtain ⟨u, _, hg⟩ := parseTracks_sound (item := item) (It := fun t x => item t = some x) (fun _ _ h => h) ts.length ts (Nat.le_refl _)
  have hx : ∀ x ∈ (parseTracks item ts).2.1, item (pr x) = some x := by
    intro x hm
    obtain ⟨t, ht⟩ := hg.mem x hm
    exact hi t x ht
  exact parseTracks_complete (It := fun t x => item t = some x) (fun _ _ h => h) hb hs
    (printTracks_G _ _ hg.length hg.custom hx) hr

theorem parseItem_print {t i} (h : parseItem t = some i) : parseItem (printItem i) = some i := by
  rcases (parseItem_iff t i).1 h with ⟨z, rfl, hz⟩ | ⟨r, rfl, hr⟩
  · exact parseItem_size (parseSize_print hz)
  · obtain ⟨n, c, ts, rfl, hw, hc, hp⟩ := (parseRepeat_iff _ _).1 hr
    rw [parseItem_iff]
    refine .inr ⟨r, rfl, (parseRepeat_iff _ _).2 ⟨_, _, _, rfl, by unfold word; decide, parseCount_print _, ?_⟩⟩
    have := parseTracks_print (item := parseSize) (pr := printSize) (fun _ _ => parseSize_print) (fun _ _ => parseSize_not_brack) rfl ts
      (rest := []) (.inl rfl)
    rw [hp] at this
    simpa using this

theorem parseItem_slash : parseItem .slash = none := rfl

theorem parseTrackList_iff (ts : List Tok) (l : TrackList) (r : List Tok) :
    parseTrackList ts = some (l, r) ↔ parseTracks parseItem ts = (l.names, l.items, r) ∧ l.items ≠ [] := by
  unfold parseTrackList
  rcases h : parseTracks parseItem ts with ⟨a, b, c⟩
  constructor
  · intro h
    simp only at h
    split at h
    · cases h
    · next hn => cases h; exact ⟨rfl, hn⟩
  · rintro ⟨he, hn⟩
    cases he
    simp [hn]

theorem parseTrackList_sound {ts l r} (h : parseTrackList ts = some (l, r)) (hs : ∀ i ∈ l.items, i.Strict) :
    ∃ u, ts = u ++ r ∧ TrackListG u l := by
  obtain ⟨hp, hn⟩ := (parseTrackList_iff _ _ _).1 h
  obtain ⟨u, hu, hg⟩ := parseTracks_sound (item := parseItem) (It := fun t x => parseItem t = some x) (fun _ _ h => h) ts.length ts (Nat.le_refl _)
  rw [hp] at hu hg
  exact ⟨u, hu, hg.mono (fun t x hx h => parseItem_sound h (hs x hx)), hn⟩

theorem parseTrackList_complete {ts l} (h : TrackListG ts l) {r} (hr : Stop r) : parseTrackList (ts ++ r) = some (l, r) :=
  (parseTrackList_iff _ _ _).2 ⟨parseTracks_complete (item := parseItem) (It := ItemG) (fun _ _ => parseItem_complete)
    (fun _ _ h => parseItem_not_brack (parseItem_complete h)) parseItem_slash h.1 hr, h.2⟩

theorem parseTrackList_print {ts l r'} (h : parseTrackList ts = some (l, r')) {r} (hr : Stop r) :
    parseTrackList (printTrackList l ++ r) = some (l, r) := by
  obtain ⟨hp, hn⟩ := (parseTrackList_iff _ _ _).1 h
  have := parseTracks_print (item := parseItem) (pr := printItem) (fun _ _ => parseItem_print) (fun _ _ => parseItem_not_brack)
    parseItem_slash ts hr
  rw [hp] at this
  exact (parseTrackList_iff _ _ _).2 ⟨this, hn⟩

theorem NamesG_nil_ident {t1 : List Tok} {ns s t t2 r} (h : NamesG t1 ns) (he : t1 ++ t :: t2 = .ident s :: r) : t1 = [] ∧ t = .ident s := by
  cases h with
  | none => exact ⟨rfl, (List.cons.inj he).1⟩
  | some => simp at he

/-- A track list never starts with the word `none`. -/
theorem TrackListG_not_none {ts l} (h : TrackListG ts l) {s r} (he : ts = .ident s :: r) : ¬ word s cs!"none" := by
  obtain ⟨hg, hn⟩ := h
  cases hl : l.items with
  | nil => exact absurd hl hn
  | cons x xs =>
    rw [hl] at hg
    generalize l.names = nss at hg
    cases hg with
    | more hnm hx _ =>
      obtain ⟨rfl, rfl⟩ := NamesG_nil_ident hnm he
      intro hw
      cases hx with
      | size hz =>
        cases hz with
        | breadth hb =>
          cases hb with
          | auto h => exact absurd (hw.symm.trans h) (by decide)
          | minContent h => exact absurd (hw.symm.trans h) (by decide)
          | maxContent h => exact absurd (hw.symm.trans h) (by decide)

theorem parseSizing_list {ts l r} (h : parseTrackList ts = some (l, r)) (hn : ∀ s r, ts = .ident s :: r → ¬ word s cs!"none") :
    parseSizing ts = some (.list l, r) := by
  unfold parseSizing
  split
  · next s r' =>
    have := hn s r' rfl
    rw [← kw_iff] at this
    simp [this, h]
  · simp [h]

theorem parseSizing_iff (ts : List Tok) (v : Sizing) (r : List Tok) : parseSizing ts = some (v, r) ↔
    (∃ s, word s cs!"none" ∧ ts = .ident s :: r ∧ v = .none) ∨ (∃ l, v = .list l ∧ parseTrackList ts = some (l, r)) := by
  constructor
  · intro h
    unfold parseSizing at h
    split at h
    · next s r' =>
      split at h
      · next hk => cases h; exact .inl ⟨s, (kw_iff _ _).1 hk, rfl, rfl⟩
      · simp only [Option.map_eq_some_iff] at h
        obtain ⟨⟨l, r''⟩, hl, he⟩ := h
        cases he
        exact .inr ⟨l, rfl, hl⟩
    · simp only [Option.map_eq_some_iff] at h
      obtain ⟨⟨l, r''⟩, hl, he⟩ := h
      cases he
      exact .inr ⟨l, rfl, hl⟩
  · rintro (⟨s, hw, rfl, rfl⟩ | ⟨l, rfl, h⟩)
    · simp [parseSizing, (kw_iff _ _).2 hw]
    · refine parseSizing_list h ?_
      rintro s r' rfl hw
      -- the first token is not an item and not line names, so there is no item
      obtain ⟨hp, hn⟩ := (parseTrackList_iff _ _ _).1 h
      have hi : parseItem (.ident s) = none := by
        simp [parseItem, parseSize, parseBreadth, parseRepeat, word_ne (b := cs!"auto") hw (by decide),
          word_ne (b := cs!"min-content") hw (by decide), word_ne (b := cs!"max-content") hw (by decide)]
      rw [parseTracks] at hp
      simp [optNames, lineNames, hi] at hp
      exact hn hp.2.1

theorem parseSizing_sound {ts v r} (h : parseSizing ts = some (v, r)) (hs : v.Strict) : ∃ u, ts = u ++ r ∧ SizingG u v := by
  rcases (parseSizing_iff _ _ _).1 h with ⟨s, hw, rfl, rfl⟩ | ⟨l, rfl, hl⟩
  · exact ⟨[.ident s], rfl, .none hw⟩
  · obtain ⟨u, hu, hg⟩ := parseTrackList_sound hl hs
    exact ⟨u, hu, .list hg⟩

theorem parseSizing_complete {ts v} (h : SizingG ts v) {r} (hr : Stop r) : parseSizing (ts ++ r) = some (v, r) := by
  rw [parseSizing_iff]
  cases h with
  | none hw => exact .inl ⟨_, hw, rfl, rfl⟩
  | list hl => exact .inr ⟨_, rfl, parseTrackList_complete hl hr⟩

theorem parseSizing_print {ts v r'} (h : parseSizing ts = some (v, r')) {r} (hr : Stop r) :
    parseSizing (printSizing v ++ r) = some (v, r) := by
  rw [parseSizing_iff]
  rcases (parseSizing_iff _ _ _).1 h with ⟨s, hw, rfl, rfl⟩ | ⟨l, rfl, hl⟩
  · exact .inl ⟨cs!"none", by unfold word; decide, rfl, rfl⟩
  · exact .inr ⟨l, rfl, parseTrackList_print hl hr⟩

theorem SizingG.strict {ts v} (h : SizingG ts v) : v.Strict := by
  cases h with
  | none => trivial
  | @list _ l hl =>
    intro i hi
    obtain ⟨hg, -⟩ := hl
    revert hi
    generalize l.names = nss at hg
    generalize l.items = xs at hg
    intro hi
    induction hg with
    | last => cases hi
    | more _ hx _ ih =>
      rcases List.mem_cons.1 hi with rfl | hi
      · exact ItemG.strict hx
      · exact ih hi

/-! ### Lists of track sizes -/

theorem parseSizes_complete {ts zs} (h : List.Forall₂ SizeG ts zs) {r} (hr : Stop r) : parseSizes (ts ++ r) = (zs, r) := by
  induction h with
  | nil => rcases hr with rfl | ⟨r, rfl⟩ <;> rfl
  | cons hz _ ih => simp [parseSizes, (parseSize_iff _ _).2 hz, ih]

theorem parseSizes_sound (ts : List Tok) : ∃ u, ts = u ++ (parseSizes ts).2 ∧ List.Forall₂ SizeG u (parseSizes ts).1 := by
  induction ts with
  | nil => exact ⟨[], rfl, .nil⟩
  | cons t ts ih =>
    obtain ⟨u, hu, hg⟩ := ih
    cases h : parseSize t with
    | none => exact ⟨[], by simp [parseSizes, h], by simp [parseSizes, h]⟩
    | some z =>
      refine ⟨t :: u, ?_, ?_⟩
      · simp [parseSizes, h]
        exact hu
      · simp [parseSizes, h]
        exact ⟨(parseSize_iff _ _).1 h, hg⟩

/-- `grid-auto-rows` read back: what `SizeListG` accepts, plus the empty value. -/
theorem parseSizeList_sound {ts zs r} (h : parseSizeList ts = (zs, r)) : ∃ u, ts = u ++ r ∧ (SizeListG u zs ∨ (u = [] ∧ zs = [])) := by
  obtain ⟨u, hu, hg⟩ := parseSizes_sound ts
  simp only [parseSizeList] at h
  split at h
  · next he =>
    cases h
    refine ⟨u, hu, .inl ?_⟩
    rw [he] at hg
    cases hg with
    | cons hz hn => cases hn; exact .auto hz
  · next he =>
    rw [h] at hu hg he
    refine ⟨u, hu, ?_⟩
    by_cases hz : zs = []
    · subst hz
      cases hg
      exact .inr ⟨rfl, rfl⟩
    · exact .inl (.list hg hz he)

theorem parseSizeList_complete {ts zs} (h : SizeListG ts zs) {r} (hr : Stop r) : parseSizeList (ts ++ r) = (zs, r) := by
  cases h with
  | auto hz =>
    have := parseSizes_complete (List.Forall₂.cons hz .nil) hr
    simp only [List.cons_append, List.nil_append] at this ⊢
    simp [parseSizeList, this, Size.default]
  | list hg hn ha =>
    have := parseSizes_complete hg hr
    simp [parseSizeList, this, Size.default, ha]

theorem printSizeList_G {zs : List Size} (h : ∀ z ∈ zs, z.Ok) (ha : zs ≠ [.breadth .auto]) : SizeListG (printSizeList zs) zs := by
  unfold printSizeList
  split
  · next hz => subst hz; exact .auto (.breadth (.auto (by unfold word; decide)))
  · next hz =>
    refine .list ?_ hz ha
    clear hz ha
    induction zs with
    | nil => exact .nil
    | cons z zs ih => exact .cons (printSize_G (h z (by simp))) (ih fun z hz => h z (by simp [hz]))

theorem SizeListG.ok {ts zs} (h : SizeListG ts zs) : (∀ z ∈ zs, z.Ok) ∧ zs ≠ [.breadth .auto] := by
  cases h with
  | auto => simp
  | list hg hn ha =>
    refine ⟨?_, ha⟩
    clear hn ha
    induction hg with
    | nil => simp
    | cons hz _ ih => simp [hz.ok]; exact ih

/-! ### C110 -/

/-- Reading `grid-template-rows` and `grid-template-columns`: a token list is a value by the CSS grammar exactly
if it is accepted and `repeat()` is used as CSS requires; and then the value is the one the grammar gives. -/
theorem C110_read (ts : List Tok) (v : Sizing) :
    SizingG ts v ↔ parseSizing ts = some (v, []) ∧ v.Strict := by
  constructor
  · intro h
    have := parseSizing_complete h (r := []) (.inl rfl)
    exact ⟨by simpa using this, SizingG.strict h⟩
  · rintro ⟨h, hs⟩
    obtain ⟨u, hu, hg⟩ := parseSizing_sound h hs
    simp only [List.append_nil] at hu
    subst hu
    exact hg

/-- Whatever was read for `grid-template-rows` or `grid-template-columns`, the printed value reads as the same
value again. -/
theorem C110_round_trip (ts : List Tok) (v : Sizing) (h : parseSizing ts = some (v, [])) :
    parseSizing (printSizing v) = some (v, []) := by
  have := parseSizing_print h (r := []) (.inl rfl)
  simpa using this

/-- The printed value of a valid track list has the same meaning by the CSS grammar. -/
theorem C110_print (ts : List Tok) (v : Sizing) (h : SizingG ts v) : SizingG (printSizing v) v :=
  (C110_read _ _).2 ⟨C110_round_trip ts v ((C110_read _ _).1 h).1, ((C110_read _ _).1 h).2⟩

/-- The grammar is unambiguous. -/
theorem C110_unique (ts : List Tok) (v w : Sizing) (hv : SizingG ts v) (hw : SizingG ts w) : v = w := by
  have h1 := ((C110_read _ _).1 hv).1
  rw [((C110_read _ _).1 hw).1] at h1
  cases h1
  rfl

/-- `grid-auto-rows` and `grid-auto-columns`: every value of the grammar is read as the grammar says, and printed
to something that means the same. -/
theorem C110_auto (ts : List Tok) (zs : List Size) (h : SizeListG ts zs) :
    parseSizeList ts = (zs, []) ∧ SizeListG (printSizeList zs) zs := by
  have := parseSizeList_complete h (r := []) (.inl rfl)
  exact ⟨by simpa using this, printSizeList_G (SizeListG.ok h).1 (SizeListG.ok h).2⟩

/-- The other direction, for values that are not empty. -/
theorem C110_auto_read (ts : List Tok) (zs : List Size) (hne : ts ≠ []) (h : parseSizeList ts = (zs, [])) : SizeListG ts zs := by
  obtain ⟨u, hu, hg | ⟨rfl, rfl⟩⟩ := parseSizeList_sound h
  · simp only [List.append_nil] at hu; subst hu; exact hg
  · exact absurd hu hne

/-- To evaluate a parser on concrete tokens. -/
theorem eval_parse {α β : Type} {o : Option (α × List β)} {v : α} (h : (o.map fun p => (p.1, p.2.isEmpty)) = some (v, true)) :
    o = some (v, []) := by
  cases o with
  | none => cases h
  | some p =>
    simp only [Option.map_some, Option.some.injEq, Prod.mk.injEq, List.isEmpty_iff] at h
    obtain ⟨a, b⟩ := p
    simp only at h
    rw [h.1, h.2]

/-- Not excluded by the parser: `repeat(0, 1fr)` and `repeat(2, [a])`. -/
theorem C110_repeat_unchecked :
    (∃ v, parseSizing [.func cs!"repeat" [.int 0, .comma, .fr 1]] = some (v, []) ∧ ¬ SizingG [.func cs!"repeat" [.int 0, .comma, .fr 1]] v) ∧
    (∃ v, parseSizing [.func cs!"repeat" [.int 2, .comma, .brack [.ident cs!"a"]]] = some (v, []) ∧
      ¬ SizingG [.func cs!"repeat" [.int 2, .comma, .brack [.ident cs!"a"]]] v) := by
  refine ⟨⟨.list ⟨[[], []], [.rep ⟨.number 0, [[], []], [.breadth (.flex 1)]⟩]⟩, eval_parse (by decide +kernel), ?_⟩,
    ⟨.list ⟨[[], []], [.rep ⟨.number 2, [[cs!"a"]], []⟩]⟩, eval_parse (by decide +kernel), ?_⟩⟩
  · intro h
    have := SizingG.strict h _ (List.mem_singleton.2 rfl)
    exact absurd (this.1 0 rfl) (by decide)
  · intro h
    have := SizingG.strict h _ (List.mem_singleton.2 rfl)
    exact this.2 rfl

/-- `[a b] 100px repeat(auto-fit, [c] minmax(10px, 2fr)) [d]` is such a value. -/
example : ∃ v, SizingG [.brack [.ident cs!"a", .ident cs!"b"], .len 100,
    .func cs!"repeat" [.ident cs!"auto-fit", .comma, .brack [.ident cs!"c"], .func cs!"minmax" [.len 10, .comma, .fr 2]], .brack [.ident cs!"d"]] v := by
  refine ⟨.list ⟨[[cs!"a", cs!"b"], [], [cs!"d"]], [.size (.breadth (.length 100)),
    .rep ⟨.autoFit, [[cs!"c"], []], [.minmax (.length 10) (.flex 2)]⟩]⟩, (C110_read _ _).2 ⟨eval_parse (by decide +kernel), ?_⟩⟩
  intro i hi
  simp at hi
  rcases hi with rfl | rfl
  · trivial
  · refine ⟨?_, by simp⟩
    intro n hn
    cases hn

end Verif.Grid
