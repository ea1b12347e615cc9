import Verif.Grid.Spec
namespace Verif.Grid
open Spec

theorem kw_iff (s lit : Str) : kw s lit = true ↔ word s lit := by simp [kw, word]

theorem word_ne {s a b : Str} (h : word s a) (hab : a ≠ b) : kw s b = false := by
  simp only [kw, decide_eq_false_iff_not]
  intro h'
  exact hab (h.symm.trans h')

/-- `customIdent` recognises exactly the custom identifiers. -/
theorem customIdent_iff (t : Tok) (s : Str) : customIdent t = some s ↔ t = .ident s ∧ Custom s := by
  cases t with
  | ident w =>
    simp only [customIdent]
    constructor
    · intro h
      split at h
      · cases h
      · next hn =>
        cases h
        refine ⟨rfl, ?_⟩
        intro k hk hw
        rw [← kw_iff] at hw
        simp only [Bool.or_eq_true, not_or, Bool.not_eq_true] at hn
        simp only [List.mem_cons, List.not_mem_nil, or_false] at hk
        rcases hk with rfl | rfl | rfl | rfl | rfl | rfl <;> simp_all
    · rintro ⟨he, hc⟩
      cases he
      have h : ∀ k ∈ [cs!"initial", cs!"inherit", cs!"unset", cs!"default", cs!"revert", cs!"revert-layer"], kw s k = false := by
        intro k hk
        have := hc k hk
        rw [← kw_iff] at this
        simpa using this
      simp [h]
  | _ => simp [customIdent]

theorem customIdents_iff (ts : List Tok) (ns : List Str) :
    customIdents ts = some ns ↔ ts = ns.map .ident ∧ ∀ n ∈ ns, Custom n := by
  induction ts generalizing ns with
  | nil =>
    simp only [customIdents]
    constructor
    · intro h; cases h; simp
    · rintro ⟨h, _⟩
      cases ns with
      | nil => rfl
      | cons a b => simp at h
  | cons t ts ih =>
    simp only [customIdents, Option.bind_eq_some_iff, Option.map_eq_some_iff]
    constructor
    · rintro ⟨s, hs, ns', hns, rfl⟩
      rw [customIdent_iff] at hs
      rw [ih] at hns
      refine ⟨by simp [hs.1, hns.1], ?_⟩
      intro n hn
      rcases List.mem_cons.1 hn with rfl | hn
      · exact hs.2
      · exact hns.2 n hn
    · rintro ⟨he, hc⟩
      cases ns with
      | nil => simp at he
      | cons a b =>
        simp only [List.map_cons, List.cons.injEq] at he
        exact ⟨a, (customIdent_iff _ _).2 ⟨he.1, hc a (by simp)⟩, b, (ih b).2 ⟨he.2, fun n hn => hc n (by simp [hn])⟩, rfl⟩

theorem lineNames_iff (ts : List Tok) (ns : List Str) (r : List Tok) :
    lineNames ts = some (ns, r) ↔ ts = .brack (ns.map .ident) :: r ∧ ∀ n ∈ ns, Custom n := by
  constructor
  · intro h
    unfold lineNames at h
    split at h
    · next as r' =>
      cases hc : customIdents as with
      | none => simp [hc] at h
      | some x =>
        simp [hc] at h
        obtain ⟨rfl, rfl⟩ := h
        have := (customIdents_iff as x).1 hc
        exact ⟨by rw [this.1], this.2⟩
    · cases h
  · rintro ⟨rfl, hc⟩
    simp [lineNames, (customIdents_iff _ ns).2 ⟨rfl, hc⟩]

theorem optNames_sound (ts : List Tok) : ∃ used, ts = used ++ (optNames ts).2 ∧ NamesG used (optNames ts).1 := by
  unfold optNames
  cases h : lineNames ts with
  | none => exact ⟨[], by simp, .none⟩
  | some p =>
    obtain ⟨ns, r⟩ := p
    have := (lineNames_iff ts ns r).1 h
    exact ⟨[.brack (ns.map .ident)], by simp [this.1], .some this.2⟩

theorem optNames_complete {u : List Tok} {ns : List Str} (h : NamesG u ns) {rest : List Tok} (hr : lineNames rest = none) :
    optNames (u ++ rest) = (ns, rest) := by
  cases h with
  | none => simp [optNames, hr]
  | some hc => simp [optNames, (lineNames_iff _ ns rest).2 ⟨rfl, hc⟩]

/-- The rest after a value: nothing or a slash. -/
def Stop (rest : List Tok) : Prop := rest = [] ∨ ∃ r, rest = .slash :: r

theorem lineNames_stop {rest : List Tok} (h : Stop rest) : lineNames rest = none := by
  rcases h with rfl | ⟨r, rfl⟩ <;> rfl

theorem lineNames_of_not_brack {t : Tok} {r : List Tok} (h : ∀ as, t ≠ .brack as) : lineNames (t :: r) = none := by
  unfold lineNames
  split
  · next heq => cases heq; exact absurd rfl (h _)
  · rfl

/-! ### Sizes -/

theorem parseBreadth_iff (f : Bool) (t : Tok) (b : Breadth) : parseBreadth f t = some b ↔ BreadthG f t b := by
  constructor
  · intro h
    cases t with
    | len l => simp [parseBreadth] at h; subst h; exact .len
    | fr q =>
      simp only [parseBreadth] at h
      split at h
      · next hc =>
        cases h
        simp at hc
        rw [hc.1]
        exact .flex hc.2
      · cases h
    | ident s =>
      simp only [parseBreadth] at h
      split at h
      · next hk => cases h; exact .auto ((kw_iff _ _).1 hk)
      · split at h
        · next hk => cases h; exact .minContent ((kw_iff _ _).1 hk)
        · split at h
          · next hk => cases h; exact .maxContent ((kw_iff _ _).1 hk)
          · cases h
    | _ => simp [parseBreadth] at h
  · intro h
    cases h with
    | len => rfl
    | flex hq => simp [parseBreadth, hq]
    | auto hw => simp [parseBreadth, (kw_iff _ _).2 hw]
    | minContent hw =>
      have h1 := word_ne (b := cs!"auto") hw (by decide)
      simp [parseBreadth, (kw_iff _ _).2 hw, h1]
    | maxContent hw =>
      have h1 := word_ne (b := cs!"auto") hw (by decide)
      have h2 := word_ne (b := cs!"min-content") hw (by decide)
      simp [parseBreadth, (kw_iff _ _).2 hw, h1, h2]

theorem parseSize_iff (t : Tok) (z : Size) : parseSize t = some z ↔ SizeG t z := by
  constructor
  · intro h
    unfold parseSize at h
    split at h
    · next name args =>
      split at h
      · next hk =>
        split at h
        · next a b =>
          simp only [Option.bind_eq_some_iff, Option.map_eq_some_iff] at h
          obtain ⟨x, hx, y, hy, rfl⟩ := h
          exact .minmax ((kw_iff _ _).1 hk) ((parseBreadth_iff _ _ _).1 hx) ((parseBreadth_iff _ _ _).1 hy)
        · cases h
      · split at h
        · next hk =>
          split at h
          · cases h; exact .fit ((kw_iff _ _).1 hk)
          · cases h
        · cases h
    · simp only [Option.map_eq_some_iff] at h
      obtain ⟨b, hb, rfl⟩ := h
      exact .breadth ((parseBreadth_iff _ _ _).1 hb)
  · intro h
    cases h with
    | breadth hb =>
      have hp := (parseBreadth_iff _ _ _).2 hb
      cases t with
      | func n a => cases hb
      | _ => simp only [parseSize, hp, Option.map_some]
    | minmax hw ha hb =>
      simp [parseSize, (kw_iff _ _).2 hw, (parseBreadth_iff _ _ _).2 ha, (parseBreadth_iff _ _ _).2 hb]
    | fit hw =>
      have h1 : kw _ cs!"minmax" = false := word_ne hw (by decide)
      simp [parseSize, (kw_iff _ _).2 hw, h1]

theorem SizeG_not_brack {t : Tok} {z : Size} (h : SizeG t z) : ∀ as, t ≠ .brack as := by
  intro as he
  subst he
  cases h with
  | breadth hb => cases hb

/-! ### Lists of tracks -/

theorem parseTracks_sound {α : Type} {item : Tok → Option α} {It : Tok → α → Prop}
    (hi : ∀ t x, item t = some x → It t x) (n : Nat) (ts : List Tok) (hn : ts.length ≤ n) :
    ∃ used, ts = used ++ (parseTracks item ts).2.2 ∧ TracksG It used (parseTracks item ts).1 (parseTracks item ts).2.1 := by
  induction n generalizing ts with
  | zero =>
    have : ts = [] := by simpa using hn
    subst this
    rw [parseTracks]
    exact ⟨[], rfl, .last .none⟩
  | succ n ih =>
    obtain ⟨u, hu, hg⟩ := optNames_sound ts
    rw [parseTracks]
    split
    · next heq =>
      rw [heq] at hu
      exact ⟨u, by simpa using hu, .last hg⟩
    · next t r heq =>
      rw [heq] at hu
      cases hx : item t with
      | none => exact ⟨u, hu, .last hg⟩
      | some x =>
        have hl : r.length ≤ n := by
          have := congrArg List.length hu
          simp at this
          omega
        obtain ⟨u', hu', hg'⟩ := ih r hl
        refine ⟨u ++ t :: u', ?_, .more hg (hi t x hx) hg'⟩
        simp only [List.append_assoc, List.cons_append]
        rw [← hu', ← hu]

theorem parseTracks_complete {α : Type} {item : Tok → Option α} {It : Tok → α → Prop}
    (hi : ∀ t x, It t x → item t = some x) (hb : ∀ t x, It t x → ∀ as, t ≠ .brack as) (hs : item .slash = none)
    {ts : List Tok} {nss xs} (h : TracksG It ts nss xs) {rest : List Tok} (hr : Stop rest) :
    parseTracks item (ts ++ rest) = (nss, xs, rest) := by
  induction h with
  | last hn =>
    rw [parseTracks]
    have ho := optNames_complete hn (lineNames_stop hr)
    rcases hr with rfl | ⟨r, rfl⟩
    · rw [List.append_nil] at ho ⊢
      split
      · simp [ho]
      · next heq => simp [ho] at heq
    · split
      · next heq => simp [ho] at heq
      · next t r' heq =>
        simp [ho] at heq
        obtain ⟨rfl, rfl⟩ := heq
        simp [hs, ho]
  | @more t1 ns t x t2 nss xs hn hx _ ih =>
    rw [List.append_assoc, List.cons_append, parseTracks]
    have ho := optNames_complete hn (rest := t :: (t2 ++ rest)) (lineNames_of_not_brack (hb t x hx))
    split
    · next heq => simp [ho] at heq
    · next t' r' heq =>
      simp [ho] at heq
      obtain ⟨rfl, rfl⟩ := heq
      simp [hi t x hx, ih, ho]

theorem Spec.TracksG.mono {α : Type} {It It' : Tok → α → Prop} {ts nss} {xs : List α} (h : TracksG It ts nss xs)
    (hm : ∀ t x, x ∈ xs → It t x → It' t x) : TracksG It' ts nss xs := by
  induction h with
  | last hn => exact .last hn
  | more hn hx _ ih =>
    exact .more hn (hm _ _ (by simp) hx) (ih fun t x hx => hm t x (by simp [hx]))

theorem Spec.TracksG.length {α : Type} {It : Tok → α → Prop} {ts nss} {xs : List α} (h : TracksG It ts nss xs) :
    nss.length = xs.length + 1 := by
  induction h with
  | last hn => rfl
  | more hn hx _ ih => simp [ih]

theorem Spec.NamesG.custom {ts : List Tok} {ns : List Str} (h : NamesG ts ns) : ∀ n ∈ ns, Custom n := by
  cases h with
  | none => simp
  | some h => exact h

theorem Spec.TracksG.custom {α : Type} {It : Tok → α → Prop} {ts nss} {xs : List α} (h : TracksG It ts nss xs) :
    ∀ ns ∈ nss, ∀ n ∈ ns, Custom n := by
  induction h with
  | last hn => simpa using hn.custom
  | more hn hx _ ih =>
    intro ns hm
    rcases List.mem_cons.1 hm with rfl | hm
    · exact hn.custom
    · exact ih ns hm

theorem printNames_G {ns : List Str} (h : ∀ n ∈ ns, Custom n) : NamesG (printNames ns) ns := by
  unfold printNames
  split
  · next h => subst h; exact .none
  · exact .some h

theorem printTracks_G {α : Type} {item : α → Tok} {It : Tok → α → Prop} (nss : List (List Str)) (xs : List α)
    (hl : nss.length = xs.length + 1) (hc : ∀ ns ∈ nss, ∀ n ∈ ns, Custom n) (hi : ∀ x ∈ xs, It (item x) x) :
    TracksG It (printTracks item nss xs) nss xs := by
  induction nss generalizing xs with
  | nil => simp at hl
  | cons ns nss ih =>
    cases xs with
    | nil =>
      have : nss = [] := by simpa using hl
      subst this
      simp only [printTracks, List.append_nil]
      exact .last (printNames_G (hc ns (by simp)))
    | cons x xs =>
      simp only [printTracks]
      exact .more (printNames_G (hc ns (by simp))) (hi x (by simp))
        (ih xs (by simpa using hl) (fun ns h => hc ns (by simp [h])) (fun x h => hi x (by simp [h])))

/-- What can be written: flex factors are not negative, the first argument of `minmax()` is not flexible. -/
def Breadth.Ok (f : Bool) : Breadth → Prop
  | .flex q => f = true ∧ 0 ≤ q
  | _ => True

def Size.Ok : Size → Prop
  | .breadth b => b.Ok true
  | .minmax a b => a.Ok false ∧ b.Ok true
  | .fitContent _ => True

theorem printBreadth_G {f : Bool} {b : Breadth} (h : b.Ok f) : BreadthG f (printBreadth b) b := by
  cases b with
  | flex q =>
    simp only [Breadth.Ok] at h
    rw [h.1]
    exact .flex h.2
  | length => exact .len
  | auto => exact .auto (by unfold word; decide)
  | minContent => exact .minContent (by unfold word; decide)
  | maxContent => exact .maxContent (by unfold word; decide)

theorem Spec.BreadthG.ok {f t b} (h : BreadthG f t b) : b.Ok f := by
  cases h with
  | flex hq => exact ⟨rfl, hq⟩
  | _ => trivial

theorem printSize_G {z : Size} (h : z.Ok) : SizeG (printSize z) z := by
  cases z with
  | breadth b => exact .breadth (printBreadth_G h)
  | minmax a b => exact .minmax (by unfold word; decide) (printBreadth_G h.1) (printBreadth_G h.2)
  | fitContent l => exact .fit (by unfold word; decide)

theorem Spec.SizeG.ok {t z} (h : SizeG t z) : z.Ok := by
  cases h with
  | breadth h => exact h.ok
  | minmax _ h1 h2 => exact ⟨h1.ok, h2.ok⟩
  | fit => trivial

end Verif.Grid
