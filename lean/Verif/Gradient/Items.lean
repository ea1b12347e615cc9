import Verif.Gradient.Spec
import Verif.Transform.Lemmas
/-! Lemmas: colour stops are parsed and printed. -/
namespace Verif.Gradient
open Transform (Env lengthPct Arg LP lpVal)

section
variable {D : Type} {ops : Ops D} {val : Arg → Option ℝ} {dv : D → ℝ}

/-- What an item says. -/
def Item.raw (dv : D → ℝ) : Item D → Raw
  | .stop c p => .color c (p.map dv)
  | .hint d => .hint (dv d)

/-- A printed position means the same. -/
def PrintsOk (ops : Ops D) (val : Arg → Option ℝ) (dv : D → ℝ) : Prop := ∀ d, val (ops.print d) = some (dv d)
/-- A valid position is parsed with its meaning. -/
def ParsesOk (ops : Ops D) (val : Arg → Option ℝ) (dv : D → ℝ) : Prop := ∀ a v, val a = some v → ∃ d, ops.parse a = some d ∧ dv d = v

theorem at_dTok (hp : PrintsOk ops val dv) (d : D) : at? val (dTok ops d) = some (dv d) := hp d

theorem at_parse (hp : ParsesOk ops val dv) {t : Tok} {v : ℝ} (h : at? val t = some v) : ∃ d, dimTok ops t = some d ∧ dv d = v := by
  cases t with
  | pos t =>
    cases t with
    | arg a => exact hp a v h
    | kw k => cases h
    | other n => cases h
  | _ => cases h

/-- The hint flag. -/
def isColor : Raw → Bool
  | .color _ _ => true
  | .hint _ => false

/-- A hint may only come if a stop was seen. -/
def okSeen (seen : Bool) (r : List Raw) : Prop := seen = false → ∀ p r', r ≠ .hint p :: r'

theorem parseSeg_ok (hp : ParsesOk ops val dv) {seen : Bool} {s : Seg} {r : List Raw} (h : rawSeg val s = some r) (ho : okSeen seen r) :
    ∃ is b, parseSeg ops seen s = some (is, b) ∧ is.map (Item.raw dv) = r ∧ (b = false ↔ ∃ p, r = [.hint p]) := by
  unfold rawSeg at h
  split at h
  · cases h; exact ⟨_, _, rfl, rfl, by simp⟩
  · simp only [Option.bind_eq_bind, Option.bind_eq_some_iff, Option.some.injEq] at h
    obtain ⟨v, h, rfl⟩ := h
    obtain ⟨d, hd, rfl⟩ := at_parse hp h
    exact ⟨[.stop _ (some d)], true, by simp [parseSeg, hd], rfl, by simp⟩
  · simp only [Option.bind_eq_bind, Option.bind_eq_some_iff, Option.some.injEq] at h
    obtain ⟨v, h, w, h', rfl⟩ := h
    obtain ⟨d, hd, rfl⟩ := at_parse hp h
    obtain ⟨e, he, rfl⟩ := at_parse hp h'
    exact ⟨[.stop _ (some d), .stop _ (some e)], true, by simp [parseSeg, hd, he], rfl, by simp⟩
  · rename_i t hne
    simp only [Option.bind_eq_bind, Option.bind_eq_some_iff, Option.some.injEq] at h
    obtain ⟨v, h, rfl⟩ := h
    obtain ⟨d, hd, rfl⟩ := at_parse hp h
    cases seen with
    | false => exact absurd rfl (ho rfl _ _)
    | true =>
      refine ⟨[.hint d], false, ?_, rfl, by simp⟩
      unfold parseSeg
      split
      · rename_i c rest e; cases e; exact absurd rfl (hne c)
      · rename_i e; cases e; simp [hd]
      · rename_i e1 e2; exact absurd rfl (e2 _)
  · cases h

theorem rawSeg_ne {s : Seg} {r : List Raw} (h : rawSeg val s = some r) : r ≠ [] := by
  unfold rawSeg at h
  split at h <;> simp [Option.bind_eq_some_iff] at h
  · subst h; simp
  · obtain ⟨_, _, rfl⟩ := h; simp
  · obtain ⟨_, _, _, _, rfl⟩ := h; simp
  · obtain ⟨_, _, rfl⟩ := h; simp

theorem mapM_cons_some {α β : Type} {f : α → Option β} {a : α} {as : List α} {r : List β} (h : (a :: as).mapM f = some r) :
    ∃ b bs, f a = some b ∧ as.mapM f = some bs ∧ r = b :: bs := by
  simp only [List.mapM_cons, Option.pure_def, Option.bind_eq_bind, Option.bind_eq_some_iff, Option.some.injEq] at h
  obtain ⟨b, h1, bs, h2, rfl⟩ := h
  exact ⟨b, bs, h1, h2, rfl⟩

theorem attach_hint {r : List Raw} {ss : List Stop} {p : ℝ} (h : attach (some p) r = some ss) : ∀ q r', r ≠ .hint q :: r' := by
  rintro q r' rfl; simp [attach] at h

theorem attach_tail {h : Option ℝ} {c : Nat} {p : Option ℝ} {r : List Raw} {ss : List Stop} (e : attach h (.color c p :: r) = some ss) :
    ∃ ss', attach none r = some ss' ∧ ss = ⟨h, c, p⟩ :: ss' := by
  cases h <;> simp only [attach, Option.map_eq_some_iff] at e <;> obtain ⟨ss', h1, rfl⟩ := e <;> exact ⟨ss', h1, rfl⟩

/-- After the first segment, valid stops are parsed. -/
theorem parseSegs_ok (hp : ParsesOk ops val dv) : ∀ {segs : List Seg} {seen : Bool} {pend : Option ℝ} {raws : List (List Raw)} {ss : List Stop},
    segs.mapM (rawSeg val) = some raws → attach pend raws.flatten = some ss → (seen = false → pend ≠ none) →
    ∃ is, parseSegs ops seen segs = some is ∧ is.map (Item.raw dv) = raws.flatten
  | [], seen, pend, raws, ss, h, _, _ => by cases h; exact ⟨[], rfl, rfl⟩
  | s :: segs, seen, pend, raws, ss, h, ha, hs => by
    obtain ⟨r, rs, h1, h2, rfl⟩ := mapM_cons_some h
    rw [List.flatten_cons] at ha
    have ho : okSeen seen r := by
      intro e p r' hr
      obtain ⟨q, hq⟩ := Option.ne_none_iff_exists'.1 (hs e)
      subst hq hr
      simp [attach] at ha
    obtain ⟨is, b, e1, e2, e3⟩ := parseSeg_ok hp h1 ho
    have : ∃ pend' ss', attach pend' rs.flatten = some ss' ∧ (b = false → pend' ≠ none) := by
      unfold rawSeg at h1
      split at h1 <;> simp [Option.bind_eq_some_iff] at h1
      · subst h1
        obtain ⟨ss', h, -⟩ := attach_tail ha
        exact ⟨none, ss', h, fun hb => by obtain ⟨p, hp⟩ := e3.1 hb; simp at hp⟩
      · obtain ⟨v, _, rfl⟩ := h1
        obtain ⟨ss', h, -⟩ := attach_tail ha
        exact ⟨none, ss', h, fun hb => by obtain ⟨p, hp⟩ := e3.1 hb; simp at hp⟩
      · obtain ⟨v, _, w, _, rfl⟩ := h1
        obtain ⟨ss', h, -⟩ := attach_tail ha
        obtain ⟨ss', h, -⟩ := attach_tail h
        exact ⟨none, ss', h, fun hb => by obtain ⟨p, hp⟩ := e3.1 hb; simp at hp⟩
      · obtain ⟨v, _, rfl⟩ := h1
        cases pend with
        | some q => simp [attach] at ha
        | none => exact ⟨some v, ss, by simpa [attach] using ha, by simp⟩
    obtain ⟨pend', ss', h3, h4⟩ := this
    obtain ⟨js, h5, h6⟩ := parseSegs_ok hp h2 h3 h4
    exact ⟨is ++ js, by simp [parseSegs, e1, h5], by simp [e2, h6]⟩

/-- Valid stops are parsed. -/
theorem parseItems_ok (hp : ParsesOk ops val dv) {segs : List Seg} {ss : List Stop} (h : IsStops val segs ss) :
    ∃ is, parseItems ops segs = some is ∧ attach none (is.map (Item.raw dv)) = some ss := by
  obtain ⟨raws, h1, h2, h3, h4⟩ := h
  cases segs with
  | nil => cases h1; cases h2; simp at h3
  | cons s segs =>
    obtain ⟨r, rs, e1, e2, rfl⟩ := mapM_cons_some h1
    rw [List.flatten_cons] at h2
    have hr : ∀ p r', r ≠ .hint p :: r' := by
      rintro p r' rfl
      simp only [List.cons_append, attach] at h2
      generalize hx : r' ++ rs.flatten = x at h2
      cases x with
      | nil => simp [attach] at h2
      | cons y x =>
        cases y with
        | hint q => simp [attach] at h2
        | color c q => obtain ⟨_, _, rfl⟩ := attach_tail h2; simpa using h4 _ rfl
    have ho : okSeen false r := fun _ => hr
    obtain ⟨is, b, f1, f2, f3⟩ := parseSeg_ok hp e1 ho
    have hb : b = true := by
      cases b with
      | true => rfl
      | false => obtain ⟨p, hp⟩ := f3.1 rfl; exact absurd hp (hr p [])
    subst hb
    have : ∃ ss', attach none rs.flatten = some ss' := by
      unfold rawSeg at e1
      split at e1 <;> simp [Option.bind_eq_some_iff] at e1
      · subst e1; obtain ⟨ss', h, -⟩ := attach_tail h2; exact ⟨ss', h⟩
      · obtain ⟨v, _, rfl⟩ := e1; obtain ⟨ss', h, -⟩ := attach_tail h2; exact ⟨ss', h⟩
      · obtain ⟨v, _, w, _, rfl⟩ := e1
        obtain ⟨ss', h, -⟩ := attach_tail h2
        obtain ⟨ss', h, -⟩ := attach_tail h
        exact ⟨ss', h⟩
      · obtain ⟨v, _, rfl⟩ := e1; exact absurd rfl (hr v [])
    obtain ⟨ss', h5⟩ := this
    obtain ⟨js, h6, h7⟩ := parseSegs_ok hp e2 h5 (seen := true) (by simp)
    refine ⟨is ++ js, by simp [parseItems, parseSegs, f1, h6], ?_⟩
    rw [List.map_append, f2, h7]; exact h2

theorem toks_raw (hp : PrintsOk ops val dv) (i : Item D) : rawSeg val (i.toks ops) = some [i.raw dv] := by
  rcases i with ⟨c, _ | d⟩ | d
  · rfl
  · simp [Item.toks, rawSeg, at_dTok hp, Item.raw]
  · simp only [Item.toks]
    have : rawSeg val [dTok ops d] = (do some [.hint (← at? val (dTok ops d))]) := rfl
    rw [this, at_dTok hp]; rfl

/-- Printing items. -/
theorem serialize_ok (hp : PrintsOk ops val dv) (dp : Bool) : ∀ (last : Option (Item D)) (is : List (Item D)), (∀ i ∈ is, useless ops i = false) →
    ∃ rs, (serialize ops dp last is).2.mapM (rawSeg val) = some rs ∧
      ((serialize ops dp last is).1 = [] ∧ rs.flatten = is.map (Item.raw dv) ∨
        ∃ c d e js, last = some (.stop c (some d)) ∧ is = .stop c (some e) :: js ∧ (serialize ops dp last is).1 = [dTok ops e] ∧ rs.flatten = js.map (Item.raw dv))
  | last, [], _ => ⟨[], rfl, .inl ⟨rfl, rfl⟩⟩
  | last, i :: is, h => by
    have hi := h i (by simp)
    have hs := fun j hj => h j (List.mem_cons_of_mem _ hj)
    simp only [serialize, hi, Bool.false_eq_true, if_false]
    split
    · rename_i d hm
      have hm' : merge last i = some d := by cases dp <;> simp_all
      have : ∃ c d0, last = some (.stop c (some d0)) ∧ i = .stop c (some d) := by
        unfold merge at hm'
        split at hm'
        · rename_i c d0 c' d1
          split at hm'
          · rename_i e; cases hm'; subst e; exact ⟨c, d0, rfl, rfl⟩
          · cases hm'
        · cases hm'
      obtain ⟨c, d0, rfl, rfl⟩ := this
      obtain ⟨rs, h1, h2⟩ := serialize_ok hp dp none is hs
      rcases h2 with ⟨h2, h3⟩ | ⟨_, _, _, _, h2, _⟩
      · exact ⟨rs, h1, .inr ⟨c, d0, d, is, rfl, rfl, by rw [h2], h3⟩⟩
      · cases h2
    · obtain ⟨rs, h1, h2⟩ := serialize_ok hp dp (some i) is hs
      rcases h2 with ⟨h2, h3⟩ | ⟨c, d, e, js, h2, rfl, h3, h4⟩
      · refine ⟨[i.raw dv] :: rs, ?_, .inl ⟨rfl, ?_⟩⟩
        · rw [h2, List.append_nil, List.mapM_cons, toks_raw hp, h1]; rfl
        · simp [h3]
      · cases h2
        refine ⟨[.color c (some (dv d)), .color c (some (dv e))] :: rs, ?_, .inl ⟨rfl, ?_⟩⟩
        · rw [h3, List.mapM_cons]
          have : rawSeg val (Item.toks ops (.stop c (some d)) ++ [dTok ops e]) = some [.color c (some (dv d)), .color c (some (dv e))] := by
            simp [Item.toks, rawSeg, at_dTok hp]
          rw [this, h1]; rfl
        · simp [h4, Item.raw]

/-- Printed items mean the same. -/
theorem printItems_ok (hp : PrintsOk ops val dv) (dp : Bool) {is : List (Item D)} {ss : List Stop} (hu : ∀ i ∈ is, useless ops i = false)
    (h : attach none (is.map (Item.raw dv)) = some ss) (hl : 2 ≤ ss.length) (hh : ∀ s, ss.head? = some s → s.hint = none) :
    IsStops val (printItems ops dp is) ss := by
  obtain ⟨rs, h1, h2⟩ := serialize_ok hp dp none is hu
  rcases h2 with ⟨_, h3⟩ | ⟨_, _, _, _, h2, _⟩
  · exact ⟨rs, h1, by rw [h3]; exact h, hl, hh⟩
  · cases h2

end

theorem lp_prints (env : Env) (len : ℝ) : PrintsOk lpOps (lengthPct env len) (lpVal env len) := fun d => Transform.lp_print env len d
theorem lp_parses (env : Env) (len : ℝ) : ParsesOk lpOps (lengthPct env len) (lpVal env len) := fun a v h => by
  obtain ⟨l, h1, h2⟩ := Transform.lp_parse h
  refine ⟨l, h1, ?_⟩
  have := h2 len; rw [h] at this; exact (Option.some.inj this).symm

end Verif.Gradient
