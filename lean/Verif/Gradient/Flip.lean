import Verif.Gradient.Items
/-! Lemmas: a gradient line that is turned around. -/
namespace Verif.Gradient

/-- A stop seen from the other end. -/
def flipStop (len : ℝ) (s : Stop) : Stop := ⟨s.hint, s.color, s.pos.map (len - ·)⟩
/-- A point seen from the other end. -/
def flipPoint (len : ℝ) (p : Point) : Point := ⟨p.hint, p.color, len - p.pos⟩

/-- The positions that are given are in order, with the first stop at the start and the last one at the end. -/
def InOrder (len : ℝ) (ss : List Stop) : Prop := ((ends len ss).filterMap Stop.pos).Pairwise (· ≤ ·)

theorem flipStop_flipStop (len : ℝ) (s : Stop) : flipStop len (flipStop len s) = s := by
  obtain ⟨h, c, _ | p⟩ := s <;> simp [flipStop]
theorem flipPoint_flipPoint (len : ℝ) (s : Point) : flipPoint len (flipPoint len s) = s := by
  obtain ⟨h, c, p⟩ := s; simp [flipPoint]

theorem flip_flip (len : ℝ) (ss : List Stop) : ((ss.reverse.map (flipStop len)).reverse.map (flipStop len)) = ss := by
  rw [← List.map_reverse, List.reverse_reverse, List.map_map]
  conv_rhs => rw [← List.map_id ss]
  exact List.map_congr_left fun s _ => flipStop_flipStop len s

/-- Fill in a position. -/
def setPos (p : ℝ) (s : Stop) : Stop := ⟨s.hint, s.color, some (s.pos.getD p)⟩

theorem startAt_cons (p : ℝ) (a : Stop) (r : List Stop) : startAt p (a :: r) = setPos p a :: r := by
  obtain ⟨h, c, _ | q⟩ := a <;> rfl

theorem ends_form (len : ℝ) (a b : Stop) (mid : List Stop) : ends len (a :: (mid ++ [b])) = setPos 0 a :: (mid ++ [setPos len b]) := by
  simp [ends, startAt_cons]

theorem two_form {ss : List Stop} (h : 2 ≤ ss.length) : ∃ a mid b, ss = a :: (mid ++ [b]) := by
  obtain _ | ⟨a, r⟩ := ss
  · simp at h
  · obtain rfl | ⟨mid, b, rfl⟩ := List.eq_nil_or_concat r
    · simp at h
    · exact ⟨a, mid, b, by simp⟩

theorem setPos_flip (len p : ℝ) (s : Stop) : setPos p (flipStop len s) = flipStop len (setPos (len - p) s) := by
  obtain ⟨h, c, _ | q⟩ := s <;> simp [setPos, flipStop]

theorem ends_flip (len : ℝ) {ss : List Stop} (h : 2 ≤ ss.length) :
    ends len (ss.reverse.map (flipStop len)) = (ends len ss).reverse.map (flipStop len) := by
  obtain ⟨a, mid, b, rfl⟩ := two_form h
  have : (a :: (mid ++ [b])).reverse.map (flipStop len) = flipStop len b :: ((mid.reverse.map (flipStop len)) ++ [flipStop len a]) := by simp
  rw [this, ends_form, ends_form, setPos_flip, setPos_flip]
  simp

theorem raise_id : ∀ (m : ℝ) (ss : List Stop), (∀ s ∈ ss, s.hint = none) → (m :: ss.filterMap Stop.pos).Pairwise (· ≤ ·) → raise m ss = ss
  | _, [], _, _ => rfl
  | m, ⟨h, c, p⟩ :: r, hh, hs => by
    obtain rfl : h = none := hh ⟨h, c, p⟩ (by simp)
    have hr := fun s hs => hh s (List.mem_cons_of_mem _ hs)
    cases p with
    | none => simp only [raise]; rw [raise_id m r hr (by simpa using hs)]
    | some p =>
      simp only [List.filterMap_cons, List.pairwise_cons] at hs
      have hmp : m ≤ p := hs.1 p (by simp)
      have : max m p = p := max_eq_right hmp
      simp only [raise, this]
      rw [raise_id p r hr (by rw [List.pairwise_cons]; exact hs.2)]

theorem monotone_ends {len : ℝ} {ss : List Stop} (hl : 2 ≤ ss.length) (hh : ∀ s ∈ ss, s.hint = none) (ho : InOrder len ss) :
    monotone (ends len ss) = ends len ss := by
  obtain ⟨a, mid, b, rfl⟩ := two_form hl
  rw [InOrder, ends_form] at *
  simp only [setPos, monotone]
  rw [raise_id]
  · intro s hs
    rcases List.mem_append.1 hs with hs | hs
    · exact hh s (by simp [hs])
    · cases List.mem_singleton.1 hs; exact hh b (by simp)
  · exact ho

theorem ends_hint {len : ℝ} {ss : List Stop} (hl : 2 ≤ ss.length) (hh : ∀ s ∈ ss, s.hint = none) : ∀ s ∈ ends len ss, s.hint = none := by
  obtain ⟨a, mid, b, rfl⟩ := two_form hl
  rw [ends_form]
  intro s hs
  simp only [List.mem_cons, List.mem_append, List.not_mem_nil, or_false] at hs
  rcases hs with rfl | hs | rfl
  · exact hh a (by simp)
  · exact hh s (by simp [hs])
  · exact hh b (by simp)

theorem filterMap_flip (len : ℝ) (ss : List Stop) :
    (ss.reverse.map (flipStop len)).filterMap Stop.pos = (ss.filterMap Stop.pos).reverse.map (len - ·) := by
  rw [List.filterMap_map, ← List.filterMap_reverse, List.map_filterMap]
  rfl

theorem inOrder_flip {len : ℝ} {ss : List Stop} (hl : 2 ≤ ss.length) (ho : InOrder len ss) : InOrder len (ss.reverse.map (flipStop len)) := by
  unfold InOrder at *
  rw [ends_flip len hl, filterMap_flip, List.pairwise_map, List.pairwise_reverse]
  exact ho.imp fun h => by linarith

theorem infix_map {α β : Type} {f : α → β} {x : List β} {l : List α} (h : x <:+: l.map f) : ∃ y, y <:+: l ∧ y.map f = x := by
  obtain ⟨s, t, e⟩ := h
  obtain ⟨l1, t', rfl, e1, rfl⟩ := List.map_eq_append_iff.1 e.symm
  obtain ⟨s', y, rfl, rfl, rfl⟩ := List.map_eq_append_iff.1 e1
  exact ⟨y, ⟨s', t', rfl⟩, rfl⟩

theorem zip_rev {α β : Type} {l : List α} {l' : List β} (h : l.length = l'.length) : l.reverse.zip l'.reverse = (l.zip l').reverse := by
  rw [List.zip_eq_zipWith, List.zip_eq_zipWith, List.reverse_zipWith h]

theorem spaced_flip {len : ℝ} {ss : List Stop} {ps : List Point} (h : Spaced ss ps) :
    Spaced (ss.reverse.map (flipStop len)) (ps.reverse.map (flipPoint len)) := by
  obtain ⟨h1, h2⟩ := h
  refine ⟨?_, ?_⟩
  · rw [List.forall₂_map_left_iff, List.forall₂_map_right_iff, List.forall₂_reverse_iff]
    refine h1.imp fun s p hf => ⟨hf.1, hf.2.1, ?_⟩
    intro v hv
    obtain ⟨h, c, _ | q⟩ := s
    · cases hv
    · have := hf.2.2 q rfl
      simp only [flipStop, Option.map_some, Option.some.injEq] at hv
      simp [flipPoint, this, hv]
  · intro a b c hi hb
    rw [List.zip_map, zip_rev h1.length_eq] at hi
    obtain ⟨y, hy, e⟩ := infix_map hi
    obtain ⟨a', b', c', rfl⟩ : ∃ a' b' c', y = [a', b', c'] := by
      obtain _ | ⟨a', _ | ⟨b', _ | ⟨c', _ | _⟩⟩⟩ := y <;> simp at e
      exact ⟨a', b', c', rfl⟩
    simp only [List.map_cons, List.map_nil, List.cons.injEq, and_true] at e
    obtain ⟨rfl, rfl, rfl⟩ := e
    rw [← List.reverse_infix, List.reverse_reverse] at hy
    have := h2 c' b' a' hy (by
      obtain ⟨⟨h, c, _ | q⟩, p⟩ := b'
      · rfl
      · simp [flipStop] at hb)
    simp only [Prod.map, flipPoint]
    linarith

theorem paints_flip {M : Mixer} {len t : ℝ} {ps : List Point} {m : M.Paint} (hh : ∀ p ∈ ps, p.hint = none) (h : Paints M ps t m) :
    Paints M (ps.reverse.map (flipPoint len)) (len - t) m := by
  cases h with
  | @before a h1 h2 =>
    exact .after (a := flipPoint len a) (by rw [List.getLast?_map, List.getLast?_reverse, h1]; rfl) (by simp [flipPoint]; exact h2)
  | @after a h1 h2 =>
    exact .before (a := flipPoint len a) (by rw [List.head?_map, List.head?_reverse, h1]; rfl) (by simp [flipPoint]; exact h2)
  | @between a b h1 h2 h3 =>
    have hi : [flipPoint len b, flipPoint len a] <:+: ps.reverse.map (flipPoint len) := by
      have : [b, a] <:+: ps.reverse := by rw [← List.reverse_infix]; simpa using h1
      exact this.map (flipPoint len)
    have hb : b.hint = none := hh b (h1.subset (by simp))
    have ha : a.hint = none := hh a (h1.subset (by simp))
    have := Paints.between (M := M) (t := len - t) hi (by simp [flipPoint]; exact h3) (by simp [flipPoint]; exact h2)
    rw [M.symm] at this
    have e : weight b.hint a.pos b.pos t = 1 - weight (flipPoint len a).hint (flipPoint len b).pos (flipPoint len a).pos (len - t) := by
      simp only [weight, hb, flipPoint, ha]
      have h4 : b.pos - a.pos ≠ 0 := by linarith
      rw [show len - a.pos - (len - b.pos) = b.pos - a.pos by ring]
      field_simp
      ring
    rw [e]; exact this

theorem repeats_flip {M : Mixer} {len t : ℝ} {ps : List Point} {m : M.Paint} (hh : ∀ p ∈ ps, p.hint = none) (h : Repeats M ps t m) :
    Repeats M (ps.reverse.map (flipPoint len)) (len - t) m := by
  obtain ⟨a, b, ha, hb, k, h1, h2, h3⟩ := h
  have e : len - t - ((-k : ℤ) : ℝ) * ((flipPoint len a).pos - (flipPoint len b).pos) = len - (t - k * (b.pos - a.pos)) := by
    simp only [flipPoint]; push_cast; ring
  refine ⟨flipPoint len b, flipPoint len a, by rw [List.head?_map, List.head?_reverse, hb]; rfl,
    by rw [List.getLast?_map, List.getLast?_reverse, ha]; rfl, -k, ?_, ?_, ?_⟩
  · rw [e]; simp only [flipPoint]; linarith
  · rw [e]; simp only [flipPoint]; linarith
  · rw [e]; exact paints_flip hh h3

theorem colour_flip1 {M : Mixer} {rep : Bool} {len t : ℝ} {ss : List Stop} {m : M.Paint} (hl : 2 ≤ ss.length) (hh : ∀ s ∈ ss, s.hint = none)
    (ho : InOrder len ss) (h : Colour M rep len ss t m) : Colour M rep len (ss.reverse.map (flipStop len)) (len - t) m := by
  obtain ⟨ps, h1, h2⟩ := h
  have hh' : ∀ s ∈ ss.reverse.map (flipStop len), s.hint = none := by
    intro s hs
    obtain ⟨s', hs', rfl⟩ := List.mem_map.1 hs
    exact hh s' (List.mem_reverse.1 hs')
  refine ⟨ps.reverse.map (flipPoint len), ?_, ?_⟩
  · unfold Resolved at *
    rw [monotone_ends (by simpa using hl) hh' (inOrder_flip hl ho), ends_flip len hl]
    rw [monotone_ends hl hh ho] at h1
    exact spaced_flip h1
  · have hp : ∀ p ∈ ps, p.hint = none := by
      unfold Resolved at h1
      rw [monotone_ends hl hh ho] at h1
      intro p hp
      obtain ⟨i, hi, rfl⟩ := List.getElem_of_mem hp
      have hi' : i < (ends len ss).length := by rw [h1.1.length_eq]; exact hi
      have := List.forall₂_iff_get.1 h1.1
      have := (this.2 i hi' hi).1
      rw [ends_hint hl hh _ (List.get_mem _ _)] at this
      exact this.symm
    cases rep
    · exact paints_flip hp h2
    · exact repeats_flip hp h2

/-- Turning a gradient around. -/
theorem colour_flip {M : Mixer} {rep : Bool} {len t : ℝ} {ss : List Stop} {m : M.Paint} (hl : 2 ≤ ss.length) (hh : ∀ s ∈ ss, s.hint = none)
    (ho : InOrder len ss) : Colour M rep len ss t m ↔ Colour M rep len (ss.reverse.map (flipStop len)) (len - t) m := by
  refine ⟨colour_flip1 hl hh ho, fun h => ?_⟩
  have hh' : ∀ s ∈ ss.reverse.map (flipStop len), s.hint = none := by
    intro s hs
    obtain ⟨s', hs', rfl⟩ := List.mem_map.1 hs
    exact hh s' (List.mem_reverse.1 hs')
  have := colour_flip1 (by simpa using hl) hh' (inOrder_flip hl ho) h
  rwa [flip_flip, sub_sub_cancel] at this

end Verif.Gradient
