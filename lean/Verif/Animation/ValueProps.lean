import Verif.Animation.Spec
import Verif.Transition.ValueProps
/-! # C131, C132: one animation -/
namespace Verif.Animation
open Verif.Transition Verif.Animation.Spec
open Verif.Transition.Spec (Curve Denotes word)

variable {T L : Type}

/-! ### Keyword tables -/

theorem kw_iff (s k : Str) : kw s k = true ↔ word s k := by simp [kw, word]

theorem direction_iff (s : Str) (v : Direction) : parseDirection s = some v ↔ ∃ k, (k, v) ∈ directions ∧ word s k := by
  constructor
  · intro h
    unfold parseDirection at h
    split at h
    · rename_i hk; cases h; exact ⟨_, by simp [directions], (kw_iff _ _).1 hk⟩
    split at h
    · rename_i hk; cases h; exact ⟨_, by simp [directions], (kw_iff _ _).1 hk⟩
    split at h
    · rename_i hk; cases h; exact ⟨_, by simp [directions], (kw_iff _ _).1 hk⟩
    split at h
    · rename_i hk; cases h; exact ⟨_, by simp [directions], (kw_iff _ _).1 hk⟩
    · cases h
  · rintro ⟨k, hk, hs⟩
    unfold word at hs
    simp only [directions, List.mem_cons, List.mem_nil_iff, or_false, Prod.mk.injEq] at hk
    rcases hk with ⟨rfl, rfl⟩ | ⟨rfl, rfl⟩ | ⟨rfl, rfl⟩ | ⟨rfl, rfl⟩ <;> simp [parseDirection, kw, hs]

theorem fill_iff (s : Str) (v : Fill) : parseFill s = some v ↔ ∃ k, (k, v) ∈ fills ∧ word s k := by
  constructor
  · intro h
    unfold parseFill at h
    split at h
    · rename_i hk; cases h; exact ⟨_, by simp [fills], (kw_iff _ _).1 hk⟩
    split at h
    · rename_i hk; cases h; exact ⟨_, by simp [fills], (kw_iff _ _).1 hk⟩
    split at h
    · rename_i hk; cases h; exact ⟨_, by simp [fills], (kw_iff _ _).1 hk⟩
    split at h
    · rename_i hk; cases h; exact ⟨_, by simp [fills], (kw_iff _ _).1 hk⟩
    · cases h
  · rintro ⟨k, hk, hs⟩
    unfold word at hs
    simp only [fills, List.mem_cons, List.mem_nil_iff, or_false, Prod.mk.injEq] at hk
    rcases hk with ⟨rfl, rfl⟩ | ⟨rfl, rfl⟩ | ⟨rfl, rfl⟩ | ⟨rfl, rfl⟩ <;> simp [parseFill, kw, hs]

theorem play_iff (s : Str) (v : PlayState) : parsePlayState s = some v ↔ ∃ k, (k, v) ∈ plays ∧ word s k := by
  constructor
  · intro h
    unfold parsePlayState at h
    split at h
    · rename_i hk; cases h; exact ⟨_, by simp [plays], (kw_iff _ _).1 hk⟩
    split at h
    · rename_i hk; cases h; exact ⟨_, by simp [plays], (kw_iff _ _).1 hk⟩
    · cases h
  · rintro ⟨k, hk, hs⟩
    unfold word at hs
    simp only [plays, List.mem_cons, List.mem_nil_iff, or_false, Prod.mk.injEq] at hk
    rcases hk with ⟨rfl, rfl⟩ | ⟨rfl, rfl⟩ <;> simp [parsePlayState, kw, hs]

theorem scroller_iff (s : Str) (v : Scroller) : parseScroller s = some v ↔ ∃ k, (k, v) ∈ scrollers ∧ word s k := by
  constructor
  · intro h
    unfold parseScroller at h
    split at h
    · rename_i hk; cases h; exact ⟨_, by simp [scrollers], (kw_iff _ _).1 hk⟩
    split at h
    · rename_i hk; cases h; exact ⟨_, by simp [scrollers], (kw_iff _ _).1 hk⟩
    split at h
    · rename_i hk; cases h; exact ⟨_, by simp [scrollers], (kw_iff _ _).1 hk⟩
    · cases h
  · rintro ⟨k, hk, hs⟩
    unfold word at hs
    simp only [scrollers, List.mem_cons, List.mem_nil_iff, or_false, Prod.mk.injEq] at hk
    rcases hk with ⟨rfl, rfl⟩ | ⟨rfl, rfl⟩ | ⟨rfl, rfl⟩ <;> simp [parseScroller, kw, hs]

theorem axis_iff (s : Str) (v : Axis) : parseAxis s = some v ↔ ∃ k, (k, v) ∈ axes ∧ word s k := by
  constructor
  · intro h
    unfold parseAxis at h
    split at h
    · rename_i hk; cases h; exact ⟨_, by simp [axes], (kw_iff _ _).1 hk⟩
    split at h
    · rename_i hk; cases h; exact ⟨_, by simp [axes], (kw_iff _ _).1 hk⟩
    split at h
    · rename_i hk; cases h; exact ⟨_, by simp [axes], (kw_iff _ _).1 hk⟩
    split at h
    · rename_i hk; cases h; exact ⟨_, by simp [axes], (kw_iff _ _).1 hk⟩
    · cases h
  · rintro ⟨k, hk, hs⟩
    unfold word at hs
    simp only [axes, List.mem_cons, List.mem_nil_iff, or_false, Prod.mk.injEq] at hk
    rcases hk with ⟨rfl, rfl⟩ | ⟨rfl, rfl⟩ | ⟨rfl, rfl⟩ | ⟨rfl, rfl⟩ <;> simp [parseAxis, kw, hs]

/-! ### Timelines -/

theorem isScroller_iff (s : Str) (v : Scroller) : IsScroller (L := L) (.ident s) v ↔ parseScroller s = some v := by
  rw [scroller_iff]
  exact ⟨fun | .mk hk hs => ⟨_, hk, hs⟩, fun ⟨_, hk, hs⟩ => .mk hk hs⟩
theorem isAxis_iff (s : Str) (v : Axis) : IsAxis (L := L) (.ident s) v ↔ parseAxis s = some v := by
  rw [axis_iff]
  exact ⟨fun | .mk hk hs => ⟨_, hk, hs⟩, fun ⟨_, hk, hs⟩ => .mk hk hs⟩
theorem isInset_iff (a : TlArg L) (i : Inset L) : IsInset a i ↔ a.inset = some i := by
  constructor
  · intro h; cases h with
    | auto h => simp [TlArg.inset, (kw_iff _ _).2 h]
    | len => rfl
  · intro h
    cases a with
    | ident s =>
      simp only [TlArg.inset] at h
      split at h
      · rename_i hk; cases h; exact .auto ((kw_iff _ _).1 hk)
      · cases h
    | len l => cases h; exact .len l

theorem scroller_axis {s : Str} {v : Scroller} (h : parseScroller s = some v) : parseAxis s = none := by
  obtain ⟨k, hk, hs⟩ := (scroller_iff _ _).1 h
  unfold word at hs
  simp only [scrollers, List.mem_cons, List.mem_nil_iff, or_false, Prod.mk.injEq] at hk
  rcases hk with ⟨rfl, rfl⟩ | ⟨rfl, rfl⟩ | ⟨rfl, rfl⟩ <;> simp [parseAxis, kw, hs]
theorem axis_scroller {s : Str} {v : Axis} (h : parseAxis s = some v) : parseScroller s = none := by
  cases hs : parseScroller s with
  | none => rfl
  | some w => rw [scroller_axis hs] at h; cases h
theorem axis_inset {s : Str} {v : Axis} (h : parseAxis s = some v) : (TlArg.ident s : TlArg L).inset = none := by
  obtain ⟨k, hk, hs⟩ := (axis_iff _ _).1 h
  unfold word at hs
  simp only [axes, List.mem_cons, List.mem_nil_iff, or_false, Prod.mk.injEq] at hk
  rcases hk with ⟨rfl, rfl⟩ | ⟨rfl, rfl⟩ | ⟨rfl, rfl⟩ | ⟨rfl, rfl⟩ <;> simp [TlArg.inset, kw, hs]

theorem takeScroller_none (args : List (TlArg L)) :
    (∃ s v r, args = .ident s :: r ∧ parseScroller s = some v ∧ takeScroller none args = (some v, r)) ∨
    ((∀ s r, args = .ident s :: r → parseScroller s = none) ∧ takeScroller none args = (none, args)) := by
  cases args with
  | nil => exact .inr ⟨by simp, rfl⟩
  | cons a r => cases a with
    | len l => exact .inr ⟨by simp, rfl⟩
    | ident s => cases h : parseScroller s with
      | none => exact .inr ⟨by rintro s' r' ⟨rfl, rfl⟩; exact h, by simp [takeScroller, h]⟩
      | some v => exact .inl ⟨s, v, r, rfl, h, by simp [takeScroller, h]⟩
theorem takeAxis_none (args : List (TlArg L)) :
    (∃ s v r, args = .ident s :: r ∧ parseAxis s = some v ∧ takeAxis none args = (some v, r)) ∨
    ((∀ s r, args = .ident s :: r → parseAxis s = none) ∧ takeAxis none args = (none, args)) := by
  cases args with
  | nil => exact .inr ⟨by simp, rfl⟩
  | cons a r => cases a with
    | len l => exact .inr ⟨by simp, rfl⟩
    | ident s => cases h : parseAxis s with
      | none => exact .inr ⟨by rintro s' r' ⟨rfl, rfl⟩; exact h, by simp [takeAxis, h]⟩
      | some v => exact .inl ⟨s, v, r, rfl, h, by simp [takeAxis, h]⟩
theorem takeScroller_some (v : Scroller) (args : List (TlArg L)) : takeScroller (some v) args = (some v, args) := by
  cases args <;> rfl
theorem takeAxis_some (v : Axis) (args : List (TlArg L)) : takeAxis (some v) args = (some v, args) := by
  cases args <;> rfl

theorem parseScroll_iff (args : List (TlArg L)) (s : Scroller) (a : Axis) : parseScroll args = some (.scroll s a) ↔ Scroll args s a := by
  constructor
  · intro h
    unfold parseScroll at h
    rcases takeScroller_none args with ⟨t, v, r, rfl, hv, e⟩ | ⟨_, e⟩ <;> rw [e] at h <;> simp only at h
    · rcases takeAxis_none r with ⟨t', _, r', rfl, hx, e'⟩ | ⟨_, e'⟩ <;> rw [e'] at h <;> simp only at h
      · rw [takeScroller_some] at h
        cases r' with
        | nil => cases h; exact .both ((isScroller_iff _ _).2 hv) ((isAxis_iff _ _).2 hx)
        | cons _ _ => cases h
      · cases r with
        | nil => cases h; exact .scroller ((isScroller_iff _ _).2 hv)
        | cons _ _ => cases h
    · rcases takeAxis_none args with ⟨t', _, r', rfl, hx, e'⟩ | ⟨_, e'⟩ <;> rw [e'] at h <;> simp only at h
      · rcases takeScroller_none r' with ⟨t, v, r, rfl, hv, e⟩ | ⟨_, e⟩ <;> rw [e] at h <;> simp only at h
        · cases r with
          | nil => cases h; exact .swapped ((isScroller_iff _ _).2 hv) ((isAxis_iff _ _).2 hx)
          | cons _ _ => cases h
        · cases r' with
          | nil => cases h; exact .axis ((isAxis_iff _ _).2 hx)
          | cons _ _ => cases h
      · cases args with
        | nil => cases h; exact .nil
        | cons _ _ => cases h
  · intro h
    cases h with
    | nil => rfl
    | scroller h => obtain ⟨hk, hs⟩ := h; simp [parseScroll, takeScroller, (scroller_iff _ _).2 ⟨_, hk, hs⟩, takeAxis]
    | axis h =>
      obtain ⟨hk, hs⟩ := h
      have hx := (axis_iff _ _).2 ⟨_, hk, hs⟩
      simp [parseScroll, takeScroller, axis_scroller hx, takeAxis, hx]
    | both h h' =>
      obtain ⟨hk, hs⟩ := h
      obtain ⟨hk', hs'⟩ := h'
      simp [parseScroll, takeScroller, (scroller_iff _ _).2 ⟨_, hk, hs⟩, takeAxis, (axis_iff _ _).2 ⟨_, hk', hs'⟩]
    | swapped h h' =>
      obtain ⟨hk, hs⟩ := h
      obtain ⟨hk', hs'⟩ := h'
      have hx := (axis_iff _ _).2 ⟨_, hk', hs'⟩
      simp [parseScroll, takeScroller, (scroller_iff _ _).2 ⟨_, hk, hs⟩, takeAxis, hx, axis_scroller hx]

theorem parseScroll_form (args : List (TlArg L)) (t : Timeline L) (h : parseScroll args = some t) : ∃ s a, t = .scroll s a := by
  unfold parseScroll at h
  extract_lets r1 r2 r3 at h
  split at h
  · cases h; exact ⟨_, _, rfl⟩
  · cases h

/-- Either the list starts with insets, or not. -/
theorem takeInset_cases (args : List (TlArg L)) :
    (∃ l i j r, args = l ++ r ∧ Insets l i j ∧ takeInset args = (some (i, j), r)) ∨
    ((∀ a r, args = a :: r → a.inset = none) ∧ takeInset args = (none, args)) := by
  cases args with
  | nil => exact .inr ⟨by simp, rfl⟩
  | cons a r => cases h : a.inset with
    | none => exact .inr ⟨by rintro s' r' ⟨rfl, rfl⟩; exact h, by simp [takeInset, h]⟩
    | some i => cases r with
      | nil => exact .inl ⟨[a], i, i, [], rfl, .one ((isInset_iff _ _).2 h), by simp [takeInset, h]⟩
      | cons b r => cases h' : b.inset with
        | none => exact .inl ⟨[a], i, i, b :: r, rfl, .one ((isInset_iff _ _).2 h), by simp [takeInset, h, h']⟩
        | some j => exact .inl ⟨[a, b], i, j, r, rfl, .two ((isInset_iff _ _).2 h) ((isInset_iff _ _).2 h'), by simp [takeInset, h, h']⟩

theorem parseView_iff (args : List (TlArg L)) (a : Axis) (i j : Inset L) : parseView args = some (.view a i j) ↔ View args a i j := by
  constructor
  · intro h
    unfold parseView at h
    rcases takeAxis_none args with ⟨t, v, r, rfl, hv, e⟩ | ⟨_, e⟩ <;> rw [e] at h <;> simp only at h
    · rcases takeInset_cases r with ⟨l, i', j', r', rfl, hi, e'⟩ | ⟨_, e'⟩ <;> rw [e'] at h <;> simp only at h
      · rw [takeAxis_some] at h
        cases r' with
        | nil => cases h; rw [List.append_nil]; exact .both ((isAxis_iff _ _).2 hv) hi
        | cons _ _ => cases h
      · cases r with
        | nil => cases h; exact .axis ((isAxis_iff _ _).2 hv)
        | cons _ _ => cases h
    · rcases takeInset_cases args with ⟨l, i', j', r', rfl, hi, e'⟩ | ⟨_, e'⟩ <;> rw [e'] at h <;> simp only at h
      · rcases takeAxis_none r' with ⟨t, v, r, rfl, hv, e⟩ | ⟨_, e⟩ <;> rw [e] at h <;> simp only at h
        · cases r with
          | nil => cases h; exact .swapped ((isAxis_iff _ _).2 hv) hi
          | cons _ _ => cases h
        · cases r' with
          | nil => cases h; rw [List.append_nil]; exact .insets hi
          | cons _ _ => cases h
      · cases args with
        | nil => cases h; exact .nil
        | cons _ _ => cases h
  · have noAx : ∀ {b : TlArg L} {i r}, IsInset b i → takeAxis none (b :: r) = (none, b :: r) := by
      intro b i r hb
      cases b with
      | len => rfl
      | ident s =>
        cases hs : parseAxis s with
        | none => simp [takeAxis, hs]
        | some v => have := (isInset_iff _ _).1 hb; rw [axis_inset hs] at this; cases this
    intro h
    cases h with
    | nil => rfl
    | axis h =>
      obtain ⟨hk, hs⟩ := h
      simp [parseView, takeAxis, (axis_iff _ _).2 ⟨_, hk, hs⟩, takeInset]
    | insets h =>
      cases h with
      | one hb => simp [parseView, noAx hb, takeInset, (isInset_iff _ _).1 hb]; simp [takeAxis]
      | two hb hc => simp [parseView, noAx hb, takeInset, (isInset_iff _ _).1 hb, (isInset_iff _ _).1 hc]; simp [takeAxis]
    | both h hi =>
      obtain ⟨hk, hs⟩ := h
      have hx := (axis_iff _ _).2 ⟨_, hk, hs⟩
      cases hi with
      | one hb => simp [parseView, takeAxis, hx, takeInset, (isInset_iff _ _).1 hb]
      | two hb hc => simp [parseView, takeAxis, hx, takeInset, (isInset_iff _ _).1 hb, (isInset_iff _ _).1 hc]
    | swapped h hi =>
      obtain ⟨hk, hs⟩ := h
      have hx := (axis_iff _ _).2 ⟨_, hk, hs⟩
      cases hi with
      | one hb => simp [parseView, noAx hb, takeInset, (isInset_iff _ _).1 hb, axis_inset hx]; simp [takeAxis, hx]
      | two hb hc => simp [parseView, noAx hb, takeInset, (isInset_iff _ _).1 hb, (isInset_iff _ _).1 hc]; simp [takeAxis, hx]

theorem parseView_form (args : List (TlArg L)) (t : Timeline L) (h : parseView args = some t) : ∃ a i j, t = .view a i j := by
  unfold parseView at h
  extract_lets r1 r2 r3 at h
  split at h
  · cases h; exact ⟨_, _, _, rfl⟩
  · cases h

/-- C133: `scroll()` is read and written with the same meaning. -/
theorem C133_scroll (args : List (TlArg L)) :
    (∀ s a, parseScroll args = some (.scroll s a) ↔ Scroll args s a) ∧ (∀ t, parseScroll args = some t → ∃ s a, t = .scroll s a) :=
  ⟨parseScroll_iff args, parseScroll_form args⟩

theorem C133_scroll_print (s : Scroller) (a : Axis) : Scroll (scrollArgs s a : List (TlArg L)) s a := by
  rw [← parseScroll_iff]; cases s <;> cases a <;> rfl

theorem C133_view (args : List (TlArg L)) :
    (∀ a i j, parseView args = some (.view a i j) ↔ View args a i j) ∧ (∀ t, parseView args = some t → ∃ a i j, t = .view a i j) :=
  ⟨parseView_iff args, parseView_form args⟩

theorem isInset_arg (i : Inset L) : IsInset i.arg i := by
  cases i with
  | auto => exact .auto rfl
  | len l => exact .len l

theorem C133_view_print [DecidableEq L] (a : Axis) (i j : Inset L) : View (viewArgs a i j) a i j := by
  have hx : ∀ a : Axis, IsAxis (L := L) (.ident a.text) a := by
    intro a; rw [isAxis_iff]; cases a <;> rfl
  have hi : i ≠ .auto ∨ j ≠ .auto → Insets (if i = j then [i.arg] else [i.arg, j.arg]) i j := by
    intro _
    split
    · rename_i h; subst h; exact .one (isInset_arg i)
    · exact .two (isInset_arg i) (isInset_arg j)
  unfold viewArgs
  by_cases ha : a = .block
  · subst ha
    by_cases h : i ≠ .auto ∨ j ≠ .auto
    · rw [if_pos h]; simpa using View.insets (hi h)
    · rw [if_neg h]
      simp only [not_or, ne_eq, Decidable.not_not] at h
      obtain ⟨rfl, rfl⟩ := h
      exact .nil
  · rw [if_pos ha]
    by_cases h : i ≠ .auto ∨ j ≠ .auto
    · rw [if_pos h]; simpa using View.both (hx a) (hi h)
    · rw [if_neg h]
      simp only [not_or, ne_eq, Decidable.not_not] at h
      obtain ⟨rfl, rfl⟩ := h
      exact .axis (hx a)

example : parseScroll ([.ident cs!"X", .ident cs!"root"] : List (TlArg Nat)) = some (.scroll .root .x) := by decide +kernel
example : parseView ([.len 1, .ident cs!"auto", .ident cs!"inline"] : List (TlArg Nat)) = some (.view .inline (.len 1) .auto) := by decide +kernel

end Verif.Animation
