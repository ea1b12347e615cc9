import Verif.Background.Props
/-!
# `background` in `DeclarationBlock::get` and `set` (`/repo/src/properties/background.rs:556-773`)
-/
namespace Verif.Background
open Spec

section
variable {V : Type}

/-- The variables of `from_longhands` (src/properties/background.rs:558-570). -/
structure Acc (V : Type) where
  color : Option V := none
  lists : Field → Option (List V) := fun _ => none
  count : Nat := 0
  important : Nat := 0
  length : Option Nat := none

/-- The counts of a declaration (src/properties/background.rs:573-580, 643-646). -/
def Acc.tick (a : Acc V) (imp : Bool) : Acc V := { a with count := a.count + 1, important := if imp then a.important + 1 else a.important }

/-- "Lengths must be equal" (src/properties/background.rs:636-641). -/
def Acc.len (a : Acc V) (n : Nat) : Option (Acc V) := match a.length with
  | none => some { a with length := some n }
  | some m => if m = n then some a else none

/-- A list is set. -/
def Acc.put (a : Acc V) (f : Field) (l : List V) : Acc V := { a with lists := fun g => if g = f then some l else a.lists g }

/-- One declaration (src/properties/background.rs:571-647). -/
def Acc.step (vp : Vp) (a : Acc V) (d : Decl V × Bool) : Option (Acc V) := match d.1 with
  | .color v => some ({ a with color := some v }.tick d.2)
  | .list f l => ((a.put f l).len l.length).map (·.tick d.2)
  | .position l => (((a.put .x (l.map (·.1))).put .y (l.map (·.2))).len l.length).map (·.tick d.2)
  | .clip l v => if v = vp then ((a.put .clip l).len l.length).map (·.tick d.2) else none
  | .background ls => (Acc.len { a with color := ls.getLast?.map (·.color), lists := fun f => some (ls.map (·.f f)) } ls.length).map (·.tick d.2)
  | .raw _ _ => some a

/-- The loop (src/properties/background.rs:571-647). -/
def Acc.steps (vp : Vp) : Acc V → List (Decl V × Bool) → Option (Acc V)
  | a, [] => some a
  | a, d :: ds => (a.step vp d).bind fun a => a.steps vp ds

/-- The fields in order. -/
def fields : List Field := [.image, .x, .y, .repeat, .size, .attachment, .origin, .clip]

/-- The layers (src/properties/background.rs:664-693). -/
def Acc.layers (noColor : V) (a : Acc V) (c : V) (n : Nat) : List (Layer V) :=
  (List.range n).map fun i => { color := if i = n - 1 then c else noColor, f := fun f => (((a.lists f).getD [])[i]?).getD noColor }

/-- The end of `from_longhands` (src/properties/background.rs:649-700). -/
def Acc.result (noColor : V) (a : Acc V) : Option (List (Layer V) × Bool) :=
  if a.important > 0 ∧ a.important ≠ a.count then none
  else match a.color, a.length with
    | some c, some n => if fields.all (fun f => (a.lists f).isSome) then some (a.layers noColor c n, a.important > 0) else none
    | _, _ => none

/-- `from_longhands` (src/properties/background.rs:557-700). -/
def fromLonghands (noColor : V) (vp : Vp) (ds : List (Decl V × Bool)) : Option (List (Layer V) × Bool) :=
  (Acc.steps vp {} ds).bind (Acc.result noColor)

/-- `longhand` (src/properties/background.rs:716-744). -/
def longhand (noColor : V) (ls : List (Layer V)) : PId → Vp → Option (Decl V)
  | .color, _ => some (.color ((ls.getLast?.map (·.color)).getD noColor))
  | .list .clip, vp => some (.clip (ls.map (·.f .clip)) vp)
  | .list f, _ => some (.list f (ls.map (·.f f)))
  | _, _ => none

/-- `longhands` (src/properties/background.rs:702-714). -/
def longhandIds : List PId := [.color, .list .image, .list .x, .list .y, .list .repeat, .list .size, .list .attachment, .list .origin, .list .clip]

/-- `longhand!`: the values go to the layers one by one (src/properties/background.rs:747-756). -/
def setField (ls : List (Layer V)) (f : Field) (l : List V) : Option (List (Layer V)) :=
  if l.length ≠ ls.length then none
  else some (ls.zipWith (fun y v => { y with f := fun g => if g = f then v else y.f g }) l)

/-- The colour of the last layer. -/
def setColor (v : V) : List (Layer V) → List (Layer V)
  | [] => []
  | [y] => [{ y with color := v }]
  | y :: ls => y :: setColor v ls

/-- `set_longhand` (src/properties/background.rs:746-773). -/
def setLonghand (ls : List (Layer V)) : Decl V → Option (List (Layer V))
  | .color v => some (setColor v ls)
  | .list f l => setField ls f l
  | .position l => (setField ls .x (l.map (·.1))).bind fun ls => setField ls .y (l.map (·.2))
  | .clip l _ => setField ls .clip l
  | .background _ => none
  | .raw _ _ => none

end

variable {V : Type} [DecidableEq V]

/-- What the variables are, over what there was. -/
def Acc.over (a : Acc V) (s : State V) : State V :=
  { color := (a.color.map Value.val).getD s.color, f := fun f => ((a.lists f).map Value.val).getD (s.f f) }

/-- The variables that are reached. -/
structure AccOk (a : Acc V) : Prop where
  lists : ∀ f l, a.lists f = some l → a.length = some l.length ∧ l ≠ []
  length : ∀ n, a.length = some n → 0 < n

omit [DecidableEq V] in
theorem len_some (a b : Acc V) (n : Nat) (h : a.len n = some b) : b.length = some n ∧ (∀ m, a.length = some m → m = n) ∧ b.lists = a.lists ∧ b.color = a.color ∧ b.count = a.count ∧ b.important = a.important := by
  unfold Acc.len at h
  cases hl : a.length with
  | none => rw [hl] at h; cases h; exact ⟨rfl, (fun _ h => nomatch h), rfl, rfl, rfl, rfl⟩
  | some m =>
    rw [hl] at h
    simp only at h
    by_cases hm : m = n
    · rw [if_pos hm] at h; cases h; exact ⟨by rw [hl, hm], (by intro k hk; cases hk; exact hm), rfl, rfl, rfl, rfl⟩
    · rw [if_neg hm] at h; cases h

omit [DecidableEq V] in
theorem put_ok (a b : Acc V) (ha : AccOk a) (f : Field) (l : List V) (hl : l ≠ []) (h : (a.put f l).len l.length = some b) (imp : Bool) (s : State V) :
    AccOk (b.tick imp) ∧ (b.tick imp).over s = apply (.list f l) (a.over s) := by
  obtain ⟨h1, h2, h3, h4, _, _⟩ := len_some _ _ _ h
  have h3' : b.lists = fun g => if g = f then some l else a.lists g := h3
  refine ⟨⟨?_, ?_⟩, ?_⟩
  · intro g m hm
    have hm' : b.lists g = some m := hm
    rw [h3'] at hm'
    by_cases hg : g = f
    · simp only [if_pos hg] at hm'; cases hm'; exact ⟨h1, hl⟩
    · simp only [if_neg hg] at hm'
      obtain ⟨e, hne⟩ := ha.lists _ _ hm'
      have : m.length = l.length := h2 _ e
      exact ⟨by rw [this]; exact h1, hne⟩
  · intro n hn
    have : some l.length = some n := h1.symm.trans hn
    cases this
    exact List.length_pos_iff.2 hl
  · show State.mk ((b.color.map Value.val).getD s.color) (fun g => ((b.lists g).map Value.val).getD (s.f g)) = _
    rw [h3', h4]
    simp only [apply, Acc.over]
    congr 1
    funext g
    by_cases hg : g = f <;> simp [hg]

omit [DecidableEq V] in
theorem step_ok (n : V) (vp : Vp) (a b : Acc V) (ha : AccOk a) (d : Decl V × Bool) (hv : Valid n d.1) (hr : ∀ id u, d.1 ≠ .raw id u) (h : a.step vp d = some b) (s : State V) :
    AccOk b ∧ b.over s = apply d.1 (a.over s) ∧ b.count = a.count + 1 ∧ b.important = a.important + (if d.2 then 1 else 0) := by
  obtain ⟨d, imp⟩ := d
  have himp : ∀ b : Acc V, b.count = a.count → b.important = a.important → (b.tick imp).count = a.count + 1 ∧ (b.tick imp).important = a.important + (if imp then 1 else 0) := by
    intro b h1 h2; cases imp <;> simp [Acc.tick, h1, h2]
  cases d with
  | color v =>
    cases h
    exact ⟨⟨ha.lists, ha.length⟩, rfl, himp _ rfl rfl⟩
  | list f l =>
    simp only [Acc.step] at h
    cases hb : (a.put f l).len l.length with
    | none => rw [hb] at h; cases h
    | some b' =>
      rw [hb] at h; cases h
      obtain ⟨o1, o2⟩ := put_ok a b' ha f l hv hb imp s
      obtain ⟨_, _, _, _, h5, h6⟩ := len_some _ _ _ hb
      exact ⟨o1, o2, himp b' h5 h6⟩
  | position l =>
    simp only [Acc.step] at h
    cases hb : ((a.put .x (l.map (·.1))).put .y (l.map (·.2))).len l.length with
    | none => rw [hb] at h; cases h
    | some b' =>
      rw [hb] at h; cases h
      obtain ⟨h1, h2, h3, h4, h5, h6⟩ := len_some _ _ _ hb
      have h3' : b'.lists = fun g => if g = .y then some (l.map (·.2)) else if g = .x then some (l.map (·.1)) else a.lists g := h3
      have hne : ∀ g : V × V → V, l.map g ≠ [] := by intro g hm; exact hv (List.map_eq_nil_iff.1 hm)
      refine ⟨⟨?_, ?_⟩, ?_, himp b' h5 h6⟩
      · intro g m hm
        have hm' : b'.lists g = some m := hm
        rw [h3'] at hm'
        by_cases hy : g = .y
        · simp only [if_pos hy] at hm'; cases hm'; exact ⟨by rw [List.length_map]; exact h1, hne _⟩
        · simp only [if_neg hy] at hm'
          by_cases hx : g = .x
          · simp only [if_pos hx] at hm'; cases hm'; exact ⟨by rw [List.length_map]; exact h1, hne _⟩
          · simp only [if_neg hx] at hm'
            obtain ⟨e, hn⟩ := ha.lists _ _ hm'
            exact ⟨by rw [h2 _ e]; exact h1, hn⟩
      · intro k hk
        have : some l.length = some k := h1.symm.trans hk
        cases this
        exact List.length_pos_iff.2 hv
      · show State.mk ((b'.color.map Value.val).getD s.color) (fun g => ((b'.lists g).map Value.val).getD (s.f g)) = _
        rw [h3', h4]
        simp only [apply, Acc.over]
        congr 1
        funext g
        by_cases hx : g = .x
        · subst hx; rfl
        · by_cases hy : g = .y <;> simp [hx, hy]
  | clip l v =>
    simp only [Acc.step] at h
    by_cases hvp : v = vp
    · rw [if_pos hvp] at h
      cases hb : (a.put .clip l).len l.length with
      | none => rw [hb] at h; cases h
      | some b' =>
        rw [hb] at h; cases h
        obtain ⟨o1, o2⟩ := put_ok a b' ha .clip l hv.1 hb imp s
        obtain ⟨_, _, _, _, h5, h6⟩ := len_some _ _ _ hb
        exact ⟨o1, o2, himp b' h5 h6⟩
    · rw [if_neg hvp] at h; cases h
  | background ls =>
    simp only [Acc.step] at h
    cases hb : Acc.len { a with color := ls.getLast?.map (·.color), lists := fun f => some (ls.map (·.f f)) } ls.length with
    | none => rw [hb] at h; cases h
    | some b' =>
      rw [hb] at h; cases h
      obtain ⟨h1, h2, h3, h4, h5, h6⟩ := len_some _ _ _ hb
      have hne := hv.1
      refine ⟨⟨?_, ?_⟩, ?_, himp b' h5 h6⟩
      · intro g m hm
        have hm' : b'.lists g = some m := hm
        rw [h3] at hm'
        cases hm'
        exact ⟨by rw [List.length_map]; exact h1, fun hm => hne (List.map_eq_nil_iff.1 hm)⟩
      · intro k hk
        have : some ls.length = some k := h1.symm.trans hk
        cases this
        exact List.length_pos_iff.2 hne
      · show State.mk ((b'.color.map Value.val).getD s.color) (fun g => ((b'.lists g).map Value.val).getD (s.f g)) = _
        rw [h3, h4]
        cases hl : ls.getLast? with
        | none => exact absurd (List.getLast?_eq_none_iff.1 hl) hne
        | some l => simp [apply, hl]
  | raw id u => exact absurd rfl (hr id u)

theorem steps_ok (n : V) (vp : Vp) (s : State V) (ds : List (Decl V × Bool)) : ∀ (a b : Acc V), AccOk a → (∀ d ∈ ds, Valid n d.1 ∧ ∀ id u, d.1 ≠ .raw id u) → a.steps vp ds = some b →
    AccOk b ∧ b.over s = compute n all (ds.map (·.1)) (a.over s) ∧ b.count = a.count + ds.length ∧ b.important = a.important + (ds.filter (·.2)).length := by
  induction ds with
  | nil => intro a b ha _ h; cases h; exact ⟨ha, rfl, rfl, rfl⟩
  | cons d ds ih =>
    intro a b ha hv h
    rw [Acc.steps] at h
    cases h1 : a.step vp d with
    | none => rw [h1] at h; cases h
    | some c =>
      rw [h1] at h
      have hd := hv d List.mem_cons_self
      obtain ⟨o1, o2, o3, o4⟩ := step_ok n vp a c ha d hd.1 hd.2 h1 s
      obtain ⟨p1, p2, p3, p4⟩ := ih c b o1 (fun x hx => hv x (List.mem_cons_of_mem _ hx)) h
      refine ⟨p1, ?_, ?_, ?_⟩
      · rw [p2, o2]
        show _ = compute n all (ds.map (·.1)) (if all d.1 = true ∧ Valid n d.1 then apply d.1 (a.over s) else a.over s)
        rw [if_pos ⟨rfl, hd.1⟩]
      · rw [p3, o3, List.length_cons]; omega
      · rw [p4, o4, List.filter_cons]
        cases d.2
        · simp
        · simp; omega

/-- **C158** What `get` answers for `background` from the declarations of a block is right: the layers are a valid value that sets all nine longhands to what the declarations set them to, and the importance is that of all the declarations. Declarations with `var()` are excluded (`C158_var`). -/
theorem C158_get_partial (noColor : V) (vp : Vp) (ds : List (Decl V × Bool)) (hv : ∀ d ∈ ds, Valid noColor d.1 ∧ ∀ id u, d.1 ≠ .raw id u) (ls : List (Layer V)) (imp : Bool) (h : fromLonghands noColor vp ds = some (ls, imp)) :
    Valid noColor (.background ls) ∧ (∀ s, apply (.background ls) s = compute noColor all (ds.map (·.1)) s) ∧ ∀ d ∈ ds, d.2 = imp := by
  unfold fromLonghands at h
  cases h1 : Acc.steps vp {} ds with
  | none => rw [h1] at h; cases h
  | some a =>
    rw [h1] at h
    have h : a.result noColor = some (ls, imp) := h
    have hok0 : AccOk ({} : Acc V) := ⟨(fun _ _ h => nomatch h), (fun _ h => nomatch h)⟩
    have hs := fun s => steps_ok noColor vp s ds {} a hok0 hv h1
    have e0 : ∀ s : State V, Acc.over ({} : Acc V) s = s := fun s => rfl
    unfold Acc.result at h
    by_cases hi : a.important > 0 ∧ a.important ≠ a.count
    · rw [if_pos hi] at h; cases h
    rw [if_neg hi] at h
    cases hc : a.color with
    | none => rw [hc] at h; cases h
    | some c =>
      cases hn : a.length with
      | none => rw [hc, hn] at h; cases h
      | some m =>
        rw [hc, hn] at h
        simp only at h
        by_cases hf : fields.all (fun f => (a.lists f).isSome) = true
        · rw [if_pos hf] at h
          simp only [Option.some.injEq, Prod.mk.injEq] at h
          obtain ⟨rfl, rfl⟩ := h
          have hsome : ∀ f, ∃ l, a.lists f = some l := by
            intro f
            have := List.all_eq_true.1 hf f (by cases f <;> decide)
            exact Option.isSome_iff_exists.1 this
          have hok := (hs ⟨.before, fun _ => .before⟩).1
          obtain ⟨k, rfl⟩ : ∃ k, m = k + 1 := ⟨m - 1, by have := hok.length m hn; omega⟩
          refine ⟨⟨?_, ?_⟩, ?_, ?_⟩
          · intro he
            have := congrArg List.length he
            simp [Acc.layers] at this
          · intro l hl
            rw [Acc.layers, List.range_succ, List.map_append] at hl
            simp only [List.map_cons, List.map_nil, List.dropLast_concat] at hl
            obtain ⟨i, hi, rfl⟩ := List.mem_map.1 hl
            have := List.mem_range.1 hi
            show (if i = k + 1 - 1 then c else noColor) = noColor
            rw [if_neg (by omega)]
          · intro s
            have := (hs s).2.1
            rw [e0] at this
            rw [← this]
            simp only [apply, Acc.over, hc]
            rw [Acc.layers, getLast_range_map]
            have hfield : (fun f => Value.val ((List.map (fun i => { color := if i = k + 1 - 1 then c else noColor, f := fun f => (((a.lists f).getD [])[i]?).getD noColor : Layer V }) (List.range (k + 1))).map (·.f f))) = fun f => ((a.lists f).map Value.val).getD (s.f f) := by
              funext f
              obtain ⟨l, hl⟩ := hsome f
              have hlen : l.length = k + 1 := by
                have := (hok.lists f l hl).1
                rw [hn] at this; exact (Option.some.inj this).symm
              rw [hl, List.map_map]
              show Value.val _ = Value.val l
              congr 1
              have e : (List.range (k + 1)).map (fun i => (l[i]?).getD noColor) = l := map_range l (k + 1) hlen _
              conv => rhs; rw [← e]
              apply List.map_congr_left
              intro i _
              show (((a.lists f).getD [])[i]?).getD noColor = _
              rw [hl]; rfl
            simp only [hfield]
            simp
          · have hc2 := (hs ⟨.before, fun _ => .before⟩).2.2
            have hcount : a.count = ds.length := by rw [hc2.1]; simp
            have himp : a.important = (ds.filter (·.2)).length := by rw [hc2.2]; simp
            intro d hd
            by_cases h0 : a.important > 0
            · have : a.important = a.count := by
                by_cases he : a.important = a.count
                · exact he
                · exact absurd ⟨h0, he⟩ hi
              rw [himp, hcount] at this
              have := List.length_filter_eq_length_iff.1 this d hd
              simp [this, h0]
            · have hz : (ds.filter (·.2)).length = 0 := by omega
              have hnil := List.eq_nil_of_length_eq_zero hz
              have := List.filter_eq_nil_iff.1 hnil d hd
              have hd2 : d.2 = false := by simpa using this
              simp [hd2, h0]
        · rw [if_neg hf] at h; cases h

omit [DecidableEq V] in
theorem setField_some (ls ls' : List (Layer V)) (f : Field) (l : List V) (h : setField ls f l = some ls') :
    l.length = ls.length ∧ ls'.map (·.f f) = l ∧ (∀ g, g ≠ f → ls'.map (·.f g) = ls.map (·.f g)) ∧ ls'.map (·.color) = ls.map (·.color) := by
  unfold setField at h
  by_cases hl : l.length = ls.length
  · rw [if_neg (fun n => n hl)] at h
    cases h
    refine ⟨hl, ?_, ?_, ?_⟩
    · induction ls generalizing l with
      | nil => simp only [List.length_nil] at hl; rw [List.eq_nil_of_length_eq_zero hl]; rfl
      | cons y ls ih => cases l with
        | nil => cases hl
        | cons v l => simp only [List.zipWith_cons_cons, List.map_cons, if_true, ih l (by simpa using hl)]
    · intro g hg
      induction ls generalizing l with
      | nil => rfl
      | cons y ls ih => cases l with
        | nil => cases hl
        | cons v l => simp only [List.zipWith_cons_cons, List.map_cons, if_neg hg, ih l (by simpa using hl)]
    · induction ls generalizing l with
      | nil => rfl
      | cons y ls ih => cases l with
        | nil => cases hl
        | cons v l => simp only [List.zipWith_cons_cons, List.map_cons, ih l (by simpa using hl)]
  · rw [if_pos hl] at h; cases h

omit [DecidableEq V] in
theorem apply_background (ls : List (Layer V)) (s : State V) : apply (.background ls) s = { color := ((ls.map (·.color)).getLast?.map Value.val).getD s.color, f := fun f => .val (ls.map (·.f f)) } := by
  simp only [apply, List.getLast?_map, Option.map_map]
  rfl

omit [DecidableEq V] in
theorem setField_apply (ls ls' : List (Layer V)) (f : Field) (l : List V) (h : setField ls f l = some ls') (s : State V) :
    apply (.background ls') s = apply (.list f l) (apply (.background ls) s) := by
  obtain ⟨_, h1, h2, h3⟩ := setField_some ls ls' f l h
  rw [apply_background, apply_background, h3]
  simp only [apply]
  congr 1
  funext g
  by_cases hg : g = f
  · subst hg; simp [h1]
  · simp [hg, h2 g hg]

omit [DecidableEq V] in
theorem setColor_apply (v : V) : ∀ ls : List (Layer V), ls ≠ [] → (setColor v ls).getLast?.map (·.color) = some v ∧ ∀ f, (setColor v ls).map (·.f f) = ls.map (·.f f)
  | [], h => absurd rfl h
  | [y], _ => ⟨rfl, fun _ => rfl⟩
  | y :: z :: ls, _ => by
    obtain ⟨h1, h2⟩ := setColor_apply v (z :: ls) (by simp)
    have hne : setColor v (z :: ls) ≠ [] := by intro h; rw [h] at h1; cases h1
    have e : setColor v (y :: z :: ls) = y :: setColor v (z :: ls) := rfl
    rw [e]
    refine ⟨?_, fun f => by rw [List.map_cons, List.map_cons, h2 f]⟩
    cases hs : setColor v (z :: ls) with
    | nil => exact absurd hs hne
    | cons a as => rw [hs] at h1; rw [List.getLast?_cons_cons]; exact h1

omit [DecidableEq V] in
/-- **C159** Setting a longhand inside a `background` value: if it succeeds, the new value means the old one followed by the declaration of the longhand. It fails only if the number of values is not the number of layers. -/
theorem C159_set (ls : List (Layer V)) (hls : ls ≠ []) (d : Decl V) :
    (∀ ls', setLonghand ls d = some ls' → ∀ s, apply (.background ls') s = apply d (apply (.background ls) s)) ∧
    (setLonghand ls d = none ↔ match d with
      | .color _ => False
      | .list _ l => l.length ≠ ls.length
      | .position l => l.length ≠ ls.length
      | .clip l _ => l.length ≠ ls.length
      | .background _ => True
      | .raw _ _ => True) := by
  have hnone : ∀ (ls : List (Layer V)) (f : Field) (l : List V), setField ls f l = none ↔ l.length ≠ ls.length := by
    intro ls f l; unfold setField; by_cases h : l.length = ls.length <;> simp [h]
  cases d with
  | color v =>
    refine ⟨?_, by simp [setLonghand]⟩
    intro ls' h s
    cases h
    obtain ⟨h1, h2⟩ := setColor_apply v ls hls
    simp only [apply]
    have : Option.map (fun l => Value.val l.color) (setColor v ls).getLast? = some (Value.val v) := by
      cases hq : (setColor v ls).getLast? with
      | none => rw [hq] at h1; cases h1
      | some y => rw [hq] at h1; cases h1; rfl
    rw [this]
    simp only [h2]
    rfl
  | list f l => exact ⟨fun ls' h s => setField_apply ls ls' f l h s, hnone ls f l⟩
  | position l =>
    refine ⟨?_, ?_⟩
    · intro ls' h s
      simp only [setLonghand] at h
      cases h1 : setField ls .x (l.map (·.1)) with
      | none => rw [h1] at h; cases h
      | some ls1 =>
        rw [h1] at h
        have h : setField ls1 .y (l.map (·.2)) = some ls' := h
        rw [setField_apply _ _ _ _ h, setField_apply _ _ _ _ h1]
        simp only [apply]
        congr 1
        funext g
        by_cases hx : g = .x
        · subst hx; rfl
        · simp [hx]
    · simp only [setLonghand]
      cases h1 : setField ls .x (l.map (·.1)) with
      | none =>
        have := (hnone _ _ _).1 h1
        simpa using this
      | some ls1 =>
        obtain ⟨h2, h3, _, _⟩ := setField_some _ _ _ _ h1
        have hl1 : ls1.length = ls.length := by
          have := congrArg List.length h3
          rw [List.length_map] at this; rw [this, h2]
        have : (some ls1).bind (fun ls => setField ls .y (l.map (·.2))) = setField ls1 .y (l.map (·.2)) := rfl
        rw [this, hnone, List.length_map, hl1]
  | clip l vp => exact ⟨fun ls' h s => setField_apply ls ls' .clip l h s, hnone ls .clip l⟩
  | background _ => exact ⟨(fun _ h => nomatch h), by simp [setLonghand]⟩
  | raw _ _ => exact ⟨(fun _ h => nomatch h), by simp [setLonghand]⟩

/-- **C160** The longhands of a `background` value, declared one after the other, mean the value itself. -/
theorem C160_longhands (noColor : V) (vp : Vp) (hvp : vp.none ∨ vp.webkit ∨ vp.moz) (ls : List (Layer V)) (hls : ls ≠ []) (s : State V) :
    compute noColor all (longhandIds.filterMap fun id => longhand noColor ls id vp) s = apply (.background ls) s := by
  have hne : ∀ f, ls.map (fun l : Layer V => l.f f) ≠ [] := by intro f hm; exact hls (List.map_eq_nil_iff.1 hm)
  have e : (longhandIds.filterMap fun id => longhand noColor ls id vp) = [.color ((ls.getLast?.map (·.color)).getD noColor), .list .image (ls.map (·.f .image)), .list .x (ls.map (·.f .x)), .list .y (ls.map (·.f .y)), .list .repeat (ls.map (·.f .repeat)), .list .size (ls.map (·.f .size)), .list .attachment (ls.map (·.f .attachment)), .list .origin (ls.map (·.f .origin)), .clip (ls.map (·.f .clip)) vp] := rfl
  rw [e]
  have hstep : ∀ (d : Decl V) (ds : List (Decl V)) (s : State V), Valid noColor d → compute noColor all (d :: ds) s = compute noColor all ds (apply d s) := by
    intro d ds s hd
    show compute noColor all ds (if all d = true ∧ Valid noColor d then apply d s else s) = _
    rw [if_pos ⟨rfl, hd⟩]
  rw [hstep (.color _) _ _ trivial, hstep (.list .image _) _ _ (hne .image), hstep (.list .x _) _ _ (hne .x), hstep (.list .y _) _ _ (hne .y), hstep (.list .repeat _) _ _ (hne .repeat), hstep (.list .size _) _ _ (hne .size), hstep (.list .attachment _) _ _ (hne .attachment), hstep (.list .origin _) _ _ (hne .origin), hstep (.clip _ vp) _ _ ⟨hne .clip, hvp⟩]
  show apply _ _ = _
  cases hl : ls.getLast? with
  | none => exact absurd (List.getLast?_eq_none_iff.1 hl) hls
  | some l =>
    simp only [apply, hl]
    congr 1
    funext f
    cases f <;> simp

/-- All nine longhands with two layers give a shorthand; the hypotheses of C158 hold. -/
example : (fromLonghands 0 Vp.plain [(Decl.background [layer 0 11, layer 1 13], false), (.color 2, false), (.list .repeat [21, 22], false)]).map (fun r => r.1.map fun l => (l.color, l.f .repeat, l.f .image)) = some [(0, 21, 11), (2, 22, 13)] := by decide
/-- Setting the size of two layers. -/
example : (setLonghand [layer 0 11, layer 1 13] (.list .size [25, 26])).map (·.map fun l => (l.color, l.f .size, l.f .image)) = some [(0, 25, 11), (1, 26, 13)] := by decide
example : (longhand 0 [layer 0 11, layer 1 13] (.list .image) Vp.plain).map imagesOf = some [11, 13] := by decide

/-- **C158 (counterexample)** `background: A; background-image: var(--x)`: `get` answers A for `background`, although the image is that of the variable. -/
theorem C158_var : (fromLonghands 0 Vp.plain [(Decl.background [layer 1 11], false), (.raw (.list .image) 0, false)]).map (fun r => r.1.map fun l => l.f .image) = some [11] ∧
    (compute 0 all [Decl.background [layer 1 11], .raw (.list .image) 0] start).f .image = .raw (.list .image) 0 := by decide

end Verif.Background
