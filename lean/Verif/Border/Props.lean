import Verif.Border.PhysLemmas
/-! # Properties of borders -/
namespace Verif.Border
open Spec (SameProperty Mode Value Longhand parts Agent Computed apply computed Sets Physical OfAxis)

section
variable {V : Type}

theorem all_accepts (a : Agent V) (ha : a.All) (d : Decl V) : a.accepts d := by
  have hv : ∀ k (x : Value V), a.value k x = true := by
    intro k x; cases x <;> first | rfl | exact ha.1 _ _
  cases d with
  | image u => exact ha.2 u
  | _ => exact fun _ _ _ _ _ _ => hv _ _

theorem computed_sets (a : Agent V) (ha : a.All) (m : Mode) (ds : List (Decl V)) : ∀ c : Computed V, (computed a m c ds).f = sets m c.f ds := by
  induction ds with
  | nil => intro c; rfl
  | cons d ds ih =>
    intro c
    simp only [computed, List.foldl_cons] at ih ⊢
    rw [ih, sets_cons]
    simp only [apply]
    rw [if_pos (all_accepts a ha d)]

variable [DecidableEq V]

omit [DecidableEq V] in
theorem state_start (m : Mode) (c : Pos → Key → Value V) : state m c ({}, {}) = c := overs_none m _ (fun _ _ => rfl) c

omit [DecidableEq V] in
theorem start_inv : Inv ({} : Handler V) := ⟨fun _ _ _ => rfl, fun _ _ _ => rfl⟩

omit [DecidableEq V] in
theorem flushImage_sets (m : Mode) (c : Pos → Key → Value V) (s : Handler V × Out V) : sets m c (flushImage s).2.main = sets m c s.2.main := by
  simp only [flushImage]
  split
  · simp only [sets_append, sets_cons, sets_nil]; rw [set_none _ _ _ rfl]
  · rfl

omit [DecidableEq V] in
theorem flushImage_dir (s : Handler V × Out V) (l : Bool) : (flushImage s).2.dir l = s.2.dir l := by
  simp only [flushImage]
  split <;> rfl

/-- C148. If the targets support logical borders, then for every block of border declarations, in every writing mode (or, if only the shorthands of an axis are not supported, in horizontal writing), in a browser that knows all the values, each of the twelve longhands is the same before and after: whatever was merged to `border`, `border-width`, `border-block` and so on, or split. Values with `var()` are included. -/
theorem C148_modern (a : Agent V) (ha : a.All) (env : Env V) (hl : env.logical = true) (hs : SameProperty env) (m : Mode) (hm : env.logicalShorthand = true ∨ m.Horizontal) (c : Computed V) (ds : List (Decl V)) :
    (computed a m c (run env ds).main).f = (computed a m c ds).f := by
  rw [computed_sets a ha, computed_sets a ha]
  have hf : Fits env m true := .inr (hm.elim (fun h => .inl ⟨hl, h⟩) .inr)
  have hg : GoodFlush env m c.f (fun _ => True) := fun s hi _ => flush_logical env hl hs m hf s hi c.f
  have hc : Closed env (fun _ : Handler V => True) := ⟨fun _ _ => trivial⟩
  have key : ∀ (ds : List (Decl V)) (s : Handler V × Out V), Inv s.1 → state m c.f (ds.foldl (handle env) s) = sets m (state m c.f s) ds ∧ Inv (ds.foldl (handle env) s).1 := by
    intro ds
    induction ds with
    | nil => intro s hi; exact ⟨rfl, hi⟩
    | cons d ds ih =>
      intro s hi
      have h1 := handle_state env m c.f hg hc s d (by
        rintro id u rfl o
        simp only [rawOut, hl, if_true, sets_append]; rfl) hi trivial (fun _ _ _ _ _ _ => trivial) (fun _ _ _ _ _ => trivial)
      obtain ⟨h2, i2⟩ := ih (handle env s d) (handle_inv env s d hi)
      rw [List.foldl_cons]
      exact ⟨by rw [h2, h1]; rfl, i2⟩
  obtain ⟨e, i⟩ := key ds ({}, {}) start_inv
  rw [state_start] at e
  rw [← e]
  simp only [run]
  rw [flushImage_sets, flush_logical env hl hs m hf _ i]
  rfl

/-- C149. If logical borders are not supported and the block sets no logical inline side, then in horizontal writing each longhand is the same, and nothing is written for the directions. -/
theorem C149_block (a : Agent V) (ha : a.All) (env : Env V) (hl : env.logical = false) (hs : SameProperty env) (m : Mode) (hm : m.Horizontal) (c : Computed V) (ds : List (Decl V))
    (hd : ∀ d ∈ ds, ∀ k, ¬ Sets d (.log .is) k ∧ ¬ Sets d (.log .ie) k) :
    (computed a m c (run env ds).main).f = (computed a m c ds).f ∧ (run env ds).ltr = [] ∧ (run env ds).rtl = [] := by
  rw [computed_sets a ha, computed_sets a ha]
  have hd : ∀ d ∈ ds, InlineFree d := fun d h id val e k => ⟨fun hl => (hd d h k).1 ⟨id, val, e, hl⟩, fun hl => (hd d h k).2 ⟨id, val, e, hl⟩⟩
  obtain ⟨e, r, i, p⟩ := foldl_free env hl hs m hm c.f ds hd ({}, {}) start_inv (fun _ => ⟨rfl, rfl⟩)
  rw [state_start] at e
  obtain ⟨f1, f2, f3⟩ := flush_noinline env hl hs m hm c.f (ds.foldl (handle env) ({}, {})) i (fun k => (p k).1) (fun k => (p k).2)
  refine ⟨?_, ?_, ?_⟩
  · rw [← e]
    simp only [run]
    rw [flushImage_sets, f1]; rfl
  · have := flushImage_dir (flush env (ds.foldl (handle env) ({}, {}))) true
    have r := r true
    simp only [Out.dir, if_true] at this r
    simp only [run]; rw [this, f2, r]
  · have := flushImage_dir (flush env (ds.foldl (handle env) ({}, {}))) false
    have r := r false
    simp only [Out.dir, Bool.false_eq_true, if_false] at this r
    simp only [run]; rw [this, f3, r]

/-- C150. If logical borders are not supported, then for a block that first has declarations without logical inline sides and then logical declarations with parsed and compatible values: the declarations of the rule followed by those of the rule for the direction give the same longhands as the block, for both directions. Missing: physical declarations or values with `var()` after logical inline ones (their order is lost). -/
theorem C150_direction_partial (a : Agent V) (ha : a.All) (env : Env V) (hl : env.logical = false) (hs : SameProperty env) (hc : ∀ k v, env.compat k v = true) (ltr : Bool) (c : Computed V) (xs ys : List (Decl V))
    (hx : ∀ d ∈ xs, ∀ k, ¬ Sets d (.log .is) k ∧ ¬ Sets d (.log .ie) k)
    (hy : ∀ d ∈ ys, (∃ id val, parts d = some (id, val)) ∧ (∀ id u, d ≠ .raw id u) ∧ ∀ p k, ¬ Sets d (.phys p) k) :
    let m : Mode := if ltr then .ltr else .rtl
    (computed a m c ((run env (xs ++ ys)).main ++ (if ltr then (run env (xs ++ ys)).ltr else (run env (xs ++ ys)).rtl))).f = (computed a m c (xs ++ ys)).f := by
  intro m
  have em : m = dirMode ltr := rfl
  rw [computed_sets a ha, computed_sets a ha, em]
  have hx : ∀ d ∈ xs, InlineFree d := fun d h id val e k => ⟨fun hl => (hx d h k).1 ⟨id, val, e, hl⟩, fun hl => (hx d h k).2 ⟨id, val, e, hl⟩⟩
  have hy : ∀ d ∈ ys, LogicalParsed d := by
    intro d h
    obtain ⟨⟨id, val, e⟩, h1, h2⟩ := hy d h
    exact ⟨h1, (by rintro u rfl; cases e), (by rintro u rfl; cases e), fun id val e p k hl => h2 p k ⟨id, val, e, hl⟩⟩
  obtain ⟨e, r, i, p⟩ := foldl_free env hl hs (dirMode ltr) (dirMode_horizontal ltr) c.f xs hx ({}, {}) start_inv (fun _ => ⟨rfl, rfl⟩)
  rw [state_start] at e
  have late : Late (dirMode ltr) c.f (sets (dirMode ltr) c.f xs) (xs.foldl (handle env) ({}, {})) := ⟨i, e, by intro l; rw [r l]; cases l <;> rfl⟩
  have late2 := foldl_late env hl hs hc (dirMode ltr) (dirMode_horizontal ltr) c.f ys hy _ _ late
  rw [← List.foldl_append] at late2
  have fd := flush_dir env hl hs ltr c.f ((xs ++ ys).foldl (handle env) ({}, {})) late2.inv (late2.dir ltr)
  rw [sets_append _ _ xs ys, ← late2.state]
  have st : state (dirMode ltr) c.f ((xs ++ ys).foldl (handle env) ({}, {})) = overs (dirMode ltr) ((xs ++ ys).foldl (handle env) ({}, {})).1 (sets (dirMode ltr) c.f ((xs ++ ys).foldl (handle env) ({}, {})).2.main) := rfl
  rw [st, ← fd, sets_append, sets_append]
  have hdir : (if ltr then (run env (xs ++ ys)).ltr else (run env (xs ++ ys)).rtl) = (flush env ((xs ++ ys).foldl (handle env) ({}, {}))).2.dir ltr := flushImage_dir (flush env ((xs ++ ys).foldl (handle env) ({}, {}))) ltr
  have hmain : sets (dirMode ltr) c.f (run env (xs ++ ys)).main = sets (dirMode ltr) c.f (flush env ((xs ++ ys).foldl (handle env) ({}, {}))).2.main := flushImage_sets _ _ _
  rw [hdir, hmain]

/-- C151. If neither logical borders nor their shorthands are supported, only physical properties are written, for the rule and for the directions. Missing: blocks that set all twelve logical longhands, and `var()` in a property of a whole logical axis. -/
theorem C151_physical_partial (env : Env V) (hl : env.logical = false) (hls : env.logicalShorthand = false) (hs : SameProperty env) (ds : List (Decl V))
    (p : Pos) (k : Key) (hd : ∀ d ∈ ds, ¬ Sets d (.log p) k) (ha : ∀ d ∈ ds, ∀ id u, d = .raw id u → ¬ OfAxis d) :
    ∀ d ∈ (run env ds).main ++ (run env ds).ltr ++ (run env ds).rtl, Physical d := by
  have h0 : PInv p k (({}, {}) : Handler V × Out V) := ⟨rfl, ⟨(fun _ h => nomatch h), (fun _ h => nomatch h), (fun _ h => nomatch h)⟩⟩
  have h1 := flushImage_pinv p k _ (flush_pinv env hl hls hs p k _ (foldl_pinv env hl hls hs p k ds hd ha _ h0))
  intro d hd
  rcases List.mem_append.mp hd with hd | hd
  · rcases List.mem_append.mp hd with hd | hd
    · exact h1.phys.main d hd
    · exact h1.phys.ltr d hd
  · exact h1.phys.rtl d hd

/-- A block that sets the longhands of `border-image` in no way. -/
def NoImage (d : Decl V) : Prop := (∀ u, d ≠ .image u) ∧ (∀ u, d ≠ .imageRaw u) ∧ (∀ b, d ≠ .border b) ∧ ∀ u, d ≠ .raw .border u

theorem handle_image (env : Env V) (s : Handler V × Out V) (d : Decl V) (hd : NoImage d) : (handle env s d).1.image = s.1.image := by
  have hen : ∀ (s : Handler V × Out V) log, (enter env s log).1.image = s.1.image := by
    intro s log; simp only [enter]; split
    · exact flush_image env s
    · rfl
  have hp : ∀ (s : Handler V × Out V) sl k v, (property env s sl k v).1.image = s.1.image := by
    intro s sl k v
    simp only [property, conflict]
    split
    · split
      · rw [flush_image, hen]
      · exact hen _ _
    · exact hen _ _
  have hb : ∀ (s : Handler V × Out V) sl b, (setBorder env s sl b).1.image = s.1.image := fun s sl b => hen _ _
  cases d with
  | long sl k v => exact hp _ _ _ _
  | side sl b => exact hb _ _ _
  | rect k v => simp only [handle]; rw [hp, hp, hp, hp]
  | border b => exact absurd rfl (hd.2.2.1 b)
  | axisKey a k v w => simp only [handle]; rw [hp, hp]
  | axis a b => simp only [handle]; rw [hb, hb]
  | raw id u => exact flush_image env s
  | image u => exact absurd rfl (hd.1 u)
  | imageRaw u => exact absurd rfl (hd.2.1 u)

omit [DecidableEq V] in
theorem computed_last (a : Agent V) (ha : a.All) (m : Mode) (c : Computed V) (l : List (Decl V)) (d : Decl V) : (computed a m c (l ++ [d])).image = Spec.imageOf d (computed a m c l).image := by
  simp only [computed, List.foldl_append, List.foldl_cons, List.foldl_nil]
  generalize List.foldl (apply a m) c l = c'
  simp only [apply]
  rw [if_pos (all_accepts a ha d)]

/-- C152. A `border-image` that is not followed by `border` or another `border-image` is the `border-image` of the output, for every block around it, for all targets. -/
theorem C152_image (a : Agent V) (ha : a.All) (env : Env V) (m : Mode) (c : Computed V) (xs ys : List (Decl V)) (u : Nat)
    (hy : ∀ d ∈ ys, NoImage d) :
    (computed a m c (run env (xs ++ [.image u] ++ ys)).main).image = (computed a m c (xs ++ [.image u] ++ ys)).image := by
  have src : ∀ (ys : List (Decl V)), (∀ d ∈ ys, NoImage d) → ∀ c : Computed V, (computed a m c ys).image = c.image := by
    intro ys
    induction ys with
    | nil => intro _ c; rfl
    | cons d ys ih =>
      intro h c
      simp only [computed, List.foldl_cons] at ih ⊢
      rw [ih (fun x hx => h x (List.mem_cons_of_mem _ hx))]
      simp only [apply]
      rw [if_pos (all_accepts a ha d)]
      have hd := h d (List.mem_cons_self ..)
      simp only [Spec.imageOf]
      split
      · exact absurd rfl (hd.1 _)
      · exact absurd rfl (hd.2.1 _)
      · exact absurd rfl (hd.2.2.1 _)
      · exact absurd rfl (hd.2.2.2 _)
      · rfl
  have e1 : (computed a m c (xs ++ [.image u] ++ ys)).image = .val u := by
    have : computed a m c (xs ++ [.image u] ++ ys) = computed a m (computed a m c (xs ++ [.image u])) ys := by simp only [computed, List.foldl_append]
    rw [this, src ys hy, computed_last a ha]; rfl
  have held : ∀ (ys : List (Decl V)), (∀ d ∈ ys, NoImage d) → ∀ s : Handler V × Out V, (ys.foldl (handle env) s).1.image = s.1.image := by
    intro ys
    induction ys with
    | nil => intro _ s; rfl
    | cons d ys ih =>
      intro h s
      rw [List.foldl_cons, ih (fun x hx => h x (List.mem_cons_of_mem _ hx)), handle_image env s d (h d (List.mem_cons_self ..))]
  rw [e1]
  simp only [run, List.foldl_append, List.foldl_cons, List.foldl_nil]
  have h1 := held ys hy (handle env (xs.foldl (handle env) ({}, {})) (.image u))
  have h2 : (handle env (xs.foldl (handle env) ({}, {})) (.image u)).1.image = some u := rfl
  rw [h2, ← flush_image env] at h1
  generalize flush env _ = t at h1
  simp only [flushImage, h1]
  rw [computed_last a ha]; rfl

/-- C153. A block that ends with `border` resets `border-image`, whatever was before it. -/
theorem C153_border_last (a : Agent V) (ha : a.All) (env : Env V) (m : Mode) (c : Computed V) (xs : List (Decl V)) (b : Key → V) :
    (computed a m c (run env (xs ++ [.border b])).main).image = .initial := by
  simp only [run, List.foldl_append, List.foldl_cons, List.foldl_nil]
  generalize xs.foldl (handle env) ({}, {}) = s
  have hc : calls env (handle env s (.border b)).1 = [.border b] := by
    have e1 : category env true (fun _ _ => (none : Option V)) = [] := by
      simp [category, fullAll, full, shorthand, blockOut, eqFull, axisShorthand, Axis.start, sideOut, longOf, inlineOut, inlineProp]
    have e2 : category env false (fun _ k => some (b k)) = [.border b] := by
      have : ∀ p : Pos, full (fun _ k => some (b k)) p = some b := by
        intro p; simp only [full]; congr 1; funext k; cases k <;> rfl
      simp only [category, fullAll, this, complete, eqSide]; simp
    show category env false (fun _ k => some (b k)) ++ category env true (fun _ _ => none) = _
    rw [e2, e1]; rfl
  have hf : (flush env (handle env s (.border b))).2 = (s.2.prop env (.border b)) := by
    have : (handle env s (.border b)).1.any = true := rfl
    simp only [flush, this, if_true, hc]; rfl
  have hi : (flush env (handle env s (.border b))).1.image = none := by rw [flush_image]; rfl
  simp only [flushImage, hi, hf]
  have : ∃ l, (s.2.prop env (.border b)).main = l ++ [.border b] := by
    refine ⟨s.2.main ++ (if Decl.hasColor (Decl.border b) && !s.2.has .border then env.fb (.border b) else []), ?_⟩
    simp only [Out.prop, Out.push, Decl.id]
    split <;> simp
  obtain ⟨l, h⟩ := this
  rw [h, computed_last a ha]; rfl

end

/-! ## Examples -/

/-- A target with all features. -/
def modern : Env Nat := ⟨true, true, fun _ _ => true, fun _ => [], fun _ => true⟩
/-- A target without logical borders. -/
def old : Env Nat := ⟨false, false, fun _ _ => true, fun _ => [], fun _ => true⟩
/-- The browser for the examples. -/
def anyAgent : Agent Nat := ⟨fun _ _ => true, fun _ => true⟩
theorem anyAgent_all : anyAgent.All := ⟨fun _ _ => rfl, fun _ => rfl⟩
/-- A border with the three values. -/
def bd (w s c : Nat) : Key → Nat
  | .width => w
  | .style => s
  | .color => c

/-- `border: 1px solid red; border-block-start-width: 2px; border-inline: ...; border-top-color: var(--c)` meets the hypotheses of C148. -/
example : modern.logical = true ∧ SameProperty modern ∧ modern.logicalShorthand = true := ⟨rfl, (fun _ _ h => nomatch h), rfl⟩
example : (run modern [.border (bd 1 1 1), .long (.log .bs) .width 2, .axis .inline (bd 3 3 3), .raw (.long (.phys .bs) .color) 7]).main.length = 4 := by decide +kernel
example : (run modern [.rect .width (fun _ => 1), .rect .style (fun _ => 1), .rect .color (fun _ => 1), .long (.phys .is) .color 2]).main.map Decl.id = [some .border, some (.long (.phys .is) .color)] := by decide +kernel

/-- C148 needs horizontal writing if the shorthands are not supported: `border-inline-width: 1px` is written for left and right, in vertical writing it was for the top and the bottom. -/
theorem C148_vertical : (run ⟨true, false, fun _ _ => true, fun _ => [], fun _ => true⟩ [(.axisKey .inline .width 1 1 : Decl Nat)]).main.map Decl.id =
    [some (.long (.phys .is) .width), some (.long (.phys .ie) .width)] := by decide +kernel

/-- C148 holds for browsers that know all values. The first of two `border-top` is dropped also when the second has a value that is not compatible with the targets. -/
theorem C148_older : (run { modern with compat := fun _ v => v ≠ 9 } [.side (.phys .bs) (bd 1 1 1), .side (.phys .bs) (bd 9 1 1)]).main.map Decl.id = [some (.side (.phys .bs))] := by decide +kernel

example : (run old [.border (bd 1 1 1), .long (.log .bs) .width 2, .raw (.side (.log .be)) 7, .axisKey .block .color 4 5]).main.map Decl.id =
    [some .border, some (.long (.phys .bs) .width), some (.side (.phys .be)), some (.long (.phys .bs) .color), some (.long (.phys .be) .color)] := by decide +kernel

/-- `border-top: ...; border-inline-start-width: 2px; border-inline-color: red blue`. -/
example : ((run old [.side (.phys .bs) (bd 1 1 1), .long (.log .is) .width 2, .axisKey .inline .color 4 5]).ltr.map Decl.id,
    (run old [.side (.phys .bs) (bd 1 1 1), .long (.log .is) .width 2, .axisKey .inline .color 4 5]).rtl.map Decl.id) =
    ([some (.long (.phys .is) .width), some (.long (.phys .is) .color), some (.long (.phys .ie) .color)],
     [some (.long (.phys .ie) .width), some (.long (.phys .ie) .color), some (.long (.phys .is) .color)]) := by decide +kernel

/-- C150 does not hold for physical declarations after logical inline ones: with `border-inline-start-color: 1; border-left-color: 2` the rule for the direction comes later and sets 1. -/
theorem C150_order_lost : (computed anyAgent Mode.ltr {} ((run old [.long (.log .is) .color 1, .long (.phys .is) .color 2]).main ++ (run old [.long (.log .is) .color 1, .long (.phys .is) .color 2]).ltr)).f .is .color = .val 1 ∧
    (computed anyAgent Mode.ltr {} [.long (.log .is) .color 1, .long (.phys .is) .color 2]).f .is .color = .val 2 := by
  rw [computed_sets _ anyAgent_all, computed_sets _ anyAgent_all]
  exact ⟨by decide +kernel, by decide +kernel⟩

/-- C151 does not hold if all logical longhands are set: `border-block: 1px solid red; border-inline: 2px dashed blue` is written with `border-inline`, although logical properties are not supported. -/
theorem C151_axis : (run old [.axis .block (bd 1 1 1), .axis .inline (bd 2 2 2)]).main.map Decl.id = [some .border, some (.axis .inline)] := by decide +kernel

/-- Nor with `var()` for an axis. -/
theorem C151_raw : (run old [(.raw (.axis .inline) 1 : Decl Nat)]).main.map Decl.id = [some (.axis .inline)] := by decide +kernel

/-- C152 and C153 leave open: four sides are merged to `border`, which resets a `border-image` that the block did not mention. -/
theorem C153_merged_resets : (computed anyAgent Mode.ltr {} (run modern [.side (.phys .bs) (bd 1 1 1), .side (.phys .be) (bd 1 1 1), .side (.phys .is) (bd 1 1 1), .side (.phys .ie) (bd 1 1 1)]).main).image = .initial ∧
    (computed anyAgent Mode.ltr {} [.side (.phys .bs) (bd 1 1 1), .side (.phys .be) (bd 1 1 1), .side (.phys .is) (bd 1 1 1), .side (.phys .ie) (bd 1 1 1)]).image = .before := by
  have e : (run modern [.side (.phys .bs) (bd 1 1 1), .side (.phys .be) (bd 1 1 1), .side (.phys .is) (bd 1 1 1), .side (.phys .ie) (bd 1 1 1)]).main = [] ++ [.border (bd 1 1 1)] := by
    have : ∀ d : Decl Nat, d = .border (fun k => match k with | .width => 1 | .style => 1 | .color => 1) → [d] = [] ++ [.border (bd 1 1 1)] := by
      rintro d rfl
      have : (fun k => match k with | .width => 1 | .style => 1 | .color => 1 : Key → Nat) = bd 1 1 1 := by funext k; cases k <;> rfl
      rw [this]; rfl
    exact this _ rfl
  refine ⟨?_, ?_⟩
  · rw [e, computed_last _ anyAgent_all]; rfl
  · have : ∀ (l : List (Decl Nat)) d, Spec.imageOf d .before = .before → (computed anyAgent Mode.ltr {} l).image = .before → (computed anyAgent Mode.ltr {} (l ++ [d])).image = .before := by
      intro l d h1 h2; rw [computed_last _ anyAgent_all, h2, h1]
    exact this [_, _, _] _ rfl (this [_, _] _ rfl (this [_] _ rfl (this [] _ rfl rfl)))

/-- Four sides that all differ after `border`: no `border` is written, and `border-image` is not reset. -/
theorem C153_not_reset : (run modern [.border (bd 1 1 1), .side (.phys .bs) (bd 2 2 2), .side (.phys .be) (bd 3 3 3), .side (.phys .is) (bd 4 4 4)]).main.map Decl.id =
    [some (.side (.phys .bs)), some (.side (.phys .be)), some (.side (.phys .is)), some (.side (.phys .ie))] := by decide +kernel

/-- `border: ...; border-image: 1; border-image: 2`, where 2 is not compatible with the targets: the fallback 1 is written before `border`, which resets it. -/
theorem C152_fallback_lost : (run { modern with imageCompat := fun u => u ≠ 2 } [.border (bd 1 1 1), .image 1, .image 2]).main.map Decl.id = [none, some .border, none] := by decide +kernel

end Verif.Border
