import Verif.Background.Spec
namespace Verif.Background
open Spec
variable {V : Type} [DecidableEq V]

/-- A browser that understands all declarations. -/
def all (_ : Decl V) : Bool := true

theorem compute_append (n : V) (acc : Decl V → Bool) (a b : List (Decl V)) (s : State V) : compute n acc (a ++ b) s = compute n acc b (compute n acc a s) := by
  induction a generalizing s with
  | nil => rfl
  | cons d a ih => exact ih _

theorem compute_one (n : V) (d : Decl V) (h : Valid n d) (s : State V) : compute n all [d] s = apply d s := by
  show (if all d = true ∧ Valid n d then apply d s else s) = _
  rw [if_pos ⟨rfl, h⟩]

/-- What the handler holds, over what has been written. -/
def over (h : Handler V) (s : State V) : State V :=
  { color := (h.color.map Value.val).getD s.color,
    f := fun f => if f = .clip then (h.clips.map fun c => Value.val c.1).getD (s.f f) else ((h.lists f).map Value.val).getD (s.f f) }

/-- The states of the handler that are reached. -/
structure Ok (h : Handler V) : Prop where
  lists : ∀ f l, h.lists f = some l → l ≠ []
  clips : ∀ c, h.clips = some c → c.1 ≠ [] ∧ (c.2.none ∨ c.2.webkit ∨ c.2.moz)
  none : h.any = false → h.color = none ∧ (∀ f, h.lists f = none) ∧ h.clips = none

/-- What is assumed about the environment: fallbacks are values of the same property, and targets ask for at least one spelling of the prefixes. -/
structure EnvOk (env : Env V) : Prop where
  fb : ∀ d, ∀ e ∈ env.fb d, SameProperty d e
  prefixes : ∀ vp, (vp.none ∨ vp.webkit ∨ vp.moz) → ((env.prefixes vp).none ∨ (env.prefixes vp).webkit ∨ (env.prefixes vp).moz)

omit [DecidableEq V] in
theorem same_apply (n : V) (d e : Decl V) (h : SameProperty d e) (hd : Valid n d) (s : State V) : apply d (apply e s) = apply d s := by
  cases d <;> cases e <;> simp only [SameProperty] at h
  case color => rfl
  case list f l g l' => subst h; simp only [apply]; congr 1; funext f'; by_cases hf : f' = f <;> simp [hf]
  case position => simp only [apply]; congr 1; funext f'; by_cases hx : f' = .x <;> by_cases hy : f' = .y <;> simp [hx, hy]
  case clip => simp only [apply]; congr 1; funext f'; by_cases hx : f' = .clip <;> simp [hx]
  case background ls ls' =>
    simp only [apply]
    cases h' : ls.getLast? with
    | none => exact absurd (List.getLast?_eq_none_iff.1 h') hd.1
    | some l => rfl

theorem fb_compute (n : V) (d : Decl V) (hd : Valid n d) (es : List (Decl V)) (h : ∀ e ∈ es, SameProperty d e) (s : State V) : compute n all (es ++ [d]) s = apply d s := by
  induction es generalizing s with
  | nil => exact compute_one n d hd s
  | cons e es ih =>
    rw [List.cons_append]
    show compute n all (es ++ [d]) _ = _
    rw [ih (fun x hx => h x (List.mem_cons_of_mem _ hx))]
    by_cases hv : all e = true ∧ Valid n e
    · rw [if_pos hv]; exact same_apply n d e (h e List.mem_cons_self) hd s
    · rw [if_neg hv]

theorem if_fb (n : V) (d : Decl V) (hd : Valid n d) (es : List (Decl V)) (b : Bool) (h : ∀ e ∈ es, SameProperty d e) (s : State V) : compute n all ((if b then [] else es) ++ [d]) s = apply d s := by
  cases b with
  | true => exact compute_one n d hd s
  | false => exact fb_compute n d hd es h s

omit [DecidableEq V] in
theorem getLast_range_map {α : Type} (n : Nat) (f : Nat → α) : ((List.range (n + 1)).map f).getLast? = some (f n) := by
  rw [List.range_succ, List.map_append]; simp

omit [DecidableEq V] in
theorem map_range (l : List V) (n : Nat) (h : l.length = n) (x : V) : (List.range n).map (fun i => (l[i]?).getD x) = l := by
  subst h
  apply List.ext_getElem
  · simp
  · intro i h1 h2; simp [h2]

omit [DecidableEq V] in
theorem whole_some (h : Handler V) (c : V) (cl : List V × Vp) (hw : whole h = some (c, cl)) :
    h.color = some c ∧ h.clips = some cl ∧ ∃ im, h.lists .image = some im ∧ cl.1.length = im.length ∧ ∀ f, f ≠ .clip → ∃ l, h.lists f = some l ∧ l.length = im.length := by
  unfold whole at hw
  cases hc : h.color with
  | none => rw [hc] at hw; cases hw
  | some c' =>
    cases hi : h.lists .image with
    | none => rw [hc, hi] at hw; cases hw
    | some im =>
      cases hk : h.clips with
      | none => rw [hc, hi, hk] at hw; cases hw
      | some cl' =>
        rw [hc, hi, hk] at hw
        simp only at hw
        by_cases hb : ((plainFields.all fun f => (h.lists f).any fun l => l.length == im.length) && cl'.1.length == im.length) = true
        · rw [if_pos hb] at hw
          cases hw
          rw [Bool.and_eq_true] at hb
          refine ⟨rfl, rfl, im, rfl, by simpa using hb.2, ?_⟩
          intro f hf
          have hm : f ∈ plainFields := by cases f <;> first | decide | exact absurd rfl hf
          have := List.all_eq_true.1 hb.1 f hm
          cases hl : h.lists f with
          | none => rw [hl] at this; cases this
          | some l => rw [hl] at this; exact ⟨l, rfl, by simpa using this⟩
        · rw [if_neg hb] at hw; cases hw

omit [DecidableEq V] in
theorem mem_layers (env : Env V) (c : V) (g : Field → List V) (n : Nat) (b : Bool) : ∀ l ∈ (layers env c g (n + 1) b).dropLast, l.color = env.noColor := by
  intro l hl
  rw [layers, List.range_succ, List.map_append] at hl
  simp only [List.map_cons, List.map_nil, List.dropLast_concat] at hl
  obtain ⟨i, hi, rfl⟩ := List.mem_map.1 hl
  have := List.mem_range.1 hi
  show (if i = n + 1 - 1 then c else env.noColor) = env.noColor
  rw [if_neg (by omega)]

theorem shorthand_compute (env : Env V) (he : EnvOk env) (h : Handler V) (hok : Ok h) (c : V) (cl : List V × Vp) (hw : whole h = some (c, cl)) (s : State V) :
    compute env.noColor all (shorthand env h c cl) s = over h s := by
  obtain ⟨hc, hk, im, hi, hlen, hf⟩ := whole_some h c cl hw
  have hne : im ≠ [] := hok.lists _ _ hi
  have hcl := hok.clips cl hk
  obtain ⟨n, hn⟩ : ∃ n, im.length = n + 1 := ⟨im.length - 1, by have := List.length_pos_iff.2 hne; omega⟩
  unfold shorthand
  simp only
  have hil : ((h.lists .image).getD []).length = n + 1 := by rw [hi]; exact hn
  rw [hil, compute_append]
  have hvp : ((clipPrefixes env cl).none ∨ (clipPrefixes env cl).webkit ∨ (clipPrefixes env cl).moz) := by
    rw [clipPrefixes]
    by_cases ht : cl.1.any env.isText = true
    · rw [if_pos ht]; exact he.prefixes _ hcl.2
    · rw [if_neg ht]; exact hcl.2
  generalize clipPrefixes env cl = vp at *
  have hv : ∀ b, Valid env.noColor (.background (layers env c (fieldOf h cl.1) (n + 1) b)) := by
    intro b
    refine ⟨?_, mem_layers env c _ n b⟩
    intro he
    have := congrArg List.length he
    simp [layers] at this
  rw [if_fb _ _ (hv _) _ _ (he.fb _)]
  have hlast : ∀ b, (layers env c (fieldOf h cl.1) (n + 1) b).getLast?.map (fun l => Value.val l.color) = some (Value.val c) := by
    intro b
    rw [layers, getLast_range_map]
    simp
  have hfield : ∀ b, ∀ f, f ≠ .clip → (layers env c (fieldOf h cl.1) (n + 1) b).map (·.f f) = (h.lists f).getD [] := by
    intro b f hf'
    obtain ⟨l, hl, hll⟩ := hf f hf'
    rw [layers, List.map_map]
    have : (List.range (n + 1)).map (fun i => (l[i]?).getD env.borderBox) = l := map_range l (n + 1) (by rw [hll, hn]) _
    rw [hl]
    show _ = l
    rw [← this]
    apply List.map_congr_left
    intro i _
    show (if f = .clip ∧ b = false then env.borderBox else ((fieldOf h cl.1 f)[i]?).getD env.borderBox) = (l[i]?).getD env.borderBox
    rw [if_neg (fun h => hf' h.1), fieldOf, if_neg hf', hl]
    rfl
  have hclip : (layers env c (fieldOf h cl.1) (n + 1) true).map (·.f .clip) = cl.1 := by
    rw [layers, List.map_map]
    have : (List.range (n + 1)).map (fun i => (cl.1[i]?).getD env.borderBox) = cl.1 := map_range cl.1 (n + 1) (by rw [hlen, hn]) _
    conv => rhs; rw [← this]
    apply List.map_congr_left
    intro i _
    show (if Field.clip = .clip ∧ true = false then env.borderBox else ((fieldOf h cl.1 .clip)[i]?).getD env.borderBox) = (cl.1[i]?).getD env.borderBox
    rw [if_neg (by simp), fieldOf, if_pos rfl]
  have fin : ∀ f, f ≠ .clip → ((h.lists f).map (Value.val (α := List V))).getD (s.f f) = .val ((h.lists f).getD []) := by
    intro f hf'
    obtain ⟨l, hl, _⟩ := hf f hf'
    rw [hl]; rfl
  by_cases hp : (vp == Vp.plain) = true
  · rw [if_pos hp, hp]
    show apply _ s = _
    simp only [apply, over, hlast, hc, hk]
    congr 1
    funext f
    by_cases hf' : f = .clip
    · subst hf'; rw [if_pos rfl, hclip]; rfl
    · rw [if_neg hf', fin f hf', hfield true f hf']
  · rw [if_neg hp]
    have hpf : (vp == Vp.plain) = false := by cases h' : vp == Vp.plain <;> simp_all
    rw [hpf, compute_one env.noColor (.clip cl.1 vp) ⟨hcl.1, hvp⟩]
    simp only [apply, over, hlast, hc, hk]
    congr 1
    funext f
    by_cases hf' : f = .clip
    · subst hf'; rw [if_pos rfl, if_pos rfl]; rfl
    · rw [if_neg hf', if_neg hf', fin f hf', hfield false f hf']

/-- A list over what there was. -/
def set (f : Field) (o : Option (List V)) (s : State V) : State V := { s with f := fun g => if g = f then (o.map Value.val).getD (s.f g) else s.f g }

omit [DecidableEq V] in
theorem set_none (f : Field) (s : State V) : set f none s = s := by
  have : (fun g => if g = f then ((none : Option (List V)).map Value.val).getD (s.f g) else s.f g) = s.f := by
    funext g; by_cases hg : g = f <;> simp [hg]
  show State.mk s.color _ = s
  rw [this]

theorem listOut_compute (n : V) (h : Handler V) (hok : Ok h) (f : Field) (s : State V) : compute n all (listOut h f) s = set f (h.lists f) s := by
  unfold listOut
  cases hl : h.lists f with
  | none => exact (set_none _ s).symm
  | some l => exact compute_one n (.list f l) (hok.lists _ _ hl) s

theorem positionOut_compute (n : V) (h : Handler V) (hok : Ok h) (s : State V) : compute n all (positionOut h) s = set .y (h.lists .y) (set .x (h.lists .x) s) := by
  have hxy : compute n all (listOut h .x ++ listOut h .y) s = set .y (h.lists .y) (set .x (h.lists .x) s) := by
    rw [compute_append, listOut_compute n h hok, listOut_compute n h hok]
  unfold positionOut
  cases hx : h.lists .x with
  | none => rw [hx] at hxy; exact hxy
  | some xs =>
    cases hy : h.lists .y with
    | none => rw [hx, hy] at hxy; exact hxy
    | some ys =>
      by_cases hl : xs.length = ys.length
      · simp only [if_pos hl]
        have hne : xs.zip ys ≠ [] := by
          have := hok.lists _ _ hx
          have h2 := hok.lists _ _ hy
          cases xs with
          | nil => exact absurd rfl this
          | cons a as => cases ys with
            | nil => exact absurd rfl h2
            | cons b bs => exact (by intro h; cases h)
        rw [compute_one n (.position (xs.zip ys)) hne]
        simp only [apply, set]
        have e1 : (xs.zip ys).map (·.1) = xs := List.map_fst_zip (by omega)
        have e2 : (xs.zip ys).map (·.2) = ys := List.map_snd_zip (by omega)
        rw [e1, e2]
        congr 1
        funext g
        by_cases h1 : g = .x
        · subst h1; rfl
        · by_cases h2 : g = .y
          · subst h2; rfl
          · simp [h1, h2]
      · simp only [if_neg hl]
        rw [hx, hy] at hxy
        simp only [listOut, hx, hy] at hxy
        exact hxy

theorem flushOut_compute (env : Env V) (he : EnvOk env) (h : Handler V) (hok : Ok h) (s : State V) : compute env.noColor all (flushOut env h) s = over h s := by
  unfold flushOut
  cases hw : whole h with
  | some p => exact shorthand_compute env he h hok p.1 p.2 hw s
  | none =>
    simp only
    rw [compute_append, compute_append, compute_append, compute_append, compute_append, compute_append, compute_append]
    simp only [listOut_compute env.noColor h hok, positionOut_compute env.noColor h hok]
    have hcol : ∀ s, compute env.noColor all (colorOut env h) s = { s with color := (h.color.map Value.val).getD s.color } := by
      intro s
      unfold colorOut
      cases h.color with
      | none => rfl
      | some c => exact if_fb env.noColor (.color c) trivial _ _ (he.fb _) s
    have him : ∀ s, compute env.noColor all (imageOut env h) s = set .image (h.lists .image) s := by
      intro s
      unfold imageOut
      cases hl : h.lists .image with
      | none => exact (set_none _ s).symm
      | some l => exact if_fb env.noColor (.list .image l) (hok.lists _ _ hl) _ _ (he.fb _) s
    have hcl : ∀ s, compute env.noColor all (clipOut env h) s = set .clip (h.clips.map (·.1)) s := by
      intro s
      unfold clipOut
      cases hk : h.clips with
      | none => exact (set_none _ s).symm
      | some cl =>
        obtain ⟨h1, h2⟩ := hok.clips cl hk
        refine compute_one env.noColor (.clip cl.1 _) ⟨h1, ?_⟩ s
        rw [clipPrefixes]
        by_cases ht : cl.1.any env.isText = true
        · rw [if_pos ht]; exact he.prefixes _ h2
        · rw [if_neg ht]; exact h2
    rw [hcol, him, hcl]
    simp only [set, over]
    congr 1
    funext f
    cases f <;> simp
    cases h.clips <;> rfl

omit [DecidableEq V] in
/-- `over` of nothing. -/
theorem over_none (h : Handler V) (s : State V) (h1 : h.color = none) (h2 : ∀ f, h.lists f = none) (h3 : h.clips = none) : over h s = s := by
  unfold over
  rw [h1, h3]
  have : (fun f => if f = Field.clip then ((none : Option (List V × Vp)).map fun c => Value.val c.1).getD (s.f f) else ((h.lists f).map Value.val).getD (s.f f)) = s.f := by
    funext f; rw [h2 f]; by_cases hf : f = .clip <;> simp [hf]
  rw [this]
  rfl

omit [DecidableEq V] in
theorem mark_same (ds : List (Decl V)) (h : Handler V) : (ds.foldl (fun h d => h.mark d.id) h).color = h.color ∧ (ds.foldl (fun h d => h.mark d.id) h).lists = h.lists ∧ (ds.foldl (fun h d => h.mark d.id) h).clips = h.clips ∧ (ds.foldl (fun h d => h.mark d.id) h).any = h.any ∧ (ds.foldl (fun h d => h.mark d.id) h).decls = h.decls ∧ (ds.foldl (fun h d => h.mark d.id) h).hasPrefix = h.hasPrefix := by
  induction ds generalizing h with
  | nil => exact ⟨rfl, rfl, rfl, rfl, rfl, rfl⟩
  | cons d ds ih => exact ih _

/-- The invariant: what has been written and what is held give the values of the block so far. -/
structure Inv (env : Env V) (p : Handler V × List (Decl V)) (s t : State V) : Prop where
  ok : Ok p.1
  eq : over p.1 (compute env.noColor all p.2 s) = t

theorem flush_inv (env : Env V) (he : EnvOk env) (p : Handler V × List (Decl V)) (s t : State V) (h : Inv env p s t) :
    Inv env (flush env p) s t ∧ (flush env p).1.color = none ∧ (∀ f, (flush env p).1.lists f = none) ∧ (flush env p).1.clips = none ∧ compute env.noColor all (flush env p).2 s = t ∧ (flush env p).1.decls = p.1.decls ∧ (flush env p).1.hasPrefix = p.1.hasPrefix := by
  unfold flush
  by_cases ha : p.1.any = true
  · rw [if_pos ha]
    obtain ⟨m1, m2, m3, m4, m5, m6⟩ := mark_same (flushOut env p.1) { p.1 with color := none, lists := fun _ => none, clips := none, any := false }
    have e : compute env.noColor all (p.2 ++ flushOut env p.1) s = t := by rw [compute_append, flushOut_compute env he _ h.ok]; exact h.eq
    have n1 : (emptied p.1 (flushOut env p.1)).color = none := m1
    have n2 : ∀ f, (emptied p.1 (flushOut env p.1)).lists f = none := fun f => congrFun m2 f
    have n3 : (emptied p.1 (flushOut env p.1)).clips = none := m3
    refine ⟨⟨⟨?_, ?_, (fun _ => ⟨n1, n2, n3⟩)⟩, ?_⟩, n1, n2, n3, e, m5, m6⟩
    · intro f l hl; rw [n2 f] at hl; cases hl
    · intro c hc; rw [n3] at hc; cases hc
    · show over (emptied p.1 (flushOut env p.1)) (compute env.noColor all (p.2 ++ flushOut env p.1) s) = t
      rw [over_none _ _ n1 n2 n3, e]
  · rw [if_neg ha]
    obtain ⟨n1, n2, n3⟩ := h.ok.none (by simpa using ha)
    refine ⟨h, n1, n2, n3, ?_, rfl, rfl⟩
    have := h.eq
    rwa [over_none _ _ n1 n2 n3] at this

/-- Changing the prefixed declarations changes nothing else. -/
theorem inv_decls (env : Env V) (p : Handler V × List (Decl V)) (s t : State V) (h : Inv env p s t) (b : Bool) (ds : List (Decl V)) : Inv env ({ p.1 with hasPrefix := b, decls := ds }, p.2) s t :=
  ⟨⟨h.ok.lists, h.ok.clips, h.ok.none⟩, h.eq⟩

theorem image_inv (env : Env V) (he : EnvOk env) (p : Handler V × List (Decl V)) (d : Decl V) (l : List V) (s t : State V) (h : Inv env p s t) : Inv env (image env p d l) s t := by
  have h1 : Inv env (imageStep env p l) s t := by
    unfold imageStep
    cases p.1.lists .image with
    | none => exact h
    | some w =>
      by_cases hc : w ≠ l ∧ env.imagesOk l = false
      · simp only [if_pos hc]; exact (flush_inv env he p s t h).1
      · simp only [if_neg hc]; exact h
  unfold image
  simp only
  by_cases hp : l.any env.prefixed = true
  · rw [if_pos hp]; exact inv_decls env _ s t h1 _ _
  · rw [if_neg hp]; exact inv_decls env _ s t h1 _ _

theorem color_inv (env : Env V) (he : EnvOk env) (p : Handler V × List (Decl V)) (v : V) (s t : State V) (h : Inv env p s t) : Inv env (colorStep env p v) s t := by
  unfold colorStep
  cases p.1.color with
  | none => exact h
  | some w =>
    by_cases hc : w ≠ v ∧ env.colorOk v = false
    · simp only [if_pos hc]; exact (flush_inv env he p s t h).1
    · simp only [if_neg hc]; exact h

theorem setList_inv (env : Env V) (p : Handler V × List (Decl V)) (f : Field) (hf : f ≠ .clip) (l : List V) (hl : l ≠ []) (s t : State V) (h : Inv env p s t) :
    Inv env (setList p.1 f l, p.2) s (apply (.list f l) t) := by
  refine ⟨⟨?_, h.ok.clips, (fun h => nomatch h)⟩, ?_⟩
  · intro g l' hg
    simp only [setList] at hg
    by_cases hgf : g = f
    · rw [if_pos hgf] at hg; cases hg; exact hl
    · rw [if_neg hgf] at hg; exact h.ok.lists _ _ hg
  · rw [← h.eq]
    simp only [over, setList, apply]
    congr 1
    funext g
    by_cases hg : g = f
    · subst hg; simp [hf]
    · by_cases hc : g = .clip
      · subst hc; simp [hg]
      · simp [hg, hc]

theorem clip_inv (env : Env V) (p : Handler V × List (Decl V)) (l : List V) (vp : Vp) (hl : l ≠ []) (hv : vp.none ∨ vp.webkit ∨ vp.moz) (s t : State V) (h : Inv env p s t) (v : Vp) :
    Inv env ({ p.1 with clips := some (l, vp), any := true }, p.2) s (apply (.clip l v) t) := by
  refine ⟨⟨h.ok.lists, ?_, (fun h => nomatch h)⟩, ?_⟩
  · intro c hc; cases hc; exact ⟨hl, hv⟩
  · rw [← h.eq]
    simp only [over, apply]
    congr 1
    funext g
    by_cases hg : g = .clip
    · subst hg; simp
    · simp [hg]

omit [DecidableEq V] in
theorem or_some (a b : Vp) (h : a.none ∨ a.webkit ∨ a.moz) : ((a.or b).none ∨ (a.or b).webkit ∨ (a.or b).moz) := by
  obtain ⟨a1, a2, a3⟩ := a
  simp only [Vp.or]
  rcases h with h | h | h <;> simp_all

theorem handle_inv (env : Env V) (he : EnvOk env) (p : Handler V × List (Decl V)) (d : Decl V) (hd : Valid env.noColor d) (hcl : ∀ l, d ≠ .list .clip l) (s t : State V) (h : Inv env p s t) :
    Inv env (handle env p d) s (apply d t) := by
  cases d with
  | color v =>
    have h1 := color_inv env he p v s t h
    simp only [handle]
    refine ⟨⟨h1.ok.lists, h1.ok.clips, (fun h => nomatch h)⟩, ?_⟩
    rw [← h1.eq]
    rfl
  | list f l =>
    by_cases hi : f = .image
    · subst hi
      exact setList_inv env _ .image (by decide) l hd s t (image_inv env he p _ l s t h)
    · have : handle env p (.list f l) = (setList p.1 f l, p.2) := by cases f <;> first | rfl | exact absurd rfl hi
      rw [this]
      exact setList_inv env p f (fun hc => hcl l (by rw [hc])) l hd s t h
  | position l =>
    have h1 := setList_inv env p .x (by decide) (l.map (·.1)) (by cases l with | nil => exact absurd rfl hd | cons a as => exact (by intro h; cases h)) s t h
    have h2 := setList_inv env _ .y (by decide) (l.map (·.2)) (by cases l with | nil => exact absurd rfl hd | cons a as => exact (by intro h; cases h)) s _ h1
    have e : apply (.list .y (l.map (·.2))) (apply (.list .x (l.map (·.1))) t) = apply (.position l) t := by
      simp only [apply]
      congr 1
      funext g
      by_cases h1 : g = .x
      · subst h1; rfl
      · simp [h1]
    rw [e] at h2
    exact h2
  | clip l vp =>
    simp only [handle]
    cases hc : p.1.clips with
    | none => exact clip_inv env p l vp hd.1 hd.2 s t h vp
    | some c =>
      obtain ⟨cur, cvp⟩ := c
      simp only
      by_cases hn : vp ≠ cvp ∧ l ≠ cur
      · rw [if_pos hn]
        exact clip_inv env (flush env p) l vp hd.1 hd.2 s t (flush_inv env he p s t h).1 vp
      · rw [if_neg hn]
        exact clip_inv env p l _ hd.1 (or_some _ _ (h.ok.clips _ hc).2) s t h vp
  | background ls =>
    simp only [handle]
    have hne := hd.1
    have h1 := image_inv env he p (.background ls) (ls.map (·.f .image)) s t h
    generalize image env p (.background ls) (ls.map (·.f .image)) = p1 at h1 ⊢
    have h2 := color_inv env he p1 ((ls.getLast?.map (·.color)).getD env.noColor) s t h1
    generalize colorStep env p1 ((ls.getLast?.map (·.color)).getD env.noColor) = p2 at h2 ⊢
    have h3 : Inv env (clipStep env p2 (ls.map (·.f .clip))).1 s t ∧ ((clipStep env p2 (ls.map (·.f .clip))).2.none = true) := by
      unfold clipStep
      cases hc : p2.1.clips with
      | none => exact ⟨h2, rfl⟩
      | some c =>
        obtain ⟨cur, vp⟩ := c
        simp only
        by_cases hn : Vp.plain ≠ vp ∧ cur ≠ ls.map (·.f .clip)
        · rw [if_pos hn]; exact ⟨(flush_inv env he p2 s t h2).1, rfl⟩
        · rw [if_neg hn]; exact ⟨h2, rfl⟩
    generalize clipStep env p2 (ls.map (·.f .clip)) = p3 at h3 ⊢
    have hmap : ∀ f, ls.map (·.f f) ≠ [] := by intro f hm; exact hne (List.map_eq_nil_iff.1 hm)
    refine ⟨⟨?_, ?_, (fun h => nomatch h)⟩, ?_⟩
    · intro f l hl
      simp only at hl
      by_cases hf : f = .clip
      · rw [if_pos hf] at hl; exact h3.1.ok.lists _ _ hl
      · rw [if_neg hf] at hl; cases hl; exact hmap f
    · intro c hc; cases hc; exact ⟨hmap _, .inl h3.2⟩
    · simp only [over, apply]
      cases hl : ls.getLast? with
      | none => exact absurd (List.getLast?_eq_none_iff.1 hl) hne
      | some l =>
        congr 1
        funext f
        by_cases hf : f = .clip
        · subst hf; simp
        · simp [hf]
  | raw id u =>
    obtain ⟨hi, n1, n2, n3, e, _⟩ := flush_inv env he p s t h
    simp only [handle]
    refine ⟨⟨?_, ?_, (fun h => nomatch h)⟩, ?_⟩
    · intro f l hl
      have : (flush env p).1.lists f = some l := hl
      rw [n2 f] at this; cases this
    · intro c hc
      have : (flush env p).1.clips = some c := hc
      rw [n3] at this; cases this
    · rw [over_none]
      · show compute env.noColor all ((flush env p).2 ++ [.raw id u]) s = _
        rw [compute_append, e]
        exact compute_one env.noColor (.raw id u) trivial t
      · exact n1
      · exact n2
      · exact n3

/-- What an image does to the prefixed declarations. -/
theorem image_decls (env : Env V) (he : EnvOk env) (p : Handler V × List (Decl V)) (d : Decl V) (l : List V) (s t : State V) (h : Inv env p s t) (hl : l.any env.prefixed = false) (hd : p.1.decls = []) :
    (image env p d l).1.decls = [] ∧ (image env p d l).1.hasPrefix = false := by
  have hs : (imageStep env p l).1.decls = [] := by
    unfold imageStep
    cases p.1.lists .image with
    | none => exact hd
    | some w =>
      by_cases hc : w ≠ l ∧ env.imagesOk l = false
      · simp only [if_pos hc]; rw [(flush_inv env he p s t h).2.2.2.2.2.1]; exact hd
      · simp only [if_neg hc]; exact hd
  unfold image
  simp only
  rw [if_neg (by rw [hl]; simp)]
  refine ⟨?_, rfl⟩
  show (if env.browsers then [] else (imageStep env p l).1.decls) = []
  rw [hs]; simp

theorem colorStep_decls (env : Env V) (he : EnvOk env) (p : Handler V × List (Decl V)) (v : V) (s t : State V) (h : Inv env p s t) : (colorStep env p v).1.decls = p.1.decls ∧ (colorStep env p v).1.hasPrefix = p.1.hasPrefix := by
  unfold colorStep
  cases p.1.color with
  | none => exact ⟨rfl, rfl⟩
  | some w =>
    by_cases hc : w ≠ v ∧ env.colorOk v = false
    · simp only [if_pos hc]; exact (flush_inv env he p s t h).2.2.2.2.2
    · simp only [if_neg hc]; exact ⟨trivial, trivial⟩

theorem clipStep_decls (env : Env V) (he : EnvOk env) (p : Handler V × List (Decl V)) (c : List V) (s t : State V) (h : Inv env p s t) : (clipStep env p c).1.1.decls = p.1.decls ∧ (clipStep env p c).1.1.hasPrefix = p.1.hasPrefix := by
  unfold clipStep
  cases p.1.clips with
  | none => exact ⟨rfl, rfl⟩
  | some w =>
    obtain ⟨cur, vp⟩ := w
    simp only
    by_cases hc : Vp.plain ≠ vp ∧ cur ≠ c
    · rw [if_pos hc]; exact (flush_inv env he p s t h).2.2.2.2.2
    · rw [if_neg hc]; exact ⟨rfl, rfl⟩

theorem handle_decls (env : Env V) (he : EnvOk env) (p : Handler V × List (Decl V)) (d : Decl V) (s t : State V) (h : Inv env p s t) (hi : (imagesOf d).any env.prefixed = false) (hd : p.1.decls = [] ∧ p.1.hasPrefix = false) :
    (handle env p d).1.decls = [] ∧ (handle env p d).1.hasPrefix = false := by
  cases d with
  | color v =>
    have := colorStep_decls env he p v s t h
    exact ⟨this.1.trans hd.1, this.2.trans hd.2⟩
  | list f l =>
    by_cases hf : f = .image
    · subst hf; exact image_decls env he p _ l s t h hi hd.1
    · have : handle env p (.list f l) = (setList p.1 f l, p.2) := by cases f <;> first | rfl | exact absurd rfl hf
      rw [this]; exact hd
  | position l => exact hd
  | clip l vp =>
    simp only [handle]
    cases p.1.clips with
    | none => exact hd
    | some c =>
      obtain ⟨cur, cvp⟩ := c
      simp only
      by_cases hn : vp ≠ cvp ∧ l ≠ cur
      · rw [if_pos hn]
        have := (flush_inv env he p s t h).2.2.2.2.2
        exact ⟨this.1.trans hd.1, this.2.trans hd.2⟩
      · rw [if_neg hn]; exact hd
  | background ls =>
    simp only [handle]
    have h1 := image_inv env he p (.background ls) (ls.map (·.f .image)) s t h
    have d1 := image_decls env he p (.background ls) (ls.map fun l : Layer V => l.f .image) s t h hi hd.1
    have h2 := color_inv env he _ ((ls.getLast?.map (·.color)).getD env.noColor) s t h1
    have d2 := colorStep_decls env he _ ((ls.getLast?.map (·.color)).getD env.noColor) s t h1
    have d3 := clipStep_decls env he _ (ls.map (·.f .clip)) s t h2
    exact ⟨(d3.1.trans d2.1).trans d1.1, (d3.2.trans d2.2).trans d1.2⟩
  | raw id u =>
    have := (flush_inv env he p s t h).2.2.2.2.2
    exact ⟨this.1.trans hd.1, this.2.trans hd.2⟩

theorem run_inv (env : Env V) (he : EnvOk env) (s : State V) (ds : List (Decl V)) : ∀ (p : Handler V × List (Decl V)) (t : State V), Inv env p s t →
    (∀ d ∈ ds, Valid env.noColor d ∧ ∀ l, d ≠ .list .clip l) → Inv env (ds.foldl (handle env) p) s (compute env.noColor all ds t) := by
  induction ds with
  | nil => intro p t h _; exact h
  | cons d ds ih =>
    intro p t h hv
    have hd := hv d List.mem_cons_self
    have := ih (handle env p d) (apply d t) (handle_inv env he p d hd.1 hd.2 s t h) (fun x hx => hv x (List.mem_cons_of_mem _ hx))
    show Inv env (ds.foldl (handle env) (handle env p d)) s (compute env.noColor all ds (if all d = true ∧ Valid env.noColor d then apply d t else t))
    rw [if_pos ⟨rfl, hd.1⟩]
    exact this

theorem run_decls (env : Env V) (he : EnvOk env) (s : State V) (ds : List (Decl V)) : ∀ (p : Handler V × List (Decl V)) (t : State V), Inv env p s t →
    (∀ d ∈ ds, Valid env.noColor d ∧ ∀ l, d ≠ .list .clip l) → (∀ d ∈ ds, (imagesOf d).any env.prefixed = false) → p.1.decls = [] ∧ p.1.hasPrefix = false →
    (ds.foldl (handle env) p).1.decls = [] ∧ (ds.foldl (handle env) p).1.hasPrefix = false := by
  induction ds with
  | nil => intro p t _ _ _ h; exact h
  | cons d ds ih =>
    intro p t h hv hi hd
    have hd' := hv d List.mem_cons_self
    exact ih (handle env p d) (apply d t) (handle_inv env he p d hd'.1 hd'.2 s t h) (fun x hx => hv x (List.mem_cons_of_mem _ hx)) (fun x hx => hi x (List.mem_cons_of_mem _ hx)) (handle_decls env he p d s t h (hi d List.mem_cons_self) hd)

theorem start_inv (env : Env V) (s : State V) : Inv env ({}, []) s s :=
  ⟨⟨(fun _ _ h => nomatch h), (fun _ h => nomatch h), fun _ => ⟨rfl, fun _ => rfl, rfl⟩⟩, over_none _ _ rfl (fun _ => rfl) rfl⟩

/-- **C156** Minifying a block of background declarations without vendor-prefixed images leaves the value of all nine longhands the same, for all valid blocks: longhands and shorthands in any order, with `var()`, with prefixed `background-clip`, and with values that older targets do not understand. -/
theorem C156_longhands (env : Env V) (he : EnvOk env) (ds : List (Decl V)) (hv : ∀ d ∈ ds, Valid env.noColor d ∧ ∀ l, d ≠ .list .clip l) (hi : ∀ d ∈ ds, (imagesOf d).any env.prefixed = false) (s : State V) :
    compute env.noColor all (run env ds) s = compute env.noColor all ds s := by
  have h := run_inv env he s ds ({}, []) s (start_inv env s) hv
  have hd := run_decls env he s ds ({}, []) s (start_inv env s) hv hi ⟨rfl, rfl⟩
  unfold run
  unfold finalize
  simp only [hd.1, hd.2]
  generalize ds.foldl (handle env) ({}, []) = p at h hd ⊢
  have : Inv env ({ color := p.1.color, lists := p.1.lists, clips := p.1.clips, flushed := p.1.flushed, any := p.1.any }, p.2 ++ (if false = true then List.dropLast [] else [])) s (compute env.noColor all ds s) := by
    refine ⟨⟨h.ok.lists, h.ok.clips, h.ok.none⟩, ?_⟩
    show over p.1 (compute env.noColor all (p.2 ++ []) s) = _
    rw [List.append_nil]; exact h.eq
  exact (flush_inv env he _ s _ this).2.2.2.2.1

/-- All is held. -/
def Full' (h : Handler V) : Prop := (∃ c, h.color = some c) ∧ (∀ f, f ≠ .clip → ∃ l, h.lists f = some l) ∧ ∃ c, h.clips = some c

/-- Nothing has been written, and the prefixed declarations have nothing that is not held. -/
structure Once (p : Handler V × List (Decl V)) : Prop where
  dest : p.2 = []
  clips : ∀ c, p.1.clips = some c → c.2 = Vp.plain
  decls : ∀ d ∈ p.1.decls, (∃ l, d = .list .image l ∧ ∃ l', p.1.lists .image = some l') ∨ (∃ ls, d = .background ls ∧ Full' p.1)

/-- What is asked of the environment and the block. -/
structure Compat (env : Env V) (d : Decl V) : Prop where
  color : ∀ v, env.colorOk v = true
  images : ∀ l, env.imagesOk l = true
  clip : ∀ l vp, d = .clip l vp → vp = Vp.plain
  raw : ∀ id u, d ≠ .raw id u

omit [DecidableEq V] in
/-- More is held. -/
theorem once_more (p : Handler V × List (Decl V)) (h : Once p) (h' : Handler V) (hd : h'.decls = p.1.decls) (h1 : p.1.color ≠ none → h'.color ≠ none) (h2 : ∀ f, p.1.lists f ≠ none → h'.lists f ≠ none) (h3 : p.1.clips ≠ none → h'.clips ≠ none) (h4 : ∀ c, h'.clips = some c → c.2 = Vp.plain) : Once (h', p.2) := by
  have opt : ∀ {α : Type} (o : Option α), o ≠ none ↔ ∃ a, o = some a := by intro α o; cases o <;> simp
  refine ⟨h.dest, h4, ?_⟩
  intro d hm
  rw [hd] at hm
  rcases h.decls d hm with ⟨l, rfl, hl⟩ | ⟨ls, rfl, f1, f2, f3⟩
  · exact .inl ⟨l, rfl, (opt _).1 (h2 _ ((opt _).2 hl))⟩
  · exact .inr ⟨ls, rfl, (opt _).1 (h1 ((opt _).2 f1)), fun f hf => (opt _).1 (h2 f ((opt _).2 (f2 f hf))), (opt _).1 (h3 ((opt _).2 f3))⟩

theorem colorStep_same (env : Env V) (hc : ∀ v, env.colorOk v = true) (p : Handler V × List (Decl V)) (v : V) : colorStep env p v = p := by
  unfold colorStep
  cases p.1.color with
  | none => rfl
  | some w => simp [hc]

theorem imageStep_same (env : Env V) (hc : ∀ v, env.imagesOk v = true) (p : Handler V × List (Decl V)) (l : List V) : imageStep env p l = p := by
  unfold imageStep
  cases p.1.lists .image with
  | none => rfl
  | some w => simp [hc]

theorem image_eq (env : Env V) (hc : ∀ v, env.imagesOk v = true) (p : Handler V × List (Decl V)) (d : Decl V) (l : List V) :
    image env p d l = ({ p.1 with hasPrefix := l.any env.prefixed, decls := if l.any env.prefixed then p.1.decls ++ [d] else if env.browsers then [] else p.1.decls }, p.2) := by
  unfold image
  simp only [imageStep_same env hc]
  cases l.any env.prefixed <;> simp

theorem handle_once (env : Env V) (p : Handler V × List (Decl V)) (d : Decl V) (hd : Compat env d) (hcl : ∀ l, d ≠ .list .clip l) (h : Once p) : Once (handle env p d) := by
  cases d with
  | color v =>
    simp only [handle, colorStep_same env hd.color]
    exact once_more p h _ rfl (by simp) (fun _ h => h) (fun h => h) h.clips
  | list f l =>
    have hset : ∀ q : Handler V × List (Decl V), Once q → ∀ f, Once (setList q.1 f l, q.2) := by
      intro q hq f
      refine once_more q hq _ rfl (fun h => h) ?_ (fun h => h) hq.clips
      intro g hg
      simp only [setList]
      by_cases hgf : g = f
      · rw [if_pos hgf]; simp
      · rw [if_neg hgf]; exact hg
    by_cases hf : f = .image
    · subst hf
      simp only [handle, image_eq env hd.images]
      have hq := hset p h .image
      refine ⟨h.dest, h.clips, ?_⟩
      intro d hm
      have hm' : d ∈ (if l.any env.prefixed then p.1.decls ++ [.list .image l] else if env.browsers then [] else p.1.decls) := hm
      have : d ∈ p.1.decls ∨ d = .list .image l := by
        by_cases h1 : l.any env.prefixed = true
        · rw [if_pos h1] at hm'; simpa using hm'
        · rw [if_neg h1] at hm'
          by_cases h2 : env.browsers = true
          · rw [if_pos h2] at hm'; cases hm'
          · rw [if_neg h2] at hm'; exact .inl hm'
      rcases this with hm | rfl
      · exact hq.decls d hm
      · exact .inl ⟨l, rfl, l, by simp [setList]⟩
    · have : handle env p (.list f l) = (setList p.1 f l, p.2) := by cases f <;> first | rfl | exact absurd rfl hf
      rw [this]
      exact hset p h f
  | position l =>
    refine once_more p h _ rfl (fun h => h) ?_ (fun h => h) h.clips
    intro g hg
    simp only [setList]
    by_cases h1 : g = .y
    · simp [h1]
    · by_cases h2 : g = .x
      · simp [h2]
      · simp only [if_neg h1, if_neg h2]; exact hg
  | clip l vp =>
    have hvp := hd.clip l vp rfl
    subst hvp
    simp only [handle]
    cases hc : p.1.clips with
    | none => exact once_more p h _ rfl (fun h => h) (fun _ h => h) (by simp) (by intro c hc; cases hc; rfl)
    | some c =>
      obtain ⟨cur, cvp⟩ := c
      have : cvp = Vp.plain := h.clips _ hc
      subst this
      simp only [ne_eq, not_true_eq_false, false_and, if_false]
      exact once_more p h _ rfl (fun h => h) (fun _ h => h) (by simp) (by intro c hc; cases hc; rfl)
  | background ls =>
    simp only [handle, image_eq env hd.images, colorStep_same env hd.color]
    have hcs : ∀ q : Handler V × List (Decl V), (∀ c, q.1.clips = some c → c.2 = Vp.plain) → clipStep env q (ls.map (·.f .clip)) = (q, Vp.plain) := by
      intro q hq
      unfold clipStep
      cases hc : q.1.clips with
      | none => rfl
      | some c =>
        obtain ⟨cur, vp⟩ := c
        have : vp = Vp.plain := hq _ hc
        subst this
        simp [Vp.or, Vp.plain]
    have hb : ∀ b ds, clipStep env ({ p.1 with hasPrefix := b, decls := ds }, p.2) (ls.map (·.f .clip)) = (({ p.1 with hasPrefix := b, decls := ds }, p.2), Vp.plain) := fun b ds => hcs _ h.clips
    rw [hb]
    refine ⟨h.dest, (by intro c hc; cases hc; rfl), ?_⟩
    intro d hm
    have hfull : ∀ f, f ≠ .clip → ∃ l, (if f = .clip then p.1.lists f else some (ls.map (·.f f))) = some l := by
      intro f hf; rw [if_neg hf]; exact ⟨_, rfl⟩
    have hm' : d ∈ (if (ls.map (·.f .image)).any env.prefixed then p.1.decls ++ [.background ls] else if env.browsers then [] else p.1.decls) := hm
    have : d ∈ p.1.decls ∨ d = .background ls := by
      by_cases h1 : (ls.map (·.f .image)).any env.prefixed = true
      · rw [if_pos h1] at hm'; simpa using hm'
      · rw [if_neg h1] at hm'
        by_cases h2 : env.browsers = true
        · rw [if_pos h2] at hm'; cases hm'
        · rw [if_neg h2] at hm'; exact .inl hm'
    rcases this with hm | rfl
    · rcases h.decls d hm with ⟨l, rfl, _⟩ | ⟨ls', rfl, _⟩
      · exact .inl ⟨l, rfl, hfull .image (by decide)⟩
      · exact .inr ⟨ls', rfl, ⟨_, rfl⟩, hfull, ⟨_, rfl⟩⟩
    · exact .inr ⟨ls, rfl, ⟨_, rfl⟩, hfull, ⟨_, rfl⟩⟩
  | raw id u => exact absurd rfl (hd.raw id u)

omit [DecidableEq V] in
/-- The prefixed declarations do not matter below what is held. -/
theorem over_apply (p : Handler V × List (Decl V)) (h : Once p) (d : Decl V) (hm : d ∈ p.1.decls) (s : State V) : over p.1 (apply d s) = over p.1 s := by
  rcases h.decls d hm with ⟨l, rfl, l', hl⟩ | ⟨ls, rfl, ⟨c, hc⟩, hf, ⟨k, hk⟩⟩
  · simp only [over, apply]
    congr 1
    funext f
    by_cases hi : f = .image
    · subst hi; simp [hl]
    · simp [hi]
  · simp only [over, apply, hc, hk]
    congr 1
    funext f
    by_cases hi : f = .clip
    · simp [hi]
    · obtain ⟨l, hl⟩ := hf f hi
      simp [hi, hl]

theorem over_compute (n : V) (p : Handler V × List (Decl V)) (h : Once p) (ds : List (Decl V)) (hm : ∀ d ∈ ds, d ∈ p.1.decls) (s : State V) : over p.1 (compute n all ds s) = over p.1 s := by
  induction ds generalizing s with
  | nil => rfl
  | cons d ds ih =>
    show over p.1 (compute n all ds _) = _
    rw [ih (fun x hx => hm x (List.mem_cons_of_mem _ hx))]
    by_cases hv : all d = true ∧ Valid n d
    · rw [if_pos hv]; exact over_apply p h d (hm d List.mem_cons_self) s
    · rw [if_neg hv]

theorem run_once (env : Env V) (ds : List (Decl V)) : ∀ p, Once p → (∀ d ∈ ds, Compat env d ∧ ∀ l, d ≠ .list .clip l) → Once (ds.foldl (handle env) p) := by
  induction ds with
  | nil => intro p h _; exact h
  | cons d ds ih =>
    intro p h hc
    have := hc d List.mem_cons_self
    exact ih _ (handle_once env p d this.1 this.2 h) (fun x hx => hc x (List.mem_cons_of_mem _ hx))

/-- **C157 (partial)** With vendor-prefixed images, a browser that understands all values computes the same nine longhands for the minified block. What is missing: blocks with `var()`, prefixed `background-clip`, or values that targets do not understand (`C157_var`), and browsers that do not understand all values (`C157_color`, `C157_dropped`). -/
theorem C157_prefixed_partial (env : Env V) (he : EnvOk env) (ds : List (Decl V)) (hv : ∀ d ∈ ds, Valid env.noColor d ∧ ∀ l, d ≠ .list .clip l) (hc : ∀ d ∈ ds, Compat env d) (s : State V) :
    compute env.noColor all (run env ds) s = compute env.noColor all ds s := by
  have h := run_inv env he s ds ({}, []) s (start_inv env s) hv
  have ho := run_once env ds ({}, []) ⟨rfl, (fun _ h => nomatch h), (fun _ h => nomatch h)⟩ (fun d hd => ⟨hc d hd, (hv d hd).2⟩)
  unfold run finalize
  simp only
  generalize ds.foldl (handle env) ({}, []) = p at h ho ⊢
  have hm : ∀ d ∈ (if p.1.hasPrefix then p.1.decls.dropLast else p.1.decls), d ∈ p.1.decls := by
    intro d hd
    by_cases hp : p.1.hasPrefix = true
    · rw [if_pos hp] at hd; exact List.dropLast_subset _ hd
    · rw [if_neg hp] at hd; exact hd
  generalize (if p.1.hasPrefix then p.1.decls.dropLast else p.1.decls) = q at hm ⊢
  have : Inv env ({ color := p.1.color, lists := p.1.lists, clips := p.1.clips, hasPrefix := p.1.hasPrefix, flushed := p.1.flushed, any := p.1.any }, p.2 ++ q) s (compute env.noColor all ds s) := by
    refine ⟨⟨h.ok.lists, h.ok.clips, h.ok.none⟩, ?_⟩
    show over p.1 (compute env.noColor all (p.2 ++ q) s) = _
    rw [← h.eq, ho.dest, List.nil_append, over_compute env.noColor p ho q hm]
    rfl
  exact (flush_inv env he _ s _ this).2.2.2.2.1

/-- **C157 (part)** Without targets, the common way to write prefixed images — prefixed values first, the last one last — is left as it is, so that every browser gets the same image. -/
theorem C157_verbatim (env : Env V) (hb : env.browsers = false) (hc : ∀ l, env.imagesOk l = true) (hf : ∀ d, env.fb d = []) (ls : List (List V)) (last : List V) (hp : ∀ l ∈ ls, l.any env.prefixed = true) :
    run env (ls.map (.list .image) ++ [.list .image last]) = ls.map (.list .image) ++ [.list .image last] := by
  have hstep : ∀ p : Handler V × List (Decl V), ∀ l : List V, handle env p (.list .image l)
      = (setList { p.1 with hasPrefix := l.any env.prefixed, decls := if l.any env.prefixed then p.1.decls ++ [.list .image l] else p.1.decls } .image l, p.2) := by
    intro p l
    simp only [handle, image_eq env hc, hb]
    simp
  have key : ∀ (ls : List (List V)) (p : Handler V × List (Decl V)), (∀ l ∈ ls, l.any env.prefixed = true) →
      (p.1.color = none ∧ p.1.clips = none ∧ (∀ f, f ≠ .image → p.1.lists f = none) ∧ p.2 = []) →
      ((ls.map (Decl.list .image)).foldl (handle env) p).1.color = none ∧ ((ls.map (Decl.list .image)).foldl (handle env) p).1.clips = none ∧
      (∀ f, f ≠ .image → ((ls.map (Decl.list .image)).foldl (handle env) p).1.lists f = none) ∧ ((ls.map (Decl.list .image)).foldl (handle env) p).2 = [] ∧
      ((ls.map (Decl.list .image)).foldl (handle env) p).1.decls = p.1.decls ++ ls.map (.list .image) := by
    intro ls
    induction ls with
    | nil => intro p _ h; exact ⟨h.1, h.2.1, h.2.2.1, h.2.2.2, by simp⟩
    | cons l ls ih =>
      intro p hp h
      rw [List.map_cons, List.foldl_cons, hstep]
      have := ih (setList { p.1 with hasPrefix := l.any env.prefixed, decls := if l.any env.prefixed then p.1.decls ++ [.list .image l] else p.1.decls } .image l, p.2)
        (fun x hx => hp x (List.mem_cons_of_mem _ hx)) ⟨h.1, h.2.1, (by intro f hf'; simp only [setList, if_neg hf']; exact h.2.2.1 f hf'), h.2.2.2⟩
      refine ⟨this.1, this.2.1, this.2.2.1, this.2.2.2.1, ?_⟩
      rw [this.2.2.2.2]
      simp [setList, hp l List.mem_cons_self]
  obtain ⟨k1, k2, k3, k4, k5⟩ := key ls ({}, []) hp ⟨rfl, rfl, fun _ _ => rfl, rfl⟩
  unfold run
  rw [List.foldl_append]
  generalize (ls.map (Decl.list .image)).foldl (handle env) ({}, []) = p at *
  simp only [List.foldl_cons, List.foldl_nil, hstep]
  have hq : ∀ (b : Bool) (ds : List (Decl V)), flushOut env { setList { p.1 with hasPrefix := b, decls := ds } .image last with decls := [] } = [.list .image last] := by
    intro b ds
    have hw : whole { setList { p.1 with hasPrefix := b, decls := ds } .image last with decls := [] } = none := by
      unfold whole; simp [setList, k1]
    unfold flushOut
    rw [hw]
    simp [colorOut, imageOut, positionOut, listOut, clipOut, setList, k1, k2, k3, hf]
  have k5' : p.1.decls = ls.map (.list .image) := by rw [k5]; rfl
  unfold finalize flush
  simp only
  rw [if_pos (by rfl)]
  show p.2 ++ _ ++ flushOut env { setList { p.1 with hasPrefix := _, decls := _ } .image last with decls := [] } = _
  rw [hq, k4, List.nil_append]
  congr 1
  cases hl : last.any env.prefixed with
  | true => simp [setList, k5']
  | false => simp [setList, k5']

/-! ### Examples -/

/-- Values: 0 no colour, 1 red, 2 blue, 10 image A with `-webkit-`, 11 image B, 12 image C with `-moz-`, 13 image D; everything else is a keyword. -/
def testEnv : Env Nat := { browsers := false, colorOk := fun _ => true, imagesOk := fun _ => true, prefixed := fun v => v = 10 ∨ v = 12, fb := fun _ => [], isText := fun v => v = 40, prefixes := fun v => v, noColor := 0, borderBox := 30 }

theorem testEnv_ok : EnvOk testEnv := ⟨(fun _ _ h => nomatch h), fun _ h => h⟩

/-- Layers with an image and a colour. -/
def layer (c i : Nat) : Layer Nat := ⟨c, fun f => if f = .image then i else if f = .clip then 30 else 20⟩

/-- Values at the start. -/
def start : State Nat := ⟨.before, fun _ => .before⟩

/-- The hypotheses of C156 hold for a block with all kinds of declarations, and the output is another block: the longhands are merged. -/
example : (∀ d ∈ [Decl.background [layer 0 11, layer 1 13], .color 2, .list .repeat [21, 22], .clip [40, 40] ⟨false, true, false⟩, .raw (.list .size) 0, .position [(23, 24)]], Valid testEnv.noColor d ∧ (imagesOf d).any testEnv.prefixed = false) ∧
    (run testEnv [Decl.background [layer 0 11, layer 1 13], .color 2, .list .repeat [21, 22], .clip [40, 40] ⟨false, true, false⟩, .raw (.list .size) 0, .position [(23, 24)]]).map Decl.id = [.background, .list .clip, .list .size, .position] := by
  refine ⟨?_, by decide⟩
  intro d hd
  simp only [List.mem_cons, List.not_mem_nil, or_false] at hd
  rcases hd with rfl | rfl | rfl | rfl | rfl | rfl <;> exact ⟨by decide, by decide⟩

/-- The hypotheses of C157 hold for a block with a prefixed image, which is kept before the merged one. -/
example : (run testEnv [.list .image [10], .background [layer 1 11], .color 2]).map Decl.id = [.list .image, .background] := by decide
example : ∀ d ∈ [Decl.list .image [10], .background [layer 1 11], .color 2], Compat testEnv d := by
  intro d hd
  simp only [List.mem_cons, List.not_mem_nil, or_false] at hd
  rcases hd with rfl | rfl | rfl <;> exact ⟨fun _ => rfl, fun _ => rfl, (by intro _ _ h; cases h), (by intro _ _ h; cases h)⟩

/-- **C157 (counterexample)** `background-image: A; background-image: C; background: var(--x)` with prefixed images A and C: A is kept aside and written after `background: var(--x)`, which it overrides. -/
theorem C157_var : (compute 0 all [.list .image [10], .list .image [12], .raw .background 0] start).f .image = .raw .background 0 ∧
    (compute 0 all (run testEnv [.list .image [10], .list .image [12], .raw .background 0]) start).f .image = .val [10] := by decide

/-- **C157 (counterexample)** `background: A red; background-color: blue; background-image: B` without targets: `background: A red; background: B blue` is written, so a browser that only understands A paints red, not blue. -/
theorem C157_color : (compute 0 (fun d => !(imagesOf d).any (· == 11)) [.background [layer 1 10], .color 2, .list .image [11]] start).color = .val 2 ∧
    (compute 0 (fun d => !(imagesOf d).any (· == 11)) (run testEnv [.background [layer 1 10], .color 2, .list .image [11]]) start).color = .val 1 := by decide

/-- **C157 (counterexample)** `background-image: A; background-image: B; background-image: C` without targets, where A and C have different prefixes: B is dropped, which is the only one a browser without prefixes understands. -/
theorem C157_dropped : (compute 0 (fun d => !(imagesOf d).any (fun v => v == 10 || v == 12)) [.list .image [10], .list .image [11], .list .image [12]] start).f .image = .val [11] ∧
    (compute 0 (fun d => !(imagesOf d).any (fun v => v == 10 || v == 12)) (run testEnv [.list .image [10], .list .image [11], .list .image [12]]) start).f .image = .before := by decide

end Verif.Background
