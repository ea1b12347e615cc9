import Verif.Layers.Lemmas
/-! Property theorems about cascade layers. -/
namespace Verif.Layers
variable {N G O : Type} (e : Env N O)

/-! ### The two kinds of style sheets for which the order of layers is kept -/

/-- Layers are not nested in blocks or conditional rules (but names may have dots, and style sheets imported into a layer may have
layers in them). -/
def FlatR : Rule N G O → Prop
  | .block _ _ rs => Quiet e rs
  | .imp none _ o => e.inside o = []
  | .group _ rs => Quiet e rs
  | _ => True

mutual
/-- Names of layers have no dots, and layers are not nested in conditional rules (but in other layers, to any depth). -/
def NestR : Rule N G O → Prop
  | .block none _ rs => NestL rs
  | .block (some n) _ rs => n.tail = [] ∧ NestL rs
  | .stmt ns _ => ∀ n ∈ ns, n.tail = []
  | .imp none _ o => e.inside o = []
  | .imp (some _) _ _ => True
  | .group _ rs => Quiet e rs
  | .other _ => True
  | .ignored => True
def NestL : List (Rule N G O) → Prop
  | [] => True
  | r :: rs => NestR r ∧ NestL rs
end

variable {e}

theorem nestL_iff (rs : List (Rule N G O)) : NestL e rs ↔ ∀ r ∈ rs, NestR e r := by
  induction rs with
  | nil => simp [NestL]
  | cons r rs ih => simp [NestL, ih]

theorem prefixes_shift (p : List (Comp N)) (cs q : List (Comp N)) : prefixes (p ++ q) cs = (prefixes q cs).map (p ++ ·) := by
  induction cs generalizing q with
  | nil => rfl
  | cons c cs ih =>
    rw [prefixes, prefixes, List.map_cons, ← ih (q ++ [c])]
    simp

/-- Put a leaf below another layer. -/
def Leaf.shift (p : List (Comp N)) (x : Leaf N G O) : Leaf N G O := { x with layer := p ++ x.layer }

mutual
theorem leaves_shift (p : List (Comp N)) : ∀ (r : Rule N G O) (q : List (Comp N)) (gs : List G),
    leaves e (p ++ q) gs r = (leaves e q gs r).map (Leaf.shift p)
  | .block (some n) _ rs, q, gs => by rw [leaves, leaves, ← leavesL_shift p rs]; simp
  | .block none l rs, q, gs => by rw [leaves, leaves, ← leavesL_shift p rs]; simp
  | .stmt _ _, q, gs => rfl
  | .imp none _ o, q, gs => rfl
  | .imp (some none) l o, q, gs => by simp [leaves, Leaf.shift]
  | .imp (some (some n)) l o, q, gs => by simp [leaves, Leaf.shift]
  | .group g rs, q, gs => by rw [leaves, leaves, leavesL_shift p rs]
  | .other o, q, gs => by rw [leaves, leaves]; split <;> rfl
  | .ignored, q, gs => rfl
theorem leavesL_shift (p : List (Comp N)) : ∀ (rs : List (Rule N G O)) (q : List (Comp N)) (gs : List G),
    leavesL e (p ++ q) gs rs = (leavesL e q gs rs).map (Leaf.shift p)
  | [], q, gs => rfl
  | r :: rs, q, gs => by rw [leavesL, leavesL, leaves_shift p r, leavesL_shift p rs, List.map_append]
end

mutual
theorem decls_shift (p : List (Comp N)) : ∀ (r : Rule N G O) (q : List (Comp N)), decls e (p ++ q) r = (decls e q r).map (p ++ ·)
  | .block (some n) _ rs, q => by
    rw [decls, decls, prefixes_shift, List.map_append, ← declsL_shift p rs]; simp
  | .block none l rs, q => by
    rw [decls, decls, List.append_assoc, declsL_shift p rs, leavesL_shift p rs, List.isEmpty_map, List.isEmpty_map]
    split <;> simp
  | .stmt ns _, q => by rw [decls, decls, List.map_flatMap]; simp only [prefixes_shift]
  | .imp none _ o, q => by simp [decls]
  | .imp (some none) l o, q => by simp [decls]
  | .imp (some (some n)) l o, q => by simp [decls, prefixes_shift]
  | .group g rs, q => by rw [decls, decls, declsL_shift p rs]
  | .other o, q => rfl
  | .ignored, q => rfl
theorem declsL_shift (p : List (Comp N)) : ∀ (rs : List (Rule N G O)) (q : List (Comp N)),
    declsL e (p ++ q) rs = (declsL e q rs).map (p ++ ·)
  | [], q => rfl
  | r :: rs, q => by rw [declsL, declsL, decls_shift p r, declsL_shift p rs, List.map_append]
end

theorem declsL_nil_shift (p q : List (Comp N)) (rs : List (Rule N G O)) (h : declsL e p rs = []) : declsL e q rs = [] := by
  have h1 := declsL_shift (e := e) p rs []
  have h2 := declsL_shift (e := e) q rs []
  rw [List.append_nil] at h1 h2
  rw [h] at h1
  rw [h2, List.map_eq_nil_iff.1 h1.symm, List.map_nil]

mutual
theorem leaves_conds (gs gs' : List G) : ∀ (r : Rule N G O) (p : List (Comp N)),
    (leaves e p gs r).map (·.layer) = (leaves e p gs' r).map (·.layer)
  | .block (some n) _ rs, p => by rw [leaves, leaves, leavesL_conds gs gs' rs]
  | .block none l rs, p => by rw [leaves, leaves, leavesL_conds gs gs' rs]
  | .stmt _ _, p => rfl
  | .imp none _ o, p => rfl
  | .imp (some none) l o, p => rfl
  | .imp (some (some n)) l o, p => rfl
  | .group g rs, p => by rw [leaves, leaves, leavesL_conds (g :: gs) (g :: gs') rs]
  | .other o, p => by rw [leaves, leaves]; split <;> rfl
  | .ignored, p => rfl
theorem leavesL_conds (gs gs' : List G) : ∀ (rs : List (Rule N G O)) (p : List (Comp N)),
    (leavesL e p gs rs).map (·.layer) = (leavesL e p gs' rs).map (·.layer)
  | [], p => rfl
  | r :: rs, p => by rw [leavesL, leavesL, List.map_append, List.map_append, leaves_conds gs gs' r, leavesL_conds gs gs' rs]
end

/-- A rule of a list without layers. -/
theorem Quiet.mem {rs : List (Rule N G O)} (h : Quiet e rs) (r : Rule N G O) (hr : r ∈ rs) : Quiet e [r] := by
  refine ⟨fun p => ?_, fun p g x hx => ?_⟩
  · rw [declsL_one, List.eq_nil_iff_forall_not_mem]
    intro x hx
    have : x ∈ declsL e p rs := (mem_declsL _ _ _ _).2 ⟨r, hr, hx⟩
    rw [h.1] at this; simp at this
  · rw [leavesL_one] at hx
    exact h.2 p g x ((mem_leavesL _ _ _ _ _).2 ⟨r, hr, hx⟩)

/-- A block without a layer in it is an empty anonymous block. -/
theorem Quiet.block {n : Option (Name N)} {l : Nat} {rs : List (Rule N G O)} (h : Quiet e [.block n l rs]) : n = none ∧ Quiet e rs := by
  cases n with
  | some n =>
    have := h.1 []
    simp [declsL_one, decls, Name.comps, prefixes] at this
  | none =>
    have h1 : ∀ p, declsL e (p ++ [.anon l]) rs = [] := by
      intro p
      have := h.1 p
      rw [declsL_one, decls] at this
      split at this
      · next hc => simp only [Bool.and_eq_true, List.isEmpty_iff] at hc; exact hc.1
      · simp at this
    refine ⟨rfl, fun p => declsL_nil_shift _ p rs (h1 []), fun p g x hx => ?_⟩
    exfalso
    have h2 := h.2 [] g
    rw [leavesL_one, leaves] at h2
    have h3 := leavesL_shift (e := e) [Comp.anon l] rs [] g
    have h4 := leavesL_shift (e := e) p rs [] g
    rw [List.append_nil] at h3 h4
    rw [h4, List.mem_map] at hx
    obtain ⟨y, hy, -⟩ := hx
    have := h2 (y.shift [Comp.anon l]) (by rw [List.nil_append, h3, List.mem_map]; exact ⟨y, hy, rfl⟩)
    simp [Leaf.shift] at this
theorem Quiet.group {g : G} {rs : List (Rule N G O)} (h : Quiet e [.group g rs]) : Quiet e rs := by
  refine ⟨fun p => ?_, fun p gs x hx => ?_⟩
  · have := h.1 p
    rwa [declsL_one, decls] at this
  · have h1 := leavesL_conds (e := e) gs [g] rs p
    have h2 : x.layer ∈ (leavesL e p gs rs).map (·.layer) := List.mem_map.2 ⟨x, hx, rfl⟩
    rw [h1, List.mem_map] at h2
    obtain ⟨y, hy, hyx⟩ := h2
    rw [← hyx]
    exact h.2 p [] y (by rw [leavesL_one, leaves]; exact hy)

theorem Quiet.nil : Quiet e ([] : List (Rule N G O)) := ⟨fun _ => rfl, fun _ _ _ h => by simp [leavesL] at h⟩

theorem Quiet.imp {l : Nat} {o : O} (h : Quiet e [(.imp none l o : Rule N G O)]) : e.inside o = [] := by
  have := h.1 []
  rw [declsL_one, decls] at this
  exact List.map_eq_nil_iff.1 this

mutual
theorem quiet_nestR : ∀ r : Rule N G O, Quiet e [r] → NestR e r
  | .block none l rs, h => by rw [NestR]; exact quiet_nestL rs h.block.2
  | .block (some n) l rs, h => absurd h.block.1 (by simp)
  | .stmt ns l, h => by
    rw [NestR]
    intro n hn
    have := h.1 []
    rw [declsL_one, decls, List.flatMap_eq_nil_iff] at this
    exact absurd (this n hn) (by simp [Name.comps, prefixes])
  | .imp none l o, h => by rw [NestR]; exact h.imp
  | .imp (some _) l o, h => by simp [NestR]
  | .group g rs, h => by rw [NestR]; exact h.group
  | .other _, h => by simp [NestR]
  | .ignored, h => by simp [NestR]
theorem quiet_nestL : ∀ rs : List (Rule N G O), Quiet e rs → NestL e rs
  | [], _ => by simp [NestL]
  | r :: rs, h => by
    rw [NestL]
    refine ⟨quiet_nestR r (h.mem r (by simp)), quiet_nestL rs ⟨fun p => ?_, fun p g x hx => ?_⟩⟩
    · have := h.1 p
      rw [declsL, List.append_eq_nil_iff] at this
      exact this.2
    · exact h.2 p g x (by rw [leavesL]; simp [hx])
end

theorem comps_inj (n m : Name N) (h : n.comps = m.comps) : n = m := by
  cases n; cases m
  simp only [Name.comps, List.cons.injEq, Comp.named.injEq] at h
  obtain ⟨rfl, h⟩ := h
  rw [List.map_inj_right (by simp)] at h
  rw [h]

theorem flat_mode : Mode e (FlatR e : Rule N G O → Prop) where
  block n l rs h r hr := by
    have hq : Quiet e [r] := Quiet.mem h r hr
    cases r with
    | block n l rs => exact hq.block.2
    | imp ly l o => cases ly with
      | none => exact hq.imp
      | some ly => exact trivial
    | group g rs => exact hq.group
    | _ => exact trivial
  extend n l l' a b ha hb := Quiet.append ha hb
  imp l o h := h
  quiet g rs h := h
  quiet' g rs h := h
  quietMem rs h r hr := by
    have hq : Quiet e [r] := Quiet.mem h r hr
    cases r with
    | block n l rs => exact hq.block.2
    | imp ly l o => cases ly with
      | none => exact hq.imp
      | some ly => exact trivial
    | group g rs => exact hq.group
    | _ => exact trivial
  stmt ns l _ n _ := Quiet.nil
  moveD n l rs B h hB p x hx y hy := by rw [h.1] at hy; simp at hy
  moveL n l rs B h hB p g g' x hx y hy := by
    rw [h.2 _ _ y hy]
    obtain ⟨r, hr, hxr⟩ := (mem_leavesL _ _ _ _ _).1 hx
    obtain ⟨h1, h2⟩ := hB r hr
    cases r with
    | block m l rs =>
      cases m with
      | none =>
        rw [leaves] at hxr
        rw [h1.2 _ _ x hxr]
        simp [Name.comps]
      | some m =>
        rw [leaves] at hxr
        rw [h1.2 _ _ x hxr]
        intro he
        exact h2 (comps_inj _ _ (List.append_cancel_left he))
    | stmt ns l => simp [leaves] at hxr
    | imp ly l o => exact h2.elim
    | group gd rs =>
      rw [leaves] at hxr
      rw [h1.2 _ _ x hxr]
      simp [Name.comps]
    | other o =>
      rw [leaves] at hxr
      split at hxr
      · simp at hxr
      · simp only [List.mem_singleton] at hxr; subst hxr; simp [Name.comps]
    | ignored => simp [leaves] at hxr

theorem mem_prefixes (p : List (Comp N)) (cs : List (Comp N)) (x : List (Comp N)) (h : x ∈ prefixes p cs) :
    ∃ c t s, cs = c :: s ∧ x = p ++ c :: t := by
  induction cs generalizing p with
  | nil => simp [prefixes] at h
  | cons c cs ih =>
    rw [prefixes, List.mem_cons] at h
    rcases h with rfl | h
    · exact ⟨c, [], cs, rfl, rfl⟩
    · obtain ⟨c', t, s, -, rfl⟩ := ih _ h
      exact ⟨c, c' :: t, cs, rfl, by simp⟩

mutual
theorem nest_strict : ∀ r : Rule N G O, NestR e r → ∀ p, ∀ x ∈ decls e p r, ∃ c t, x = p ++ c :: t
  | .block (some n) l rs, h, p, x, hx => by
    rw [NestR] at h
    rw [decls, List.mem_append] at hx
    rcases hx with hx | hx
    · obtain ⟨c, t, -, -, rfl⟩ := mem_prefixes _ _ _ hx; exact ⟨c, t, rfl⟩
    · obtain ⟨c, t, rfl⟩ := nest_strictL rs h.2 _ x hx; exact ⟨.named n.head, n.tail.map .named ++ c :: t, by simp [Name.comps]⟩
  | .block none l rs, h, p, x, hx => by
    rw [NestR] at h
    rw [decls] at hx
    split at hx
    · simp at hx
    · rw [List.mem_cons] at hx
      rcases hx with rfl | hx
      · exact ⟨_, _, rfl⟩
      · obtain ⟨c, t, rfl⟩ := nest_strictL rs h _ x hx; exact ⟨.anon l, c :: t, by simp⟩
  | .stmt ns l, h, p, x, hx => by
    rw [decls, List.mem_flatMap] at hx
    obtain ⟨n, -, hx⟩ := hx
    obtain ⟨c, t, -, -, rfl⟩ := mem_prefixes _ _ _ hx; exact ⟨c, t, rfl⟩
  | .imp none l o, h, p, x, hx => by
    rw [NestR] at h
    rw [decls, h] at hx; simp at hx
  | .imp (some none) l o, h, p, x, hx => by
    rw [decls, List.mem_cons] at hx
    rcases hx with rfl | hx
    · exact ⟨_, _, rfl⟩
    · obtain ⟨y, -, rfl⟩ := List.mem_map.1 hx; exact ⟨.anon l, y, by simp⟩
  | .imp (some (some n)) l o, h, p, x, hx => by
    rw [decls, List.mem_append] at hx
    rcases hx with hx | hx
    · obtain ⟨c, t, -, -, rfl⟩ := mem_prefixes _ _ _ hx; exact ⟨c, t, rfl⟩
    · obtain ⟨y, -, rfl⟩ := List.mem_map.1 hx; exact ⟨.named n.head, n.tail.map .named ++ y, by simp [Name.comps]⟩
  | .group g rs, h, p, x, hx => by rw [NestR] at h; rw [decls, h.1] at hx; simp at hx
  | .other _, h, p, x, hx => by simp [decls] at hx
  | .ignored, h, p, x, hx => by simp [decls] at hx
theorem nest_strictL : ∀ rs : List (Rule N G O), NestL e rs → ∀ p, ∀ x ∈ declsL e p rs, ∃ c t, x = p ++ c :: t
  | [], _, p, x, hx => by simp [declsL] at hx
  | r :: rs, h, p, x, hx => by
    rw [NestL] at h
    rw [declsL, List.mem_append] at hx
    exact hx.elim (nest_strict r h.1 p x) (nest_strictL rs h.2 p x)
end

theorem leaf_prefix (p : List (Comp N)) (gs : List G) (rs : List (Rule N G O)) (x : Leaf N G O) (hx : x ∈ leavesL e p gs rs) :
    ∃ t, x.layer = p ++ t := by
  have h := leavesL_shift (e := e) p rs [] gs
  rw [List.append_nil] at h
  rw [h, List.mem_map] at hx
  obtain ⟨y, -, rfl⟩ := hx
  exact ⟨y.layer, rfl⟩

theorem nest_mode : Mode e (NestR e : Rule N G O → Prop) where
  block n l rs h r hr := by
    cases n with
    | none => rw [NestR] at h; exact (nestL_iff rs).1 h r hr
    | some n => rw [NestR] at h; exact (nestL_iff rs).1 h.2 r hr
  extend n l l' a b ha hb := by
    cases n with
    | none =>
      rw [NestR, nestL_iff] at ha hb ⊢
      intro r hr
      exact (List.mem_append.1 hr).elim (ha r) (hb r)
    | some n =>
      rw [NestR, nestL_iff] at ha hb ⊢
      refine ⟨ha.1, fun r hr => ?_⟩
      exact (List.mem_append.1 hr).elim (ha.2 r) (hb.2 r)
  imp l o h := by rwa [NestR] at h
  quiet g rs h := by rwa [NestR] at h
  quiet' g rs h := by rwa [NestR]
  quietMem rs h r hr := quiet_nestR r (h.mem r hr)
  stmt ns l h n hn := by
    rw [NestR] at h
    simp [NestR, NestL, h n hn]
  moveD n l rs B h hB p x hx y hy := by
    rw [NestR] at h
    obtain ⟨ht, hrs⟩ := h
    obtain ⟨c1, t1, rfl⟩ := nest_strictL rs hrs _ y hy
    obtain ⟨r, hr, hxr⟩ := (mem_declsL _ _ _ _).1 hx
    obtain ⟨h1, h2⟩ := hB r hr
    have key : ∀ c t, c ≠ Comp.named n.head → (p ++ c :: t).dropLast ≠ (p ++ n.comps ++ c1 :: t1).dropLast := by
      intro c t hc he
      rw [Name.comps, ht, List.map_nil, List.append_assoc, List.dropLast_append_of_ne_nil (by simp),
        List.dropLast_append_of_ne_nil (by simp)] at he
      have he := List.append_cancel_left he
      cases t with
      | nil => simp at he
      | cons d t => simp at he; exact hc he.1
    cases r with
    | block m l rs' =>
      cases m with
      | none =>
        rw [decls] at hxr
        split at hxr
        · simp at hxr
        · rw [List.mem_cons] at hxr
          rw [NestR] at h1
          rcases hxr with rfl | hxr
          · exact key _ [] (by simp)
          · obtain ⟨c2, t2, rfl⟩ := nest_strictL rs' h1 _ x hxr
            rw [List.append_assoc]
            exact key _ _ (by simp)
      | some m =>
        rw [NestR] at h1
        have hm : Comp.named m.head ≠ Comp.named n.head := by
          intro he
          apply h2
          cases m; cases n
          simp only [Comp.named.injEq] at he ht h1
          simp [he, ht, h1.1]
        rw [decls, List.mem_append] at hxr
        rcases hxr with hxr | hxr
        · obtain ⟨c, t, s, hc, rfl⟩ := mem_prefixes _ _ _ hxr
          simp only [Name.comps, List.cons.injEq] at hc
          exact key _ _ (hc.1 ▸ hm)
        · obtain ⟨c2, t2, rfl⟩ := nest_strictL rs' h1.2 _ x hxr
          rw [Name.comps, List.append_assoc, List.cons_append]
          exact key _ _ hm
    | stmt ns l => exact h2.elim
    | imp ly l o => exact h2.elim
    | group g rs' => rw [NestR] at h1; rw [decls, h1.1] at hxr; simp at hxr
    | other o => simp [decls] at hxr
    | ignored => simp [decls] at hxr
  moveL n l rs B h hB p g g' x hx y hy := by
    rw [NestR] at h
    obtain ⟨ht, hrs⟩ := h
    obtain ⟨t1, hy⟩ := leaf_prefix _ _ _ _ hy
    rw [hy, Name.comps, ht, List.map_nil, List.append_assoc]
    obtain ⟨r, hr, hxr⟩ := (mem_leavesL _ _ _ _ _).1 hx
    obtain ⟨h1, h2⟩ := hB r hr
    cases r with
    | block m l rs' =>
      cases m with
      | none =>
        rw [leaves] at hxr
        obtain ⟨t2, hx2⟩ := leaf_prefix _ _ _ _ hxr
        rw [hx2, List.append_assoc]
        intro he
        have he := List.append_cancel_left he
        simp at he
      | some m =>
        rw [leaves] at hxr
        rw [NestR] at h1
        obtain ⟨t2, hx2⟩ := leaf_prefix _ _ _ _ hxr
        rw [hx2, List.append_assoc, Name.comps]
        intro he
        have he := List.append_cancel_left he
        simp only [List.cons_append, List.cons.injEq, Comp.named.injEq] at he
        apply h2
        cases m; cases n
        simp only [] at he ht h1
        simp [he.1, ht, h1.1]
    | stmt ns l => exact h2.elim
    | imp ly l o => exact h2.elim
    | group gd rs' =>
      rw [NestR] at h1
      rw [leaves] at hxr
      rw [h1.2 _ _ x hxr]
      simp
    | other o =>
      rw [leaves] at hxr
      split at hxr
      · simp at hxr
      · simp only [List.mem_singleton] at hxr; subst hxr; simp
    | ignored => simp [leaves] at hxr

/-! ## C24 -/
variable [DecidableEq N] [DecidableEq G]

/-- The order of layers in every layer, and the rules in every layer, are kept. -/
theorem minify_layers (M : Rule N G O → Prop) (hM : Mode e M) (fuel : Nat) (rs : List (Rule N G O)) (h : ∀ r ∈ rs, M r)
    (p : List (Comp N)) :
    layerOrder e p (minify e.drop fuel rs) = layerOrder e p rs ∧ rulesIn e p (minify e.drop fuel rs) = rulesIn e p rs := by
  have hs := minify_same hM fuel rs h
  refine ⟨?_, ((hs.l [] []) p).symm⟩
  have := (hs.d []) p
  have hsplit : ∀ l : List (List (Comp N)), firsts (l.filter fun x => decide (x ≠ [] ∧ x.dropLast = p)) =
      (firsts (l.filter fun x => decide (x.dropLast = p))).filter fun x => decide (x ≠ []) := by
    intro l
    rw [← firsts_filter, List.filter_filter]
    congr 1
    exact List.filter_congr fun x _ => by simp
  rw [layerOrder, layerOrder, hsplit, hsplit, this]

/-- **C24** Minification keeps the order of the cascade layers and the rules of each layer, in order, if layers are not nested in
blocks or in conditional rules. Names may have dots, there may be layer statements and imports, in any order. -/
theorem C24_flat_partial (fuel : Nat) (rs : List (Rule N G O)) (h : ∀ r ∈ rs, FlatR e r) (p : List (Comp N)) :
    layerOrder e p (minify e.drop fuel rs) = layerOrder e p rs ∧ rulesIn e p (minify e.drop fuel rs) = rulesIn e p rs :=
  minify_layers _ flat_mode fuel rs h p

/-- **C24** The same for layers nested to any depth, if names have no dots and layers are not nested in conditional rules.
Missing: both dots and nesting, or layers in conditional rules, or in style sheets that are imported into no layer: there the code
changes the order (`C24_counterexample_*`). -/
theorem C24_nested_partial (fuel : Nat) (rs : List (Rule N G O)) (h : ∀ r ∈ rs, NestR e r) (p : List (Comp N)) :
    layerOrder e p (minify e.drop fuel rs) = layerOrder e p rs ∧ rulesIn e p (minify e.drop fuel rs) = rulesIn e p rs :=
  minify_layers _ nest_mode fuel rs h p

/-! ### Examples -/

/-- The environment of the examples: rule 0 has no effect, the style sheet 9 declares the layer 5. -/
def env0 : Env Nat Nat := ⟨(· == 0), fun o => if o = 9 then [[.named 5]] else []⟩
/-- A name of the examples. -/
def nm (a : Nat) (t : List Nat := []) : Name Nat := ⟨a, t⟩

/-- `@layer 1, 2.3; @import .. layer(4); .1 {} @layer 2.3 { .2 {} } @layer 1 { } @layer 6; @media { .3 {} } @layer 1 { .4 {} } @layer 2.3 { .5 {} }` -/
def flat0 : List (Rule Nat Nat Nat) :=
  [.stmt [nm 1, nm 2 [3]] 0, .imp (some (some (nm 4))) 1 9, .other 1, .block (some (nm 2 [3])) 2 [.other 2], .block (some (nm 1)) 3 [.other 0],
   .stmt [nm 6] 4, .group 1 [.other 3], .block (some (nm 1)) 5 [.other 4], .block (some (nm 2 [3])) 6 [.other 5]]

example : (∀ r ∈ flat0, FlatR env0 r) ∧ layerOrder env0 [] (minify env0.drop 3 flat0) = [[.named 1], [.named 2], [.named 4], [.named 6]] := by
  have h : ∀ r ∈ flat0, FlatR env0 r := by
    intro r hr
    simp only [flat0, List.mem_cons, List.not_mem_nil, or_false] at hr
    rcases hr with rfl | rfl | rfl | rfl | rfl | rfl | rfl | rfl | rfl <;>
      simp [FlatR, Quiet, declsL, decls, leavesL, leaves, env0]
  exact ⟨h, (C24_flat_partial 3 flat0 h []).1.trans (by decide +kernel)⟩

/-- `@layer 1 { @layer 2 { .1 {} } } @layer 3 {} @layer 1 { @layer 4; @layer 2 { .2 {} } @layer { .3 {} } }` -/
def nest0 : List (Rule Nat Nat Nat) :=
  [.block (some (nm 1)) 0 [.block (some (nm 2)) 1 [.other 1]], .block (some (nm 3)) 2 [],
   .block (some (nm 1)) 3 [.stmt [nm 4] 4, .block (some (nm 2)) 5 [.other 2], .block none 6 [.other 3]]]

example : (∀ r ∈ nest0, NestR env0 r) ∧
    layerOrder env0 [.named 1] (minify env0.drop 3 nest0) = [[.named 1, .named 2], [.named 1, .named 4], [.named 1, .anon 6]] ∧
    rulesIn env0 [.named 1, .named 2] (minify env0.drop 3 nest0) = [⟨[.named 1, .named 2], [], 1⟩, ⟨[.named 1, .named 2], [], 2⟩] := by
  have h : ∀ r ∈ nest0, NestR env0 r := by
    intro r hr
    simp only [nest0, List.mem_cons, List.not_mem_nil, or_false] at hr
    rcases hr with rfl | rfl | rfl <;> simp [NestR, NestL, nm]
  exact ⟨h, (C24_nested_partial 3 nest0 h _).1.trans (by decide +kernel), (C24_nested_partial 3 nest0 h _).2.trans (by decide +kernel)⟩

/-! ### Where the code changes the order -/

/-- `@layer a; @layer a.y; @layer a { @layer x { .1 {} } }`: `a.x` is moved before `a.y`. -/
theorem C24_counterexample_dots :
    let rs : List (Rule Nat Nat Nat) := [.stmt [nm 1, nm 1 [2]] 0, .block (some (nm 1)) 1 [.block (some (nm 3)) 2 [.other 1]]]
    layerOrder env0 [.named 1] rs = [[.named 1, .named 2], [.named 1, .named 3]] ∧
    layerOrder env0 [.named 1] (minify env0.drop 3 rs) = [[.named 1, .named 3], [.named 1, .named 2]] := by decide +kernel

/-- `@layer a; @media g { @layer c { .1 {} } } @layer b;`: `b` is moved before `c`. -/
theorem C24_counterexample_condition :
    let rs : List (Rule Nat Nat Nat) := [.stmt [nm 1] 0, .group 1 [.block (some (nm 3)) 1 [.other 1]], .stmt [nm 2] 2]
    layerOrder env0 [] rs = [[.named 1], [.named 3], [.named 2]] ∧
    layerOrder env0 [] (minify env0.drop 3 rs) = [[.named 1], [.named 2], [.named 3]] := by decide +kernel

/-- `@layer a { .1 {} } @media g { @layer a { .2 {} } } @layer a { .3 {} }`: in the layer, `.3` is moved before `.2`. -/
theorem C24_counterexample_condition_rules :
    let rs : List (Rule Nat Nat Nat) :=
      [.block (some (nm 1)) 0 [.other 1], .group 1 [.block (some (nm 1)) 1 [.other 2]], .block (some (nm 1)) 2 [.other 3]]
    (rulesIn env0 [.named 1] rs).map (·.rule) = [1, 2, 3] ∧
    (rulesIn env0 [.named 1] (minify env0.drop 3 rs)).map (·.rule) = [1, 3, 2] := by decide +kernel

/-- `@layer a; @import "9.css"; @layer b;` where the imported style sheet declares the layer `5`: `b` is moved before it. -/
theorem C24_counterexample_import :
    let rs : List (Rule Nat Nat Nat) := [.stmt [nm 1] 0, .imp none 1 9, .stmt [nm 2] 2]
    layerOrder env0 [] rs = [[.named 1], [.named 5], [.named 2]] ∧
    layerOrder env0 [] (minify env0.drop 3 rs) = [[.named 1], [.named 2], [.named 5]] := by decide +kernel
end Verif.Layers
