import Verif.Printer.TreeLemmas
/-! Properties of printed rule trees: C36, C51, C52. -/
namespace Verif.Printer

/-! ### What the output is read as -/

mutual
/-- The output of the rule ends with a declaration that is not ended by a semicolon. -/
def ends (o : Opts) (ctx : List Nat) : Rule → Bool
  | .nested ds => !(o.compile && !ctx.isEmpty) && pendDecls o false ds
  | .mediaAll rs => o.minify && endsL o ctx rs
  | _ => false
def endsL (o : Opts) (ctx : List Nat) : List Rule → Bool
  | [] => false
  | r :: rs =>
    if r.skipped o then endsL o ctx rs
    else if o.minify && !o.compile && r.isNested && !rs.isEmpty then endsL o ctx rs
    else if rs.all (·.skipped o) then ends o ctx r
    else endsL o ctx rs
end

mutual
/-- No unended declaration is followed by another rule. -/
def separated (o : Opts) (ctx : List Nat) : Rule → Bool
  | .style s _ _ rs => separatedL o (if o.compile then ctx ++ [s] else ctx) rs
  | .block _ rs => separatedL o ctx rs
  | .mediaAll rs => separatedL o ctx rs
  | .scope _ rs => separatedL o [] rs
  | _ => true
def separatedL (o : Opts) (ctx : List Nat) : List Rule → Bool
  | [] => true
  | r :: rs =>
    (r.skipped o || separated o ctx r &&
      (!ends o ctx r || rs.all (·.skipped o) || (o.minify && !o.compile && r.isNested))) && separatedL o ctx rs
end

mutual
/-- What the output of a rule is read as. -/
def itemsOf (o : Opts) (ctx : List Nat) (v : Nat) : Rule → List Item
  | .style s vps ds rs =>
    (if vps.isEmpty then [v] else vps).flatMap fun v =>
      if rs.isEmpty || !o.compile then [.block (.sel ctx s v) (declItems ds ++ itemsOfL o ctx v rs)]
      else (if 0 < ds.length then [.block (.sel ctx s v) (declItems ds)] else []) ++ itemsOfL o (ctx ++ [s]) v rs
  | .nested ds =>
    if o.compile && !ctx.isEmpty then
      if hasPrintable ds then [.block (.sel ctx.dropLast (ctx.getLast?.getD 0) v) (declItems ds)] else []
    else declItems ds
  | .block n rs => [.block (.at n) (itemsOfL o ctx v rs)]
  | .mediaAll rs => if o.minify then itemsOfL o ctx v rs else [.block .all (itemsOfL o ctx v rs)]
  | .scope n rs => [.block (.scope n ctx) (itemsOfL o [] v rs)]
  | .stmt n _ => [.stmt n]
  | .importRule n => [.stmt n]
  | .font n ps => [.block (.leaf n) (ps.map fun d => .decl d false)]
  | .declBlock n ds => [.block (.leaf n) (declItems ds)]
  | .page n ds ms => [.block (.leaf n) (ds.map (fun d => .decl d.1 d.2) ++ ms.map fun m => .block (.leaf m.1) (declItems m.2))]
  | .keyframes names fs => names.map fun n => .block (.leaf n) (fs.map fun m => .block (.leaf m.1) (declItems m.2))
  | .ignored => []
def itemsOfL (o : Opts) (ctx : List Nat) (v : Nat) : List Rule → List Item
  | [] => []
  | r :: rs => if r.skipped o then itemsOfL o ctx v rs else itemsOf o ctx v r ++ itemsOfL o ctx v rs
end

theorem pendDecls_nested (o : Opts) (ds : Decls) : pendDecls o true ds = false := by simp [pendDecls]

theorem noPrintable {ds : Decls} (h : hasPrintable ds = false) : declItems ds = [] ∧ ∀ o hn, pendDecls o hn ds = false := by
  unfold hasPrintable at h
  split at h
  · cases h
  · next h1 =>
    split at h
    · next h2 =>
      match ds, h2 with
      | [(d, b)], _ =>
        cases d with
        | none => exact ⟨rfl, fun o hn => by simp [pendDecls]⟩
        | some d => simp at h
    · next h2 =>
      have : ds = [] := by cases ds with
        | nil => rfl
        | cons x ds => simp at h1 h2; exact absurd h1 h2
      subst this
      exact ⟨rfl, fun o hn => by simp [pendDecls]⟩

theorem prints_sel {m : Bool} {body : List Op} {v w : Nat} {ctx : List Nat} {s : Nat} {i : List Item} {p : Bool} (h : Prints m body v w i p) :
    Prints m (.openSel ctx s :: .indent :: (body ++ [.dedent, .nl, .tok .close])) v w [.block (.sel ctx s v) i] false :=
  Prints.braces _ (by intro st hv; simp [exec1, hv]) h

theorem Prints.false_of {m : Bool} {a : List Op} {u v : Nat} {i : List Item} {p : Bool} (h : Prints m a u v i p) (hp : p = false) :
    Prints m a u v i false := hp ▸ h

/-- `to_css_base` prints one block, or the block and then the nested rules. -/
theorem prints_styleBase (o : Opts) (ctx : List Nat) (s v : Nat) (ds : Decls) (empty : Bool) (inner : List Nat → List Op)
    (items : List Nat → List Item) (p : Bool) (hinner : Prints o.minify (inner (if empty || !o.compile then ctx else ctx ++ [s])) v v
      (items (if empty || !o.compile then ctx else ctx ++ [s])) p) (hp : empty = false → o.compile = true → p = false)
    (hemp : empty = true → inner ctx = [] ∧ items ctx = []) :
    Prints o.minify (styleBase o ctx s ds empty inner) v v
      (if empty || !o.compile then [.block (.sel ctx s v) (declItems ds ++ items ctx)]
        else (if 0 < ds.length then [.block (.sel ctx s v) (declItems ds)] else []) ++ items (ctx ++ [s])) false := by
  have hopt : ∀ c : Bool, Prints o.minify (if c then [Op.nl] else []) v v [] false := by
    intro c; cases c
    · exact prints_nil _ _
    · exact prints_nl _ _
  have hopt' : ∀ c : Bool, Prints o.minify (if c then [Op.rawnl] else []) v v [] false := by
    intro c; cases c
    · exact prints_nil _ _
    · exact prints_rawnl _ _
  have hnl : ∀ c d : Bool, Prints o.minify (if c then (if d then [Op.rawnl] else []) ++ [Op.nl] else []) v v [] false := by
    intro c d; cases c
    · exact prints_nil _ _
    · exact (hopt' d).append (prints_nl _ _)
  have h0 := hopt (decide (0 < ds.length))
  by_cases hc : (empty || !o.compile) = true
  · simp only [hc, if_true] at hinner ⊢
    have hd := prints_decls o (!empty) v ds
    unfold styleBase
    simp only [hc, if_true, Bool.true_or, Bool.true_and]
    cases hempty : empty with
    | true =>
      obtain ⟨e1, e2⟩ := hemp hempty
      rw [e1, e2]
      subst hempty
      have := prints_sel (ctx := ctx) (s := s) (h0.append hd)
      simpa using this
    | false =>
      subst hempty
      have hd' := hd.false_of (by simp [pendDecls])
      have hN := hnl (!o.minify) (decide (0 < ds.length))
      have := prints_sel (ctx := ctx) (s := s) (((h0.append hd').append hN).append hinner)
      simpa using this
  · have hcf : (empty || !o.compile) = false := by simpa using hc
    simp only [Bool.or_eq_false_iff, Bool.not_eq_false'] at hcf
    obtain ⟨he, hcomp⟩ := hcf
    subst he
    have hp' := hp rfl hcomp
    subst hp'
    simp only [hcomp, Bool.not_true, Bool.or_self, Bool.false_eq_true, if_false] at hinner ⊢
    have hd := prints_decls o false v ds
    have hb := prints_sel (ctx := ctx) (s := s) (h0.append hd)
    have hN := hnl (!o.minify && decide (0 < ds.length)) (decide (0 < ds.length))
    unfold styleBase
    simp only [hcomp, Bool.not_true, Bool.or_self, Bool.false_or, Bool.or_false, Bool.false_eq_true, if_false, Bool.not_false,
      Bool.and_true]
    by_cases hl : 0 < ds.length
    · simp only [hl, decide_true, if_true, Bool.and_true] at hb hN ⊢
      have := (hb.append hN).append hinner
      simpa using this
    · simp only [hl, decide_false, Bool.false_eq_true, if_false, Bool.and_false] at hb hN ⊢
      simpa using hinner

/-- The loop over the prefixes prints the rule once per prefix and resets the override. -/
theorem prints_prefixOps (m : Bool) (base : List Op) (items : Nat → List Item) : ∀ (ps : List Nat) (first : Bool) (v : Nat),
    (∀ p ∈ ps, Prints m base p p (items p) false) → Prints m (prefixOps base first ps) v 0 (ps.flatMap items) false
  | [], first, v, _ => by simpa [prefixOps] using prints_vp m v 0
  | p :: ps, first, v, h => by
    have h0 : Prints m (if first then [] else [Op.rawnl, Op.nl]) v v [] false := by
      split
      · exact prints_nil _ _
      · exact (prints_rawnl _ _).append (prints_nl _ _)
    have := ((h0.append (prints_vp m v p)).append (h p List.mem_cons_self)).append
      (prints_prefixOps m base items ps false p (fun q hq => h q (List.mem_cons_of_mem _ hq)))
    simpa [prefixOps] using this

theorem listOps_allSkipped (o : Opts) (ctx : List Nat) : ∀ (rs : List Rule) (f l : Bool), rs.all (·.skipped o) = true → listOps o ctx f l rs = []
  | [], _, _, _ => by simp [listOps]
  | r :: rs, f, l, h => by
    simp only [List.all_cons, Bool.and_eq_true] at h
    simp only [listOps, h.1, if_true]
    exact listOps_allSkipped o ctx rs f l h.2

theorem itemsOfL_allSkipped (o : Opts) (ctx : List Nat) (v : Nat) : ∀ (rs : List Rule), rs.all (·.skipped o) = true → itemsOfL o ctx v rs = []
  | [], _ => by simp [itemsOfL]
  | r :: rs, h => by
    simp only [List.all_cons, Bool.and_eq_true] at h
    simp only [itemsOfL, h.1, if_true]
    exact itemsOfL_allSkipped o ctx v rs h.2

theorem endsL_allSkipped (o : Opts) (ctx : List Nat) : ∀ (rs : List Rule), rs.all (·.skipped o) = true → endsL o ctx rs = false
  | [], _ => by simp [endsL]
  | r :: rs, h => by
    simp only [List.all_cons, Bool.and_eq_true] at h
    simp only [endsL, h.1, if_true]
    exact endsL_allSkipped o ctx rs h.2

mutual
theorem ends_compile (o : Opts) (ctx : List Nat) (hc : o.compile = true) (hne : ctx ≠ []) : ∀ r : Rule, ends o ctx r = false
  | .nested ds => by simp [ends, hc, hne]
  | .mediaAll rs => by simp [ends, endsL_compile' o ctx hc hne rs]
  | .style _ _ _ _ => rfl
  | .block _ _ => rfl
  | .scope _ _ => rfl
  | .stmt _ _ => rfl
  | .importRule _ => rfl
  | .font _ _ => rfl
  | .declBlock _ _ => rfl
  | .page _ _ _ => rfl
  | .keyframes _ _ => rfl
  | .ignored => rfl
theorem endsL_compile' (o : Opts) (ctx : List Nat) (hc : o.compile = true) (hne : ctx ≠ []) : ∀ rs : List Rule, endsL o ctx rs = false
  | [] => rfl
  | r :: rs => by
    simp only [endsL]
    rw [endsL_compile' o ctx hc hne rs, ends_compile o ctx hc hne r]
    simp
end

theorem endsL_compile (o : Opts) (hc : o.compile = true) (rs : List Rule) (ctx : List Nat) (hne : ctx ≠ []) : endsL o ctx rs = false :=
  endsL_compile' o ctx hc hne rs

mutual
theorem noVp_vpOk : ∀ r : Rule, noVp r = true → vpOk r = true
  | .style s vps ds rs, h => by
    simp only [noVp, Bool.and_eq_true] at h
    simp only [vpOk, h.1, if_true]; exact noVps_vpOks rs h.2
  | .block n rs, h => by simp only [noVp] at h; simp only [vpOk]; exact noVps_vpOks rs h
  | .mediaAll rs, h => by simp only [noVp] at h; simp only [vpOk]; exact noVps_vpOks rs h
  | .scope n rs, h => by simp only [noVp] at h; simp only [vpOk]; exact noVps_vpOks rs h
  | .nested _, _ => rfl
  | .stmt _ _, _ => rfl
  | .importRule _, _ => rfl
  | .font _ _, _ => rfl
  | .declBlock _ _, _ => rfl
  | .page _ _ _, _ => rfl
  | .keyframes _ _, _ => rfl
  | .ignored, _ => rfl
theorem noVps_vpOks : ∀ rs : List Rule, noVps rs = true → vpOks rs = true
  | [], _ => rfl
  | r :: rs, h => by
    simp only [noVps, Bool.and_eq_true] at h
    simp only [vpOks, Bool.and_eq_true]; exact ⟨noVp_vpOk r h.1, noVps_vpOks rs h.2⟩
end

/-- The override may be set only if no rule inside resets it. -/
def VpFine (v : Nat) (r : Rule) : Prop := vpOk r = true ∧ (v = 0 ∨ noVp r = true)
def VpFineL (v : Nat) (rs : List Rule) : Prop := vpOks rs = true ∧ (v = 0 ∨ noVps rs = true)

theorem VpFineL.head {v : Nat} {r : Rule} {rs : List Rule} (h : VpFineL v (r :: rs)) : VpFine v r := by
  obtain ⟨h1, h2⟩ := h
  simp only [vpOks, Bool.and_eq_true] at h1
  refine ⟨h1.1, h2.imp id fun h => ?_⟩
  simp only [noVps, Bool.and_eq_true] at h; exact h.1

theorem VpFineL.tail {v : Nat} {r : Rule} {rs : List Rule} (h : VpFineL v (r :: rs)) : VpFineL v rs := by
  obtain ⟨h1, h2⟩ := h
  simp only [vpOks, Bool.and_eq_true] at h1
  refine ⟨h1.2, h2.imp id fun h => ?_⟩
  simp only [noVps, Bool.and_eq_true] at h; exact h.2

mutual
theorem prints_rule (o : Opts) : ∀ (r : Rule) (ctx : List Nat) (v : Nat), VpFine v r → separated o ctx r = true → r.skipped o = false →
    Prints o.minify (ruleOps o ctx r) v v (itemsOf o ctx v r) (ends o ctx r)
  | .style s vps ds rs, ctx, v, hv, hs, _ => by
    have hL : ∀ w, VpFineL w rs → Prints o.minify (styleBase o ctx s ds rs.isEmpty (fun c => listOps o c true false rs)) w w
        (if rs.isEmpty || !o.compile then [.block (.sel ctx s w) (declItems ds ++ itemsOfL o ctx w rs)]
          else (if 0 < ds.length then [.block (.sel ctx s w) (declItems ds)] else []) ++ itemsOfL o (ctx ++ [s]) w rs) false := by
      intro w hw
      simp only [separated] at hs
      cases rs with
      | nil =>
        exact prints_styleBase o ctx s w ds true _ (fun c => itemsOfL o c w []) false (by simpa [listOps, itemsOfL] using prints_nil o.minify w)
          (fun h => by cases h) (fun _ => ⟨by simp [listOps], by simp [itemsOfL]⟩)
      | cons r rs =>
        have hin := prints_list o (r :: rs) (if o.compile then ctx ++ [s] else ctx) w hw hs true false
        refine prints_styleBase o ctx s w ds false _ (fun c => itemsOfL o c w (r :: rs))
          (endsL o (if o.compile then ctx ++ [s] else ctx) (r :: rs)) (by cases hc : o.compile <;> simpa [hc] using hin) ?_ (fun h => by cases h)
        intro _ hc
        simp only [hc, if_true]
        exact endsL_compile o hc _ _ (by simp)
    simp only [ruleOps, itemsOf, ends]
    cases hvp : vps.isEmpty with
    | true =>
      simp only [if_true, List.flatMap_cons, List.flatMap_nil, List.append_nil]
      refine hL v ⟨?_, ?_⟩
      · simpa [vpOk, hvp] using hv.1
      · rcases hv.2 with h | h
        · exact Or.inl h
        · exact Or.inr (by simpa [noVp, hvp] using h)
    | false =>
      have hn : noVps rs = true := by simpa [vpOk, hvp] using hv.1
      have hv0 : v = 0 := by
        rcases hv.2 with h | h
        · exact h
        · simp [noVp, hvp] at h
      subst hv0
      simp only [Bool.false_eq_true, if_false]
      exact prints_prefixOps o.minify _ _ vps true 0 (fun p _ => hL p ⟨noVps_vpOks rs hn, Or.inr hn⟩)
  | .nested ds, ctx, v, _, _, _ => by
    simp only [ruleOps, itemsOf, ends]
    by_cases hc : (o.compile && !ctx.isEmpty) = true
    · rw [if_pos hc, if_pos hc]
      simp only [hc, Bool.not_true, Bool.false_and]
      have hd := prints_decls o false v ds
      cases hp : hasPrintable ds with
      | true =>
        simp only [if_true]
        have := prints_sel (ctx := ctx.dropLast) (s := ctx.getLast?.getD 0) ((prints_nl o.minify v).append hd)
        simpa using this
      | false =>
        obtain ⟨h1, h2⟩ := noPrintable hp
        simp only [Bool.false_eq_true, if_false]
        rw [h1, h2] at hd
        exact hd
    · rw [if_neg hc, if_neg hc]
      have hcf : (o.compile && !ctx.isEmpty) = false := by simpa using hc
      simp only [hcf, Bool.not_false, Bool.true_and]
      exact prints_decls o false v ds
  | .block n rs, ctx, v, hv, hs, _ => by
    simp only [separated] at hs
    have hin := prints_list o rs ctx v ⟨by simpa [vpOk] using hv.1, by simpa [noVp] using hv.2⟩ hs true false
    have := Prints.braces (.tok (.open (.at n))) (q := .at n) (by intro st _; rfl) ((prints_nl o.minify v).append hin)
    simpa [ruleOps, itemsOf, ends] using this
  | .mediaAll rs, ctx, v, hv, hs, _ => by
    simp only [separated] at hs
    have hin := prints_list o rs ctx v ⟨by simpa [vpOk] using hv.1, by simpa [noVp] using hv.2⟩ hs true false
    simp only [ruleOps, itemsOf, ends]
    cases hm : o.minify with
    | true =>
      simp only [if_true, Bool.true_and]
      rw [hm] at hin
      exact hin
    | false =>
      rw [hm] at hin
      have := Prints.braces (.tok (.open .all)) (q := .all) (by intro st _; rfl) ((prints_nl false v).append hin)
      simpa using this
  | .scope n rs, ctx, v, hv, hs, _ => by
    simp only [separated] at hs
    have hin := prints_list o rs [] v ⟨by simpa [vpOk] using hv.1, by simpa [noVp] using hv.2⟩ hs true false
    have := Prints.braces (.tok (.open (.scope n ctx))) (q := .scope n ctx) (by intro st _; rfl) ((prints_nl o.minify v).append hin)
    simpa [ruleOps, itemsOf, ends] using this
  | .stmt n _, ctx, v, _, _, _ => by simpa [ruleOps, itemsOf, ends] using prints_stmt o.minify v n
  | .importRule n, ctx, v, _, _, _ => by simpa [ruleOps, itemsOf, ends] using prints_stmt o.minify v n
  | .font n ps, ctx, v, _, _, _ => by
    obtain ⟨p, hp⟩ := prints_fontOps o v ps.length ps 0 (by omega)
    have := Prints.braces (.tok (.open (.leaf n))) (q := .leaf n) (by intro st _; rfl) hp
    simpa [ruleOps, itemsOf, ends] using this
  | .declBlock n ds, ctx, v, _, _, _ => by simpa [ruleOps, itemsOf, ends] using prints_block o v n ds
  | .page n ds ms, ctx, v, _, _, _ => by
    obtain ⟨p, hp, hp'⟩ := prints_pageDecls o v (ds.length + ms.length) ds 0 (by omega)
    cases ms with
    | nil =>
      have := Prints.braces (.tok (.open (.leaf n))) (q := .leaf n) (by intro st _; rfl) hp
      simpa [ruleOps, itemsOf, ends] using this
    | cons x ms =>
      have hpf := hp.false_of (hp' (by simp))
      have hraw : Prints o.minify (if 0 < ds.length then [Op.rawnl] else []) v v [] false := by
        split
        · exact prints_rawnl _ _
        · exact prints_nil _ _
      have hbody := ((hpf.append hraw).append (prints_nl o.minify v)).append (prints_marginOps o v (x :: ms) true)
      have := Prints.braces (.tok (.open (.leaf n))) (q := .leaf n) (by intro st _; rfl) hbody
      simpa [ruleOps, itemsOf, ends] using this
  | .keyframes names fs, ctx, v, _, _, _ => by simpa [ruleOps, itemsOf, ends] using prints_keyframesOps o v fs names true
  | .ignored, ctx, v, _, _, h => by simp [Rule.skipped] at h
theorem prints_list (o : Opts) : ∀ (rs : List Rule) (ctx : List Nat) (v : Nat), VpFineL v rs → separatedL o ctx rs = true → ∀ f l : Bool,
    Prints o.minify (listOps o ctx f l rs) v v (itemsOfL o ctx v rs) (endsL o ctx rs)
  | [], ctx, v, _, _, f, l => by simpa [listOps, itemsOfL, endsL] using prints_nil o.minify v
  | r :: rs, ctx, v, hv, hs, f, l => by
    simp only [separatedL, Bool.and_eq_true, Bool.or_eq_true] at hs
    obtain ⟨h1, h2⟩ := hs
    have ih := prints_list o rs ctx v hv.tail h2
    by_cases hsk : r.skipped o = true
    · simp only [listOps, itemsOfL, endsL, hsk, if_true]
      exact ih f l
    · have hskf : r.skipped o = false := by simpa using hsk
      rcases h1 with h1 | ⟨hsep, hend⟩
      · exact absurd h1 hsk
      have hr := prints_rule o r ctx v hv.head hsep hskf
      have h0 : Prints o.minify (if f then [] else (if l && r.isFlat then [] else [Op.rawnl]) ++ [Op.nl]) v v [] false := by
        split
        · exact prints_nil _ _
        · refine Prints.append (i := []) (j := []) ?_ (prints_nl _ _)
          split
          · exact prints_nil _ _
          · exact prints_rawnl _ _
      have hr0 := h0.append hr
      simp only [listOps, itemsOfL, endsL, hskf, Bool.false_eq_true, if_false]
      by_cases hsemi : (o.minify && !o.compile && r.isNested && !rs.isEmpty) = true
      · rw [if_pos hsemi, if_pos hsemi]
        exact hr0.semi.append (ih false r.isFlat)
      · rw [if_neg hsemi, if_neg hsemi]
        by_cases hall : rs.all (·.skipped o) = true
        · rw [if_pos hall, listOps_allSkipped o ctx rs _ _ hall, itemsOfL_allSkipped o ctx v rs hall]
          simpa using hr0
        · rw [if_neg hall]
          have hpf : ends o ctx r = false := by
            rcases hend with (h | h) | h
            · simpa using h
            · exact absurd h hall
            · exfalso
              apply hsemi
              simp only [Bool.and_eq_true] at h ⊢
              refine ⟨h, ?_⟩
              cases rs with
              | nil => simp at hall
              | cons x rs => rfl
          have := (hr0.false_of hpf).append (ih false r.isFlat)
          simpa using this
end

/-! ### What the output means -/

theorem itemsEffects_append (ats : List At) (c : List Nat) (v : Nat) : ∀ a b : List Item,
    itemsEffects ats c v (a ++ b) = itemsEffects ats c v a ++ itemsEffects ats c v b
  | [], b => by simp [itemsEffects]
  | i :: a, b => by simp [itemsEffects, itemsEffects_append ats c v a b]

theorem itemsEffects_flatMap (ats : List At) (c : List Nat) (v : Nat) {α : Type} (f : α → List Item) : ∀ l : List α,
    itemsEffects ats c v (l.flatMap f) = l.flatMap fun x => itemsEffects ats c v (f x)
  | [] => by simp [itemsEffects]
  | x :: l => by simp [itemsEffects_append, itemsEffects_flatMap ats c v f l]

theorem effects_declItems (ats : List At) (c : List Nat) (v : Nat) : ∀ ds : Decls, itemsEffects ats c v (declItems ds) = declEffects ats c v ds
  | [] => rfl
  | (none, b) :: ds => by
    have := effects_declItems ats c v ds
    simpa [declItems, declEffects] using this
  | (some d, b) :: ds => by
    have := effects_declItems ats c v ds
    simp only [declItems, declEffects, List.filterMap_cons, Option.map_some, itemsEffects, itemEffects] at this ⊢
    rw [this]; rfl

theorem effects_leaf (ats : List At) (c : List Nat) (v n : Nat) (ds : Decls) :
    itemEffects ats c v (.block (.leaf n) (declItems ds)) = declEffects (ats ++ [.at n]) [] 0 ds := by
  simp only [itemEffects]; exact effects_declItems _ _ _ _

theorem effects_leaves (ats : List At) (c : List Nat) (v : Nat) : ∀ ms : List (Nat × Decls),
    itemsEffects ats c v (ms.map fun m => .block (.leaf m.1) (declItems m.2)) = ms.flatMap fun m => declEffects (ats ++ [.at m.1]) [] 0 m.2
  | [] => rfl
  | m :: ms => by simp only [List.map_cons, itemsEffects, List.flatMap_cons, effects_leaf, effects_leaves ats c v ms]

theorem effects_descs (ats : List At) (v : Nat) : ∀ ds : List (Nat × Bool),
    itemsEffects ats [] v (ds.map fun d => .decl d.1 d.2) = ds.map fun d => .decl ats [] 0 d.1 d.2
  | [] => rfl
  | d :: ds => by simp [itemsEffects, itemEffects, declEffect, effects_descs ats v ds]

theorem effects_props (ats : List At) (v : Nat) : ∀ ds : List Nat,
    itemsEffects ats [] v (ds.map fun d => .decl d false) = ds.map fun d => .decl ats [] 0 d false
  | [] => rfl
  | d :: ds => by simp [itemsEffects, itemEffects, declEffect, effects_props ats v ds]

theorem declEffects_vp (ats : List At) (u v : Nat) (ds : Decls) : declEffects ats [] u ds = declEffects ats [] v ds := rfl

theorem skipped_effects (o : Opts) (ats : List At) (c : List Nat) (v : Nat) {r : Rule} (h : r.skipped o = true) :
    ruleEffects o.removeImports ats c v r = [] := by
  cases r <;> simp_all [Rule.skipped, ruleEffects]

theorem dropLast_getLast {l : List Nat} (h : l ≠ []) : l.dropLast ++ [l.getLast?.getD 0] = l := by
  rw [List.getLast?_eq_some_getLast h]; simp [List.dropLast_concat_getLast h]

mutual
theorem effects_rule (o : Opts) : ∀ (r : Rule) (ats : List At) (c ctx : List Nat) (u v : Nat), (c ≠ [] → u = v) → (o.compile = true → c = []) →
    (o.compile = false → ctx = []) → r.skipped o = false →
    itemsEffects ats c u (itemsOf o ctx v r) = ruleEffects o.removeImports ats (c ++ ctx) v r
  | .style s vps ds rs, ats, c, ctx, u, v, hu, hc, hx, _ => by
    simp only [itemsOf, ruleEffects, itemsEffects_flatMap]
    congr 1
    funext w
    cases rs with
    | nil =>
      simp [itemsEffects, itemEffects, itemsOfL, rulesEffects, effects_declItems, List.append_assoc]
    | cons r rs =>
      cases hcc : o.compile with
      | false =>
        have hctx := hx hcc
        subst hctx
        simp only [List.isEmpty_cons, Bool.false_or, Bool.not_false, if_true, itemsEffects, itemEffects, List.nil_append, List.append_nil]
        rw [itemsEffects_append, effects_declItems,
          effects_rules o (r :: rs) ats (c ++ [s]) [] w w (fun _ => rfl) (fun h => by simp [hcc] at h) (fun _ => rfl)]
        simp
      | true =>
        have hcn := hc hcc
        subst hcn
        simp only [List.isEmpty_cons, Bool.false_or, Bool.not_true, Bool.false_eq_true, if_false, List.nil_append]
        rw [itemsEffects_append, effects_rules o (r :: rs) ats [] (ctx ++ [s]) u w (fun h => absurd rfl h) (fun _ => rfl)
          (fun h => by simp [hcc] at h)]
        congr 1
        split
        · simp only [itemsEffects, itemEffects, List.nil_append, List.append_nil]; exact effects_declItems _ _ _ _
        · next hl =>
          have : ds = [] := by simpa using hl
          subst this; rfl
  | .nested ds, ats, c, ctx, u, v, hu, hc, hx, _ => by
    simp only [itemsOf, ruleEffects]
    by_cases hcc : (o.compile && !ctx.isEmpty) = true
    · rw [if_pos hcc]
      simp only [Bool.and_eq_true, Bool.not_eq_true', List.isEmpty_eq_false_iff] at hcc
      have hcn := hc hcc.1
      subst hcn
      cases hp : hasPrintable ds with
      | true =>
        simp only [if_true, itemsEffects, itemEffects, List.nil_append, List.append_nil, effects_declItems]
        rw [dropLast_getLast hcc.2]
      | false =>
        simp only [Bool.false_eq_true, if_false, itemsEffects]
        have := (noPrintable hp).1
        rw [← effects_declItems, this]; rfl
    · rw [if_neg hcc]
      have hctx : ctx = [] := by
        cases hco : o.compile with
        | false => exact hx hco
        | true => simpa [hco] using hcc
      subst hctx
      rw [effects_declItems, List.append_nil]
      by_cases hcn : c = []
      · subst hcn; exact declEffects_vp _ _ _ _
      · rw [hu hcn]
  | .block n rs, ats, c, ctx, u, v, hu, hc, hx, _ => by
    simp only [itemsOf, ruleEffects, itemsEffects, itemEffects, List.append_nil]
    exact effects_rules o rs _ c ctx u v hu hc hx
  | .mediaAll rs, ats, c, ctx, u, v, hu, hc, hx, _ => by
    simp only [itemsOf, ruleEffects]
    have := effects_rules o rs ats c ctx u v hu hc hx
    split
    · exact this
    · simpa [itemsEffects, itemEffects] using this
  | .scope n rs, ats, c, ctx, u, v, hu, hc, hx, _ => by
    simp only [itemsOf, ruleEffects, itemsEffects, itemEffects, List.append_nil]
    exact effects_rules o rs _ [] [] u v (fun h => absurd rfl h) (fun _ => rfl) (fun _ => rfl)
  | .stmt n _, ats, c, ctx, u, v, _, _, _, _ => by simp [itemsOf, ruleEffects, itemsEffects, itemEffects]
  | .importRule n, ats, c, ctx, u, v, _, _, _, h => by
    simp only [Rule.skipped] at h
    simp [itemsOf, ruleEffects, itemsEffects, itemEffects, h]
  | .font n ps, ats, c, ctx, u, v, _, _, _, _ => by
    simp only [itemsOf, ruleEffects, itemsEffects, itemEffects, List.append_nil]; exact effects_props _ _ _
  | .declBlock n ds, ats, c, ctx, u, v, _, _, _, _ => by
    simp only [itemsOf, ruleEffects, itemsEffects, List.append_nil]; exact effects_leaf _ _ _ _ _
  | .page n ds ms, ats, c, ctx, u, v, _, _, _, _ => by
    simp only [itemsOf, ruleEffects, itemsEffects, itemEffects, List.append_nil]
    rw [itemsEffects_append, effects_descs, effects_leaves]
    simp
  | .keyframes names fs, ats, c, ctx, u, v, _, _, _, _ => by
    simp only [itemsOf, ruleEffects]
    induction names with
    | nil => rfl
    | cons n names ih =>
      simp only [List.map_cons, itemsEffects, itemEffects, List.flatMap_cons, effects_leaves]
      rw [ih rfl]; simp
  | .ignored, _, _, _, _, _, _, _, _, h => by simp [Rule.skipped] at h
theorem effects_rules (o : Opts) : ∀ (rs : List Rule) (ats : List At) (c ctx : List Nat) (u v : Nat), (c ≠ [] → u = v) → (o.compile = true → c = []) →
    (o.compile = false → ctx = []) →
    itemsEffects ats c u (itemsOfL o ctx v rs) = rulesEffects o.removeImports ats (c ++ ctx) v rs
  | [], _, _, _, _, _, _, _, _ => by simp [itemsOfL, itemsEffects, rulesEffects]
  | r :: rs, ats, c, ctx, u, v, hu, hc, hx => by
    have ih := effects_rules o rs ats c ctx u v hu hc hx
    simp only [itemsOfL, rulesEffects]
    cases hs : r.skipped o with
    | true => simp only [if_true]; rw [ih, skipped_effects o ats _ v hs, List.nil_append]
    | false =>
      simp only [Bool.false_eq_true, if_false]
      rw [itemsEffects_append, ih, effects_rule o r ats c ctx u v hu hc hx hs]
end

/-! ### When declarations are separated -/

mutual
theorem ends_pretty (o : Opts) (hm : o.minify = false) (ctx : List Nat) (r : Rule) : ends o ctx r = false := by
  cases r <;> simp [ends, pendDecls, hm]
end

mutual
theorem separated_pretty (o : Opts) (hm : o.minify = false) : ∀ (r : Rule) (ctx : List Nat), separated o ctx r = true
  | .style s _ _ rs, ctx => by simp only [separated]; exact separatedL_pretty o hm rs _
  | .block _ rs, ctx => by simp only [separated]; exact separatedL_pretty o hm rs _
  | .mediaAll rs, ctx => by simp only [separated]; exact separatedL_pretty o hm rs _
  | .scope _ rs, ctx => by simp only [separated]; exact separatedL_pretty o hm rs _
  | .nested _, _ => rfl
  | .stmt _ _, _ => rfl
  | .importRule _, _ => rfl
  | .font _ _, _ => rfl
  | .declBlock _ _, _ => rfl
  | .page _ _ _, _ => rfl
  | .keyframes _ _, _ => rfl
  | .ignored, _ => rfl
theorem separatedL_pretty (o : Opts) (hm : o.minify = false) : ∀ (rs : List Rule) (ctx : List Nat), separatedL o ctx rs = true
  | [], _ => rfl
  | r :: rs, ctx => by
    simp [separatedL, separated_pretty o hm r ctx, ends_pretty o hm ctx r, separatedL_pretty o hm rs ctx]
end

mutual
theorem separated_min (o : Opts) (hm : o.minify = true) : ∀ (r : Rule) (ctx : List Nat), noAll r = true →
    (o.compile = true → inStyle (!ctx.isEmpty) r = true) → separated o ctx r = true
  | .style s _ _ rs, ctx, ha, hi => by
    simp only [separated]
    refine separatedL_min o hm rs _ (by simpa [noAll] using ha) ?_
    intro hc
    have e : (!(ctx ++ [s]).isEmpty) = true := by cases ctx <;> rfl
    simp only [hc, if_true, e]
    simpa [inStyle] using hi hc
  | .block _ rs, ctx, ha, hi => by
    simp only [separated]; exact separatedL_min o hm rs _ (by simpa [noAll] using ha) (fun hc => by simpa [inStyle] using hi hc)
  | .mediaAll rs, ctx, ha, hi => by simp [noAll] at ha
  | .scope _ rs, ctx, ha, hi => by
    simp only [separated]; exact separatedL_min o hm rs _ (by simpa [noAll] using ha) (fun hc => by simpa [inStyle] using hi hc)
  | .nested _, _, _, _ => rfl
  | .stmt _ _, _, _, _ => rfl
  | .importRule _, _, _, _ => rfl
  | .font _ _, _, _, _ => rfl
  | .declBlock _ _, _, _, _ => rfl
  | .page _ _ _, _, _, _ => rfl
  | .keyframes _ _, _, _, _ => rfl
  | .ignored, _, _, _ => rfl
theorem separatedL_min (o : Opts) (hm : o.minify = true) : ∀ (rs : List Rule) (ctx : List Nat), noAlls rs = true →
    (o.compile = true → inStyles (!ctx.isEmpty) rs = true) → separatedL o ctx rs = true
  | [], _, _, _ => rfl
  | r :: rs, ctx, ha, hi => by
    simp only [noAlls, Bool.and_eq_true] at ha
    simp only [inStyles, Bool.and_eq_true] at hi
    have h1 := separated_min o hm r ctx ha.1 (fun hc => (hi hc).1)
    have h2 := separatedL_min o hm rs ctx ha.2 (fun hc => (hi hc).2)
    have h3 : (!ends o ctx r || (o.minify && !o.compile && r.isNested)) = true := by
      cases r with
      | nested ds =>
        cases hc : o.compile with
        | false => simp [hm, Rule.isNested]
        | true =>
          have := (hi hc).1
          simp only [inStyle] at this
          simp [ends, hc, this]
      | mediaAll rs => simp [noAll] at ha
      | _ => simp [ends]
    simp only [separatedL, h1, h2, Bool.and_true, Bool.true_and, Bool.or_eq_true]
    simp only [Bool.or_eq_true] at h3
    tauto
end

/-! ### C51 and C52 -/

/-- The general statement behind C51 and C52. -/
theorem print_effects (o : Opts) (rs : List Rule) (hv : vpOks rs = true) (hs : separatedL o [] rs = true) :
    ∃ items, read (tokens (printSheet o rs).out) = some items ∧ itemsEffects [] [] 0 items = rulesEffects o.removeImports [] [] 0 rs := by
  obtain ⟨ps, h1, _, h3⟩ := prints_list o rs [] 0 ⟨hv, Or.inl rfl⟩ hs true false {} rfl
  refine ⟨itemsOfL o [] 0 rs, ?_, ?_⟩
  · have : (printSheet o rs).out = ps := by simpa [printSheet] using h1
    rw [this, read, h3 {} rfl]; simp
  · simpa using effects_rules o rs [] [] [] 0 0 (fun _ => rfl) (fun _ => rfl) (fun _ => rfl)

/-- **C51** Pretty-printed output is read back with the same declarations and statements, in the same order, in the same at-rules and under the
same chains of selectors, whether or not nesting is compiled. -/
theorem C51_pretty_partial (o : Opts) (rs : List Rule) (hm : o.minify = false) (hv : vpOks rs = true) :
    ∃ items, read (tokens (printSheet o rs).out) = some items ∧ itemsEffects [] [] 0 items = rulesEffects o.removeImports [] [] 0 rs :=
  print_effects o rs hv (separatedL_pretty o hm rs [])

/-- **C51** Minified output too, if no `@media` rule always matches. -/
theorem C51_minified_partial (o : Opts) (rs : List Rule) (hm : o.minify = true) (hc : o.compile = false) (hv : vpOks rs = true) (ha : noAlls rs = true) :
    ∃ items, read (tokens (printSheet o rs).out) = some items ∧ itemsEffects [] [] 0 items = rulesEffects o.removeImports [] [] 0 rs :=
  print_effects o rs hv (separatedL_min o hm rs [] ha (fun h => by simp [hc] at h))

mutual
/-- No style rule is inside another: the output can be used by browsers without nesting. -/
def flatItem (inSel : Bool) : Item → Bool
  | .decl _ _ => true
  | .stmt _ => true
  | .block (.sel _ _ _) body => !inSel && flatItems true body
  | .block (.leaf _) _ => true
  | .block _ body => !inSel && flatItems false body
def flatItems (inSel : Bool) : List Item → Bool
  | [] => true
  | i :: is => flatItem inSel i && flatItems inSel is
end

theorem flatItems_append (b : Bool) : ∀ x y : List Item, flatItems b (x ++ y) = (flatItems b x && flatItems b y)
  | [], y => by simp [flatItems]
  | i :: x, y => by simp [flatItems, flatItems_append b x y, Bool.and_assoc]

theorem flatItems_decls (b : Bool) : ∀ ds : Decls, flatItems b (declItems ds) = true
  | [] => rfl
  | (none, _) :: ds => by have := flatItems_decls b ds; simpa [declItems] using this
  | (some d, i) :: ds => by
    have := flatItems_decls b ds
    simp only [declItems] at this
    simp [declItems, flatItems, flatItem, this]

theorem flatItems_flatMap {α : Type} (b : Bool) (f : α → List Item) (h : ∀ a, flatItems b (f a) = true) : ∀ l : List α, flatItems b (l.flatMap f) = true
  | [] => rfl
  | a :: l => by simp [flatItems_append, h a, flatItems_flatMap b f h l]

mutual
theorem flat_rule (o : Opts) (hc : o.compile = true) : ∀ (r : Rule) (ctx : List Nat) (v : Nat), flatItems false (itemsOf o ctx v r) = true
  | .style s vps ds rs, ctx, v => by
    simp only [itemsOf]
    apply flatItems_flatMap
    intro w
    cases rs with
    | nil => simp [flatItems, flatItem, itemsOfL, flatItems_decls]
    | cons r rs =>
      simp only [List.isEmpty_cons, hc, Bool.not_true, Bool.or_self, Bool.false_eq_true, if_false, flatItems_append,
        flat_rules o hc (r :: rs), Bool.and_true]
      split
      · simp [flatItems, flatItem, flatItems_decls]
      · rfl
  | .nested ds, ctx, v => by
    simp only [itemsOf]
    split
    · split
      · simp [flatItems, flatItem, flatItems_decls]
      · rfl
    · exact flatItems_decls _ _
  | .block n rs, ctx, v => by simp [itemsOf, flatItems, flatItem, flat_rules o hc rs]
  | .mediaAll rs, ctx, v => by
    simp only [itemsOf]
    split
    · exact flat_rules o hc rs ctx v
    · simp [flatItems, flatItem, flat_rules o hc rs]
  | .scope n rs, ctx, v => by simp [itemsOf, flatItems, flatItem, flat_rules o hc rs]
  | .stmt _ _, _, _ => rfl
  | .importRule _, _, _ => rfl
  | .font _ _, _, _ => by simp [itemsOf, flatItems, flatItem]
  | .declBlock _ _, _, _ => by simp [itemsOf, flatItems, flatItem]
  | .page _ _ _, _, _ => by simp [itemsOf, flatItems, flatItem]
  | .keyframes names _, _, _ => by
    simp only [itemsOf]
    induction names with
    | nil => rfl
    | cons n names ih => simp [flatItems, flatItem, ih]
  | .ignored, _, _ => rfl
theorem flat_rules (o : Opts) (hc : o.compile = true) : ∀ (rs : List Rule) (ctx : List Nat) (v : Nat), flatItems false (itemsOfL o ctx v rs) = true
  | [], _, _ => rfl
  | r :: rs, ctx, v => by
    simp only [itemsOfL]
    split
    · exact flat_rules o hc rs ctx v
    · rw [flatItems_append, flat_rule o hc r, flat_rules o hc rs]; rfl
end

/-- **C52** Compiling nesting: the minified output has no style rule inside another and means the same as the nested source: the same
declarations in the same order, each under the same at-rules and the same chain of selectors. -/
theorem C52_compiled_partial (o : Opts) (rs : List Rule) (hc : o.compile = true) (hv : vpOks rs = true)
    (h : o.minify = true → noAlls rs = true ∧ inStyles false rs = true) :
    ∃ items, read (tokens (printSheet o rs).out) = some items ∧ flatItems false items = true ∧
      itemsEffects [] [] 0 items = rulesEffects o.removeImports [] [] 0 rs := by
  have hs : separatedL o [] rs = true := by
    cases hm : o.minify with
    | false => exact separatedL_pretty o hm rs []
    | true => exact separatedL_min o hm rs [] (h hm).1 (fun _ => (h hm).2)
  obtain ⟨ps, h1, _, h3⟩ := prints_list o rs [] 0 ⟨hv, Or.inl rfl⟩ hs true false {} rfl
  refine ⟨itemsOfL o [] 0 rs, ?_, flat_rules o hc rs [] 0, ?_⟩
  · have : (printSheet o rs).out = ps := by simpa [printSheet] using h1
    rw [this, read, h3 {} rfl]; simp
  · simpa using effects_rules o rs [] [] [] 0 0 (fun _ => rfl) (fun _ => rfl) (fun _ => rfl)

/-- `.1 { d1; .2 { d2 !important } @media 9 { d3; .3 { d4 } } d5 }` and a prefixed rule. -/
def sample : List Rule :=
  [.stmt 20 true, .style 1 [] [(some 1, false)] [.style 2 [] [(none, false), (some 2, true)] [], .block 9 [.nested [(some 3, false)],
    .style 3 [] [(some 4, false)] []], .nested [(some 5, false)]], .style 4 [7, 8] [(some 6, false)] [], .keyframes [30, 31] [(32, [(some 7, false)])],
    .page 40 [(8, false)] [(41, [(some 9, false)])]]

example : vpOks sample = true ∧ noAlls sample = true ∧ inStyles false sample = true := by decide

/-- The minified, compiled output of the sample. -/
example : tokens (printSheet { minify := true, compile := true } sample).out =
    [.stmt 20, .open (.sel [] 1 0), .decl 1 false, .close, .open (.sel [1] 2 0), .decl 2 true, .semi, .close, .open (.at 9), .open (.sel [] 1 0),
      .decl 3 false, .close, .open (.sel [1] 3 0), .decl 4 false, .close, .close, .open (.sel [] 1 0), .decl 5 false, .close,
      .open (.sel [] 4 7), .decl 6 false, .close, .open (.sel [] 4 8), .decl 6 false, .close,
      .open (.leaf 30), .open (.leaf 32), .decl 7 false, .close, .close, .open (.leaf 31), .open (.leaf 32), .decl 7 false, .close, .close,
      .open (.leaf 40), .decl 8 false, .semi, .open (.leaf 41), .decl 9 false, .close, .close] := by decide +kernel

/-- And its effects. -/
example : rulesEffects false [] [] 0 sample =
    [.stmt [] 20, .decl [] [1] 0 1 false, .decl [] [1, 2] 0 2 true, .decl [.at 9] [1] 0 3 false, .decl [.at 9] [1, 3] 0 4 false, .decl [] [1] 0 5 false,
      .decl [] [4] 7 6 false, .decl [] [4] 8 6 false, .decl [.at 30, .at 32] [] 0 7 false, .decl [.at 31, .at 32] [] 0 7 false,
      .decl [.at 40] [] 0 8 false, .decl [.at 40, .at 41] [] 0 9 false] := by decide +kernel

/-- Failure 1: `.1 { @media all { d1 } .2 { d2 } }` minified is `.1{d1.2{d2}}`: the declaration runs into the rule. -/
theorem C51_media_all : read (tokens (printSheet { minify := true, compile := false }
    [.style 1 [] [] [.mediaAll [.nested [(some 1, false)]], .style 2 [] [(some 2, false)] []]]).out) = none := by rfl

/-- Failure 2: `.1 { @scope { d1; .2 { d2 } } }` minified with nesting compiled: `@scope{d1.2{d2}}`. -/
theorem C52_scope : read (tokens (printSheet { minify := true, compile := true }
    [.style 1 [] [] [.scope 5 [.nested [(some 1, false)], .style 2 [] [(some 2, false)] []]]]).out) = none := by rfl

/-- Failure 3: a rule with vendor prefixes nested in one with vendor prefixes resets the override: the rule 3 after it is written
unprefixed, twice, instead of once with each of the parent's prefixes. -/
theorem C51_prefix_reset :
    let rs := [Rule.style 1 [7, 8] [] [.style 2 [7] [(some 1, false)] [], .style 3 [] [(some 2, false)] []]]
    ∃ items, read (tokens (printSheet { minify := true, compile := false } rs).out) = some items ∧
      itemsEffects [] [] 0 items = [.decl [] [1, 2] 7 1 false, .decl [] [1, 3] 0 2 false, .decl [] [1, 2] 7 1 false, .decl [] [1, 3] 0 2 false] ∧
      rulesEffects false [] [] 0 rs = [.decl [] [1, 2] 7 1 false, .decl [] [1, 3] 7 2 false, .decl [] [1, 2] 7 1 false, .decl [] [1, 3] 8 2 false] :=
  ⟨_, rfl, by rfl, by rfl⟩

/-! ### C36 -/

/-- The indentation after the operations does not depend on wrapping: it is what it was. -/
def Balanced (ops : List Op) : Prop := ∀ m (st : St), st.indent < 256 → (exec m ops st).indent = st.indent

theorem balanced_nil : Balanced [] := fun _ _ _ => rfl

theorem Balanced.append {a b : List Op} (ha : Balanced a) (hb : Balanced b) : Balanced (a ++ b) := by
  intro m st h
  rw [exec_append, hb m _ (by rw [ha m st h]; exact h), ha m st h]

theorem balanced_one {op : Op} (h : op ≠ .indent ∧ op ≠ .dedent) : Balanced [op] := by
  intro m st _
  cases op <;> simp_all [exec, exec1] <;> split <;> rfl

theorem Balanced.braces {b : List Op} (h : Balanced b) : Balanced (.indent :: (b ++ [.dedent])) := by
  intro m st hi
  show (exec m (b ++ [.dedent]) (exec1 m st .indent)).indent = _
  rw [exec_append]
  show ((exec m b (exec1 m st .indent)).indent + 254) % 256 = _
  rw [h m _ (by simp only [exec1]; omega)]
  simp only [exec1]; omega

/-- With overflow checks: from every indentation that leaves room for `d` levels and the values, nothing overflows. -/
def Fits (e : Nat → Nat) (ops : List Op) (d : Nat) : Prop :=
  ∀ x i, (∀ n, e n ≤ x) → i + 2 * d + x < 256 → checked e ops i = some i

theorem checked_append (e : Nat → Nat) : ∀ (a b : List Op) (i : Nat), checked e (a ++ b) i = (checked e a i).bind (checked e b)
  | [], b, i => rfl
  | op :: a, b, i => by
    simp only [List.cons_append, checked]
    cases checked1 e i op with
    | none => rfl
    | some j => simpa using checked_append e a b j

theorem fits_nil (e : Nat → Nat) (d : Nat) : Fits e [] d := fun _ _ _ _ => rfl

theorem Fits.append {e : Nat → Nat} {a b : List Op} {d : Nat} (ha : Fits e a d) (hb : Fits e b d) : Fits e (a ++ b) d := by
  intro x i hx hi
  rw [checked_append, ha x i hx hi]; exact hb x i hx hi

theorem Fits.mono {e : Nat → Nat} {a : List Op} {d d' : Nat} (h : Fits e a d) (hd : d ≤ d') : Fits e a d' :=
  fun x i hx hi => h x i hx (by omega)

theorem fits_one {e : Nat → Nat} {op : Op} (d : Nat) (h : op ≠ .indent ∧ op ≠ .dedent) : Fits e [op] d := by
  intro x i hx hi
  cases op with
  | indent => simp at h
  | dedent => simp at h
  | tok t =>
    cases t with
    | decl n b =>
      have := hx n
      simp [checked, checked1, show i + e n < 256 by omega]
    | _ => rfl
  | _ => rfl

theorem Fits.braces {e : Nat → Nat} {b : List Op} {d : Nat} (h : Fits e b d) : Fits e (.indent :: (b ++ [.dedent])) (d + 1) := by
  intro x i hx hi
  simp only [checked, checked1]
  rw [if_pos (by omega)]
  simp only [Option.bind_some]
  rw [checked_append, h x (i + 2) hx (by omega)]
  simp [checked, checked1]

/-- Both at once. -/
def Good (e : Nat → Nat) (ops : List Op) (d : Nat) : Prop := Balanced ops ∧ Fits e ops d

theorem good_nil (e : Nat → Nat) (d : Nat) : Good e [] d := ⟨balanced_nil, fits_nil e d⟩
theorem Good.append {e : Nat → Nat} {a b : List Op} {d : Nat} (ha : Good e a d) (hb : Good e b d) : Good e (a ++ b) d :=
  ⟨ha.1.append hb.1, ha.2.append hb.2⟩
theorem Good.mono {e : Nat → Nat} {a : List Op} {d d' : Nat} (h : Good e a d) (hd : d ≤ d') : Good e a d' := ⟨h.1, h.2.mono hd⟩
theorem good_one {e : Nat → Nat} {op : Op} (d : Nat) (h : op ≠ .indent ∧ op ≠ .dedent) : Good e [op] d := ⟨balanced_one h, fits_one d h⟩
theorem Good.braces {e : Nat → Nat} {b : List Op} {d : Nat} (h : Good e b d) : Good e (.indent :: (b ++ [.dedent])) (d + 1) :=
  ⟨h.1.braces, h.2.braces⟩
theorem Good.cons {e : Nat → Nat} {op : Op} {b : List Op} {d : Nat} (ho : op ≠ .indent ∧ op ≠ .dedent) (h : Good e b d) : Good e (op :: b) d :=
  (good_one d ho).append h
theorem good_ite {e : Nat → Nat} {a b : List Op} {d : Nat} {c : Prop} [Decidable c] (ha : Good e a d) (hb : Good e b d) :
    Good e (if c then a else b) d := by split <;> assumption

/-- A block with its braces. -/
theorem Good.full {e : Nat → Nat} {op : Op} {b : List Op} {d : Nat} (ho : op ≠ .indent ∧ op ≠ .dedent) (h : Good e b d) :
    Good e (op :: .indent :: (b ++ [.dedent, .nl, .tok .close])) (d + 1) := by
  have h1 := (h.braces.append (good_one (d + 1) (op := .nl) (by simp))).append (good_one (d + 1) (op := .tok .close) (by simp))
  have := h1.cons ho
  simpa using this

theorem good_decls (e : Nat → Nat) (o : Opts) (hn : Bool) (len d : Nat) : ∀ (ds : Decls) (i : Nat), Good e (declOps o hn len i ds) d
  | [], _ => good_nil _ _
  | (none, _) :: ds, i => good_decls e o hn len d ds i
  | (some n, b) :: ds, i => by
    simp only [declOps]
    refine (good_ite (good_one d (by simp)) (good_nil e d)).append (Good.cons (by simp) ?_)
    exact (good_ite (good_one d (by simp)) (good_nil e d)).append (good_decls e o hn len d ds (i + 1))

theorem good_block (e : Nat → Nat) (o : Opts) (p : Prelude) (ds : Decls) : Good e (toCssBlock o p ds) 1 := by
  have := Good.full (e := e) (op := .tok (.open p)) (by simp) ((good_decls e o false ds.length 0 ds 0).cons (op := .nl) (by simp))
  simpa [toCssBlock, toCssDeclarations] using this

theorem good_font (e : Nat → Nat) (o : Opts) (len d : Nat) : ∀ (ps : List Nat) (i : Nat), Good e (fontOps o len i ps) d
  | [], _ => good_nil _ _
  | n :: ps, i => by
    simp only [fontOps]
    exact (((good_one d (by simp)).cons (by simp)).append (good_ite (good_one d (by simp)) (good_nil e d))).append (good_font e o len d ps (i + 1))

theorem good_page (e : Nat → Nat) (o : Opts) (len d : Nat) : ∀ (ps : List (Nat × Bool)) (i : Nat), Good e (pageDecls o len i ps) d
  | [], _ => good_nil _ _
  | (n, b) :: ps, i => by
    simp only [pageDecls]
    exact (((good_one d (by simp)).cons (by simp)).append (good_ite (good_one d (by simp)) (good_nil e d))).append (good_page e o len d ps (i + 1))

theorem good_margins (e : Nat → Nat) (o : Opts) : ∀ (ms : List (Nat × Decls)) (f : Bool), Good e (marginOps o f ms) 1
  | [], _ => good_nil _ _
  | (n, ds) :: ms, f => by
    simp only [marginOps]
    exact ((good_ite (good_nil e 1) ((good_one 1 (by simp)).cons (by simp))).append (good_block e o _ ds)).append (good_margins e o ms false)

theorem good_frames (e : Nat → Nat) (o : Opts) : ∀ (ms : List (Nat × Decls)) (f : Bool), Good e (frameOps o f ms) 1
  | [], _ => good_nil _ _
  | (n, ds) :: ms, f => by
    simp only [frameOps]
    exact (((good_ite (good_nil e 1) (good_one 1 (by simp))).append (good_one 1 (by simp))).append (good_block e o _ ds)).append (good_frames e o ms false)

theorem good_keyframes (e : Nat → Nat) (o : Opts) (fs : List (Nat × Decls)) : ∀ (names : List Nat) (f : Bool), Good e (keyframesOps o fs f names) 2
  | [], _ => good_nil _ _
  | n :: names, f => by
    have h0 : Good e (if f then [] else [Op.rawnl, Op.nl]) 2 := good_ite (good_nil e 2) ((good_one 2 (by simp)).cons (by simp))
    have h1 := (h0.append (Good.full (op := .tok (.open (.leaf n))) (by simp) (good_frames e o fs true))).append (good_keyframes e o fs names false)
    simpa [keyframesOps] using h1

theorem good_styleBase (e : Nat → Nat) (o : Opts) (ctx : List Nat) (s : Nat) (ds : Decls) (empty : Bool) (inner : List Nat → List Op) (d : Nat)
    (h : ∀ c, Good e (inner c) d) : Good e (styleBase o ctx s ds empty inner) (d + 1) := by
  have hdl : ∀ hn k, Good e (toCssDeclarations o hn ds) k := fun hn k => good_decls e o hn ds.length k ds 0
  have hnl : ∀ k, Good e ([Op.nl]) k := fun k => good_one k (by simp)
  have hraw : ∀ k, Good e (if 0 < ds.length then [Op.rawnl] else []) k := fun k => good_ite (good_one k (by simp)) (good_nil e k)
  unfold styleBase
  by_cases hc : (empty || !o.compile) = true
  · simp only [hc, if_true, Bool.true_or, Bool.true_and]
    have hb := Good.full (e := e) (op := .openSel ctx s) (by simp) (((good_ite (c := 0 < ds.length) (hnl d) (good_nil e d)).append
      (hdl (!empty) d)).append ((good_ite (c := (!o.minify && !empty) = true) ((hraw d).append (hnl d)) (good_nil e d)).append (h ctx)))
    simpa using hb
  · have hcf : (empty || !o.compile) = false := by simpa using hc
    simp only [hcf, Bool.false_or, Bool.false_eq_true, if_false, Bool.false_and]
    have hb : Good e ((if (decide (0 < ds.length) || empty) = true then
        [Op.openSel ctx s, .indent] ++ (if 0 < ds.length then [Op.nl] else []) ++ toCssDeclarations o false ds else []) ++
        if (decide (0 < ds.length) || empty) = true then [Op.dedent, .nl, .tok .close] else []) (d + 1) := by
      split
      · have := Good.full (e := e) (op := .openSel ctx s) (by simp) ((good_ite (c := 0 < ds.length) (hnl d) (good_nil e d)).append (hdl false d))
        simpa using this
      · exact good_nil _ _
    exact (hb.append (good_ite ((hraw (d + 1)).append (hnl (d + 1))) (good_nil e (d + 1)))).append ((h _).mono (Nat.le_succ _))

theorem good_prefix {e : Nat → Nat} {base : List Op} {d : Nat} (h : Good e base d) : ∀ (ps : List Nat) (f : Bool), Good e (prefixOps base f ps) d
  | [], _ => good_one d (by simp)
  | p :: ps, f => by
    have h0 : Good e (if f then [] else [Op.rawnl, Op.nl]) d := good_ite (good_nil e d) ((good_one d (by simp)).cons (by simp))
    have := h0.append ((h.append (good_prefix h ps false)).cons (op := .vp p) (by simp))
    simpa [prefixOps] using this

mutual
theorem good_rule (e : Nat → Nat) (o : Opts) : ∀ (r : Rule) (ctx : List Nat), Good e (ruleOps o ctx r) (depth r)
  | .style s vps ds rs, ctx => by
    have := good_styleBase e o ctx s ds rs.isEmpty (fun c => listOps o c true false rs) (depths rs) (fun c => good_list e o rs c true false)
    simp only [ruleOps, depth]
    exact good_ite this (good_prefix this vps true)
  | .nested ds, ctx => by
    have hd : ∀ k, Good e (toCssDeclarations o false ds) k := fun k => good_decls e o false ds.length k ds 0
    simp only [ruleOps, depth]
    refine good_ite (good_ite ?_ (hd 1)) (hd 1)
    have := Good.full (e := e) (op := .openSel ctx.dropLast (ctx.getLast?.getD 0)) (by simp) ((hd 0).cons (op := .nl) (by simp))
    simpa using this
  | .block n rs, ctx => by
    have := Good.full (e := e) (op := .tok (.open (.at n))) (by simp) ((good_list e o rs ctx true false).cons (op := .nl) (by simp))
    simpa [ruleOps, depth] using this
  | .mediaAll rs, ctx => by
    have := Good.full (e := e) (op := .tok (.open .all)) (by simp) ((good_list e o rs ctx true false).cons (op := .nl) (by simp))
    simp only [ruleOps, depth]
    exact good_ite ((good_list e o rs ctx true false).mono (Nat.le_succ _)) (by simpa using this)
  | .scope n rs, ctx => by
    have := Good.full (e := e) (op := .tok (.open (.scope n ctx))) (by simp) ((good_list e o rs [] true false).cons (op := .nl) (by simp))
    simpa [ruleOps, depth] using this
  | .stmt n _, ctx => by simpa [ruleOps, depth] using good_one (e := e) (op := .tok (.stmt n)) 0 (by simp)
  | .importRule n, ctx => by simpa [ruleOps, depth] using good_one (e := e) (op := .tok (.stmt n)) 0 (by simp)
  | .font n ps, ctx => by
    have := Good.full (e := e) (op := .tok (.open (.leaf n))) (by simp) (good_font e o ps.length 0 ps 0)
    simpa [ruleOps, depth] using this
  | .declBlock n ds, ctx => by simpa [ruleOps, depth] using good_block e o (.leaf n) ds
  | .page n ds ms, ctx => by
    have hraw : Good e (if 0 < ds.length then [Op.rawnl] else []) 1 := good_ite (good_one 1 (by simp)) (good_nil e 1)
    have hm : Good e (if ms.isEmpty then [] else (if 0 < ds.length then [Op.rawnl] else []) ++ [.nl] ++ marginOps o true ms) 1 :=
      good_ite (good_nil e 1) ((hraw.append (good_one 1 (by simp))).append (good_margins e o ms true))
    have := Good.full (e := e) (op := .tok (.open (.leaf n))) (by simp) ((good_page e o (ds.length + ms.length) 1 ds 0).append hm)
    simpa [ruleOps, depth] using this
  | .keyframes names fs, ctx => by simpa [ruleOps, depth] using good_keyframes e o fs names true
  | .ignored, ctx => by simpa [ruleOps, depth] using good_nil e 0
theorem good_list (e : Nat → Nat) (o : Opts) : ∀ (rs : List Rule) (ctx : List Nat) (f l : Bool), Good e (listOps o ctx f l rs) (depths rs)
  | [], _, _, _ => good_nil _ _
  | r :: rs, ctx, f, l => by
    have hr := (good_rule e o r ctx).mono (d' := depths (r :: rs)) (by simp only [depths]; exact Nat.le_max_left _ _)
    have hs := fun f l => (good_list e o rs ctx f l).mono (d' := depths (r :: rs)) (by simp only [depths]; exact Nat.le_max_right _ _)
    simp only [listOps]
    refine good_ite (hs f l) ?_
    refine ((Good.append ?_ hr).append (good_ite (good_one _ (by simp)) (good_nil e _))).append (hs false r.isFlat)
    exact good_ite (good_nil e _) ((good_ite (good_nil e _) (good_one _ (by simp))).append (good_one _ (by simp)))
end

/-- **C36** After any list of rules the indentation is what it was before, so the layout of what follows does not depend on the rules before
(even if the 8-bit counter wraps). -/
theorem C36_restored (o : Opts) (ctx : List Nat) (rs : List Rule) (f l : Bool) (st : St) (h : st.indent < 256) :
    (exec o.minify (listOps o ctx f l rs) st).indent = st.indent := (good_list (fun _ => 0) o rs ctx f l).1 o.minify st h

/-- **C36** Blocks nested less than 118 levels deep never over- or underflow the counter, also in builds that panic on overflow, as long as
values indent themselves by at most 21 (`grid-template-areas`); without such values the limit is 127. -/
theorem C36_no_overflow_partial (o : Opts) (extra : Nat → Nat) (x : Nat) (hx : ∀ d, extra d ≤ x) (rs : List Rule) (h : 2 * depths rs + x < 256) :
    checked extra (listOps o [] true false rs) 0 = some 0 := (good_list extra o rs [] true false).2 x 0 hx (by omega)

example : 2 * depths sample + 21 < 256 := by decide

/-- `n` nested `@media` blocks. -/
def deep : Nat → List Rule
  | 0 => []
  | n + 1 => [.block n (deep n)]

theorem depths_deep : ∀ n, depths (deep n) = n
  | 0 => rfl
  | n + 1 => by simp [deep, depths, depth, depths_deep n]

example : checked (fun _ => 0) (listOps { minify := true, compile := false } [] true false (deep 127)) 0 = some 0 :=
  C36_no_overflow_partial _ _ 0 (fun _ => Nat.le_refl _) _ (by rw [depths_deep]; omega)

theorem listOps_deep (o : Opts) (n : Nat) : listOps o [] true false (deep (n + 1)) =
    .tok (.open (.at n)) :: .indent :: .nl :: (listOps o [] true false (deep n) ++ [.dedent, .nl, .tok .close]) := by
  simp [deep, listOps, Rule.skipped, ruleOps, Rule.isNested]

/-- Failure: 128 nested blocks overflow the indentation, even when minifying. -/
theorem C36_overflow (o : Opts) : checked (fun _ => 0) (listOps o [] true false (deep 128)) 0 = none := by
  have key : ∀ n i, i ≤ 255 → 256 ≤ i + 2 * n → checked (fun _ => 0) (listOps o [] true false (deep n)) i = none := by
    intro n
    induction n with
    | zero => intro i h1 h2; omega
    | succ n ih =>
      intro i h1 h2
      rw [listOps_deep]
      simp only [checked, checked1, Option.bind_some]
      by_cases hi : i + 2 < 256
      · rw [if_pos hi, Option.bind_some, checked_append, ih (i + 2) (by omega) (by omega)]; rfl
      · rw [if_neg hi]; rfl
  exact key 128 0 (by omega) (by omega)

end Verif.Printer
