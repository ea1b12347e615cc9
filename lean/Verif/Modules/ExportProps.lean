import Verif.Modules.NameProps
/-! Exports (C32, C34, C50). -/
namespace Verif.Modules

theorem get_modify (k k' : Str) (f : Export → Export) (m : Exports) : get k' (modify k f m) = if k' = k then (get k' m).map f else get k' m := by
  induction m with
  | nil => simp [modify, get]
  | cons p m ih =>
    obtain ⟨a, e⟩ := p
    simp only [modify]
    by_cases h : a = k
    · subst h
      simp only [if_true, get]
      by_cases h2 : a = k'
      · subst h2; simp
      · simp [h2, Ne.symm h2]
    · simp only [if_neg h, get, ih]
      by_cases h2 : a = k'
      · subst h2; simp [h]
      · simp [h2]

theorem get_snoc (k k' : Str) (e : Export) (m : Exports) : get k' (m ++ [(k, e)]) = (get k' m).or (if k = k' then some e else none) := by
  induction m with
  | nil => simp [get]
  | cons p m ih =>
    obtain ⟨a, e'⟩ := p
    simp only [List.cons_append, get, ih]
    split <;> simp

/-- Exports stay, with their names and what they compose. -/
def Grows (a b : Exports) : Prop :=
  ∀ k e, get k a = some e → ∃ e', get k b = some e' ∧ e'.name = e.name ∧ (e.isReferenced = true → e'.isReferenced = true) ∧ e.composes <+: e'.composes

theorem Grows.refl (a : Exports) : Grows a a := fun _ e h => ⟨e, h, rfl, id, List.prefix_rfl⟩

theorem Grows.trans {a b c : Exports} (h1 : Grows a b) (h2 : Grows b c) : Grows a c := by
  intro k e h
  obtain ⟨e1, g1, n1, r1, c1⟩ := h1 k e h
  obtain ⟨e2, g2, n2, r2, c2⟩ := h2 k e1 g1
  exact ⟨e2, g2, n2.trans n1, fun h => r2 (r1 h), c1.trans c2⟩

theorem grows_snoc (k : Str) (e : Export) (m : Exports) : Grows m (m ++ [(k, e)]) := by
  intro k' e' h
  exact ⟨e', by rw [get_snoc, h]; rfl, rfl, id, List.prefix_rfl⟩

theorem grows_modify (k : Str) (f : Export → Export) (m : Exports) (hf : ∀ e, (f e).name = e.name ∧ (e.isReferenced = true → (f e).isReferenced = true) ∧ e.composes <+: (f e).composes) :
    Grows m (modify k f m) := by
  intro k' e h
  rw [get_modify]
  split
  · exact ⟨f e, by rw [h]; rfl, hf e⟩
  · exact ⟨e, h, rfl, id, List.prefix_rfl⟩

theorem grows_upd {st : State} {i : Nat} {f : Exports → Exports} (h : Grows (st i) (f (st i))) (j : Nat) : Grows (st j) (st.upd i f j) := by
  unfold State.upd
  split
  · rename_i e; subst e; exact h
  · exact .refl _

theorem grows_addLocal (cfg : Config) (srcs : Nat → Source) (s : Str) (i : Nat) (st : State) (j : Nat) : Grows (st j) (addLocal cfg srcs s i st j) := by
  refine grows_upd ?_ j
  unfold orInsert
  split
  · exact .refl _
  · exact grows_snoc _ _ _

theorem grows_addDashed (cfg : Config) (srcs : Nat → Source) (s : Str) (i : Nat) (st : State) (j : Nat) : Grows (st j) (addDashed cfg srcs s i st j) := by
  refine grows_upd ?_ j
  unfold orInsert
  split
  · exact .refl _
  · exact grows_snoc _ _ _

theorem grows_reference (cfg : Config) (srcs : Nat → Source) (s : Str) (i : Nat) (st : State) (j : Nat) : Grows (st j) (reference cfg srcs s i st j) := by
  refine grows_upd ?_ j
  split
  · exact grows_modify _ _ _ fun e => ⟨rfl, fun _ => rfl, List.prefix_rfl⟩
  · exact grows_snoc _ _ _

theorem grows_writeIdent (cfg : Config) (srcs : Nat → Source) (s : Str) (b : Bool) (i : Nat) (st : State) (j : Nat) :
    Grows (st j) ((writeIdent cfg srcs s b i st).1 j) := by
  unfold writeIdent
  split
  · exact grows_addLocal _ _ _ _ _ _
  · exact .refl _

theorem grows_writeDashed (cfg : Config) (srcs : Nat → Source) (s : Str) (b : Bool) (i : Nat) (st : State) (j : Nat) :
    Grows (st j) ((writeDashed cfg srcs s b i st).1 j) := by
  unfold writeDashed
  split
  · simp only
    split
    · exact grows_addDashed _ _ _ _ _ _
    · exact .refl _
  · exact .refl _

theorem grows_print (cfg : Config) (srcs : Nat → Source) (i : Nat) (st : State) (u : Use) (j : Nat) : Grows (st j) ((print cfg srcs i st u).1 j) := by
  have href : ∀ (b : Bool) s, Grows (st j) ((if b then reference cfg srcs s i st else st) j) := by
    intro b s
    cases b
    · exact .refl _
    · exact grows_reference _ _ _ _ _ _
  cases u with
  | sel s => exact grows_writeIdent _ _ _ _ _ _ _
  | keyframes s => exact grows_writeIdent _ _ _ _ _ _ _
  | animationIdent s => exact (href cfg.animation s).trans (grows_writeIdent _ _ _ _ _ _ _)
  | animationString s => exact (href cfg.animation s).trans (grows_writeIdent _ _ _ _ _ _ _)
  | ident s => exact grows_writeIdent _ _ _ _ _ _ _
  | container s => exact grows_writeIdent _ _ _ _ _ _ _
  | counterStyle s => exact (href true s).trans (grows_writeIdent _ _ _ _ _ _ _)
  | dashedDecl s => exact grows_writeDashed _ _ _ _ _ _ _
  | dashedRef s f p =>
    simp only [print]
    split
    · cases f with
      | none =>
        simp only [referenceDashed]
        refine Grows.trans ?_ (grows_writeDashed _ _ _ _ _ _ _)
        refine grows_upd ?_ j
        split
        · exact grows_modify _ _ _ fun e => ⟨rfl, fun _ => rfl, List.prefix_rfl⟩
        · exact grows_snoc _ _ _
      | some f => cases f <;> exact .refl _
    · exact grows_writeDashed _ _ _ _ _ _ _

theorem printAll_append (cfg : Config) (srcs : Nat → Source) (a b : List (Nat × Use)) (st : State) :
    printAll cfg srcs (a ++ b) st = ((printAll cfg srcs b (printAll cfg srcs a st).1).1, (printAll cfg srcs a st).2 ++ (printAll cfg srcs b (printAll cfg srcs a st).1).2) := by
  induction a generalizing st with
  | nil => rfl
  | cons p a ih =>
    obtain ⟨i, u⟩ := p
    simp only [List.cons_append, printAll, ih]

theorem grows_printAll (cfg : Config) (srcs : Nat → Source) (uses : List (Nat × Use)) (st : State) (j : Nat) : Grows (st j) ((printAll cfg srcs uses st).1 j) := by
  induction uses generalizing st with
  | nil => exact .refl _
  | cons p uses ih =>
    obtain ⟨i, u⟩ := p
    exact (grows_print cfg srcs i st u j).trans (ih _)

/-- **C32** An export is never renamed by what is printed later, nor does it lose what it composes or that it is referenced. -/
theorem C32_stable (cfg : Config) (srcs : Nat → Source) (before after : List (Nat × Use)) (st : State) (i : Nat) (k : Str) (e : Export)
    (h : get k ((printAll cfg srcs before st).1 i) = some e) :
    ∃ e', get k ((printAll cfg srcs (before ++ after) st).1 i) = some e' ∧ e'.name = e.name ∧ (e.isReferenced = true → e'.isReferenced = true) ∧ e.composes <+: e'.composes := by
  rw [printAll_append]
  exact grows_printAll cfg srcs after _ i k e h

/-! ### Names -/

/-- The name a use is about. -/
def useName : Use → Str
  | .sel s | .keyframes s | .animationIdent s | .animationString s | .ident s | .container s | .counterStyle s | .dashedDecl s | .dashedRef s _ _ => s

/-- The exports have these names. -/
def Named (nm : Nat → Str → Str) (st : State) : Prop := ∀ i k e, get k (st i) = some e → e.name = nm i k

theorem named_upd {nm : Nat → Str → Str} {st : State} (h : Named nm st) {i : Nat} {f : Exports → Exports}
    (hf : ∀ k e, get k (f (st i)) = some e → e.name = nm i k) : Named nm (st.upd i f) := by
  intro j k e he
  unfold State.upd at he
  split at he
  · rename_i hj; subst hj; exact hf k e he
  · exact h j k e he

theorem named_snoc {nm : Str → Str} {m : Exports} {s : Str} {e0 : Export} (h : ∀ k e, get k m = some e → e.name = nm k) (h0 : e0.name = nm s) :
    ∀ k e, get k (m ++ [(s, e0)]) = some e → e.name = nm k := by
  intro k e he
  rw [get_snoc] at he
  cases hg : get k m with
  | some e' => rw [hg] at he; simp only [Option.some_or, Option.some.injEq] at he; subst he; exact h k e' hg
  | none =>
    rw [hg] at he
    simp only [Option.none_or] at he
    split at he
    · rename_i hk; subst hk; simp only [Option.some.injEq] at he; subst he; exact h0
    · exact absurd he (by simp)

theorem named_modify {nm : Str → Str} {m : Exports} {s : Str} {f : Export → Export} (hf : ∀ e, (f e).name = e.name) (h : ∀ k e, get k m = some e → e.name = nm k) :
    ∀ k e, get k (modify s f m) = some e → e.name = nm k := by
  intro k e he
  rw [get_modify] at he
  split at he
  · cases hg : get k m with
    | none => rw [hg] at he; exact absurd he (by simp)
    | some e' => rw [hg] at he; simp only [Option.map_some, Option.some.injEq] at he; subst he; rw [hf]; exact h k e' hg
  · exact h k e he

theorem named_addLocal {cfg : Config} {srcs : Nat → Source} {nm : Nat → Str → Str} {st : State} (h : Named nm st) {s : Str} {i : Nat}
    (h0 : writeName cfg.pattern (srcs i) s = nm i s) : Named nm (addLocal cfg srcs s i st) := by
  refine named_upd h ?_
  unfold orInsert
  split
  · exact h i
  · exact named_snoc (h i) h0

theorem named_addDashed {cfg : Config} {srcs : Nat → Source} {nm : Nat → Str → Str} {st : State} (h : Named nm st) {s : Str} {i : Nat}
    (h0 : cs!"--" ++ writeName cfg.pattern (srcs i) (s.drop 2) = nm i s) : Named nm (addDashed cfg srcs s i st) := by
  refine named_upd h ?_
  unfold orInsert
  split
  · exact h i
  · exact named_snoc (h i) h0

theorem named_reference {cfg : Config} {srcs : Nat → Source} {nm : Nat → Str → Str} {st : State} (h : Named nm st) {s : Str} {i : Nat}
    (h0 : writeName cfg.pattern (srcs i) s = nm i s) : Named nm (reference cfg srcs s i st) := by
  refine named_upd h ?_
  split
  · exact named_modify (fun _ => rfl) (h i)
  · exact named_snoc (h i) h0

theorem named_writeIdent {cfg : Config} {srcs : Nat → Source} {nm : Nat → Str → Str} {st : State} (h : Named nm st) {s : Str} {i : Nat} (b : Bool)
    (h0 : writeName cfg.pattern (srcs i) s = nm i s) : Named nm (writeIdent cfg srcs s b i st).1 := by
  unfold writeIdent
  split
  · exact named_addLocal h h0
  · exact h

theorem named_writeDashed {cfg : Config} {srcs : Nat → Source} {nm : Nat → Str → Str} {st : State} (h : Named nm st) {s : Str} {i : Nat} (b : Bool)
    (h0 : cs!"--" ++ writeName cfg.pattern (srcs i) (s.drop 2) = nm i s) : Named nm (writeDashed cfg srcs s b i st).1 := by
  unfold writeDashed
  split
  · simp only
    split
    · exact named_addDashed h h0
    · exact h
  · exact h

theorem named_print {cfg : Config} {srcs : Nat → Source} {nm : Nat → Str → Str} {st : State} (h : Named nm st) {i : Nat} {u : Use}
    (h0 : compiled cfg (srcs i) u (useName u) = nm i (useName u)) : Named nm (print cfg srcs i st u).1 := by
  have href : ∀ (b : Bool) s, writeName cfg.pattern (srcs i) s = nm i s → Named nm (if b then reference cfg srcs s i st else st) := by
    intro b s hs
    cases b
    · exact h
    · exact named_reference h hs
  cases u with
  | sel s => exact named_writeIdent h _ h0
  | keyframes s => exact named_writeIdent h _ h0
  | animationIdent s => exact named_writeIdent (href _ s h0) _ h0
  | animationString s => exact named_writeIdent (href _ s h0) _ h0
  | ident s => exact named_writeIdent h _ h0
  | container s => exact named_writeIdent h _ h0
  | counterStyle s => exact named_writeIdent (href true s h0) _ h0
  | dashedDecl s => exact named_writeDashed h _ h0
  | dashedRef s f p =>
    simp only [print]
    split
    · cases f with
      | none =>
        simp only [referenceDashed]
        refine named_writeDashed (named_upd h ?_) _ h0
        split
        · exact named_modify (fun _ => rfl) (h i)
        · exact named_snoc (h i) h0
      | some f => cases f <;> exact h
    · exact named_writeDashed h _ h0

theorem named_printAll {cfg : Config} {srcs : Nat → Source} {nm : Nat → Str → Str} {uses : List (Nat × Use)} {st : State} (h : Named nm st)
    (h0 : ∀ i u, (i, u) ∈ uses → compiled cfg (srcs i) u (useName u) = nm i (useName u)) : Named nm (printAll cfg srcs uses st).1 := by
  induction uses generalizing st with
  | nil => exact h
  | cons p uses ih =>
    obtain ⟨i, u⟩ := p
    exact ih (named_print h (h0 i u (List.mem_cons_self ..))) fun i u hu => h0 i u (List.mem_cons_of_mem _ hu)

/-! ### Scoped names are exported -/

theorem get_orInsert (s : Str) (e : Export) (m : Exports) : (get s (orInsert s e m)).isSome = true := by
  unfold orInsert
  split
  · assumption
  · rename_i h
    rw [get_snoc]
    cases hg : get s m <;> simp

theorem get_writeIdent (cfg : Config) (srcs : Nat → Source) (s : Str) (i : Nat) (st : State) : (get s ((writeIdent cfg srcs s true i st).1 i)).isSome = true := by
  simp only [writeIdent, if_true, addLocal, State.upd]
  exact get_orInsert ..

/-- What referencing does to the exports of the file. -/
theorem get_ref (s name : Str) (m : Exports) :
    ∃ e, get s (if (get s m).isSome then modify s (fun e => { e with isReferenced := true }) m else m ++ [(s, ⟨name, [], true⟩)]) = some e ∧ e.isReferenced = true := by
  split
  · rename_i h
    obtain ⟨e, he⟩ := Option.isSome_iff_exists.1 h
    exact ⟨{ e with isReferenced := true }, by rw [get_modify, if_pos rfl, he]; rfl, rfl⟩
  · rename_i h
    exact ⟨⟨name, [], true⟩, by rw [get_snoc]; simp at h; simp [h], rfl⟩

theorem exported_print {cfg : Config} {srcs : Nat → Source} {st : State} {i : Nat} {u : Use} {s : Str} (hci : cfg.customIdents = true) (hs : scopedName cfg u = some s) :
    (get s ((print cfg srcs i st u).1 i)).isSome = true ∧ useName u = s ∧
      (print cfg srcs i st u).2 = if isDashed u then cs!"--" ++ cfg.pattern.flatMap fun g => serName (segText (srcs i) (s.drop 2) g) else identText cfg.pattern (srcs i) s := by
  have hid : ∀ (st : State) s, (get s ((writeIdent cfg srcs s true i st).1 i)).isSome = true := fun st s => get_writeIdent cfg srcs s i st
  cases u with
  | sel t => cases hs; exact ⟨hid _ _, rfl, rfl⟩
  | keyframes t =>
    cases ha : cfg.animation <;> simp only [scopedName, ha, Bool.false_eq_true, if_false, if_true, Option.some.injEq, reduceCtorEq] at hs
    subst hs
    simp only [print, ha]
    exact ⟨hid _ _, rfl, rfl⟩
  | animationIdent t =>
    cases ha : cfg.animation <;> simp only [scopedName, ha, Bool.false_eq_true, if_false, if_true, Option.some.injEq, reduceCtorEq] at hs
    subst hs
    simp only [print, ha, hci, Bool.and_self]
    exact ⟨hid _ _, rfl, rfl⟩
  | animationString t =>
    cases ha : cfg.animation <;> simp only [scopedName, ha, Bool.false_eq_true, if_false, if_true, Option.some.injEq, reduceCtorEq] at hs
    subst hs
    simp only [print, ha]
    exact ⟨hid _ _, rfl, rfl⟩
  | ident t =>
    simp only [scopedName, hci, if_true, Option.some.injEq] at hs
    subst hs
    simp only [print, hci]
    exact ⟨hid _ _, rfl, rfl⟩
  | container t =>
    cases ha : cfg.container <;> simp only [scopedName, ha, Bool.false_eq_true, if_false, if_true, Option.some.injEq, reduceCtorEq] at hs
    subst hs
    simp only [print, ha, hci, Bool.and_self]
    exact ⟨hid _ _, rfl, rfl⟩
  | counterStyle t =>
    simp only [scopedName, hci, if_true, Option.some.injEq] at hs
    subst hs
    simp only [print, hci]
    exact ⟨hid _ _, rfl, rfl⟩
  | dashedDecl t =>
    cases ha : cfg.dashedIdents <;> simp only [scopedName, ha, Bool.false_eq_true, if_false, if_true, Option.some.injEq, reduceCtorEq] at hs
    subst hs
    simp only [print, writeDashed, ha, if_true, addDashed, State.upd]
    exact ⟨get_orInsert .., rfl, rfl⟩
  | dashedRef t f p =>
    cases f with
    | some f => exact absurd hs (by simp [scopedName])
    | none =>
      cases ha : cfg.dashedIdents <;> simp only [scopedName, ha, Bool.false_eq_true, if_false, if_true, Option.some.injEq, reduceCtorEq] at hs
      subst hs
      simp only [print, ha, if_true, referenceDashed, writeDashed, Bool.false_eq_true, if_false, State.upd]
      obtain ⟨e, he, -⟩ := get_ref t (cs!"--" ++ writeName cfg.pattern (srcs i) (t.drop 2)) (st i)
      exact ⟨by rw [he]; rfl, rfl, rfl⟩

theorem printAll_at {cfg : Config} {srcs : Nat → Source} {uses : List (Nat × Use)} {st : State} {k i : Nat} {u : Use} (h : uses[k]? = some (i, u)) :
    ∃ st', (printAll cfg srcs uses st).2[k]? = some (print cfg srcs i st' u).2 ∧ ∀ j, Grows ((print cfg srcs i st' u).1 j) ((printAll cfg srcs uses st).1 j) := by
  induction uses generalizing st k with
  | nil => simp at h
  | cons p uses ih =>
    obtain ⟨i', u'⟩ := p
    cases k with
    | zero =>
      simp only [List.getElem?_cons_zero, Option.some.injEq, Prod.mk.injEq] at h
      obtain ⟨rfl, rfl⟩ := h
      exact ⟨st, rfl, fun j => grows_printAll cfg srcs uses _ j⟩
    | succ k =>
      simp only [List.getElem?_cons_succ] at h
      obtain ⟨st', h1, h2⟩ := ih (st := (print cfg srcs i' st u').1) h
      exact ⟨st', h1, h2⟩

/-- No file uses a name both as a dashed identifier and otherwise. -/
def Separate (uses : List (Nat × Use)) : Prop :=
  ∀ i u u', (i, u) ∈ uses → (i, u') ∈ uses → useName u = useName u' → isDashed u = isDashed u'

theorem named_init {cfg : Config} {srcs : Nat → Source} {uses : List (Nat × Use)} (hsep : Separate uses) :
    ∃ nm : Nat → Str → Str, (∀ i u, (i, u) ∈ uses → compiled cfg (srcs i) u (useName u) = nm i (useName u)) ∧ Named nm (printAll cfg srcs uses fun _ => []).1 := by
  classical
  let nm : Nat → Str → Str := fun i k => if ∃ u, (i, u) ∈ uses ∧ useName u = k ∧ isDashed u = true then cs!"--" ++ writeName cfg.pattern (srcs i) (k.drop 2) else writeName cfg.pattern (srcs i) k
  have h0 : ∀ i u, (i, u) ∈ uses → compiled cfg (srcs i) u (useName u) = nm i (useName u) := by
    intro i u hu
    simp only [nm, compiled]
    by_cases hd : isDashed u = true
    · rw [if_pos hd, if_pos ⟨u, hu, rfl, hd⟩]
    · rw [if_neg hd, if_neg]
      rintro ⟨u', hu', he, hd'⟩
      exact hd ((hsep i u u' hu hu' he.symm).trans hd')
  exact ⟨nm, h0, named_printAll (fun i k e he => absurd he (by simp [get])) h0⟩

/-- **C32** Whatever is printed in whatever order: each scoped name is exported by its file, and the text printed for it reads as the name
exported in the end. For `custom_idents`, and if no name is used both dashed and otherwise. -/
theorem C32_exported_partial (cfg : Config) (srcs : Nat → Source) (uses : List (Nat × Use)) (hci : cfg.customIdents = true) (hsep : Separate uses)
    (hclean : ∀ i g, g ∈ cfg.pattern → ∀ s, NoNul s → NoNul (segText (srcs i) s g)) (hfirst : ∀ i s, s ≠ [] → ∃ g gs, cfg.pattern = g :: gs ∧ segText (srcs i) s g ≠ [])
    (k i : Nat) (u : Use) (hk : uses[k]? = some (i, u)) (s : Str) (hs : scopedName cfg u = some s) (hne : s ≠ []) (hn : NoNul s) :
    ∃ e t, get s ((printAll cfg srcs uses fun _ => []).1 i) = some e ∧ (printAll cfg srcs uses fun _ => []).2[k]? = some t ∧
      e.name = compiled cfg (srcs i) u s ∧ ∀ rest, continues rest = false → startsIdent (t ++ rest) = true ∧ Reads (t ++ rest) e.name rest := by
  obtain ⟨nm, h0, hnm⟩ := named_init (cfg := cfg) (srcs := srcs) hsep
  obtain ⟨st', h1, h2⟩ := printAll_at (cfg := cfg) (srcs := srcs) (st := fun _ => []) hk
  obtain ⟨g1, g2, g3⟩ := exported_print (srcs := srcs) (st := st') (i := i) hci hs
  obtain ⟨e, he⟩ := Option.isSome_iff_exists.1 g1
  obtain ⟨e', he', hen, -, -⟩ := h2 i s e he
  have hname : e'.name = compiled cfg (srcs i) u s := by
    have a := hnm i s e' he'
    have b := h0 i u (List.mem_of_getElem? hk)
    rw [g2] at b
    rw [a, b]
  refine ⟨e', _, he', h1, hname, fun rest hr => ?_⟩
  rw [hname, g3, compiled]
  split
  · have hn2 : NoNul (s.drop 2) := fun c hc => hn c (List.drop_subset _ _ hc)
    have := reads_segs (src := srcs i) (loc := s.drop 2) hr (segs := cfg.pattern) fun g hg => hclean i g hg _ hn2
    exact ⟨rfl, .char _ _ _ _ name_dash (.char _ _ _ _ name_dash this)⟩
  · obtain ⟨g, gs, hp, hg⟩ := hfirst i s hne
    rw [hp]
    exact C32_scoped_text (fun g' hg' => hclean i g' (hp ▸ hg') s hn) hg hr

/-- **C32** A dashed name that is referenced from another bundled file that declares it is printed as the name which that file exports. -/
theorem C32_imported_partial (cfg : Config) (srcs : Nat → Source) (uses : List (Nat × Use)) (hd : cfg.dashedIdents = true) (hci : cfg.customIdents = true) (hsep : Separate uses)
    (hclean : ∀ i g, g ∈ cfg.pattern → ∀ s, NoNul s → NoNul (segText (srcs i) s g))
    (k i j : Nat) (s p : Str) (hk : uses[k]? = some (i, .dashedRef s (some (.index j)) p)) (hj : (j, .dashedDecl s) ∈ uses) (hn : NoNul s) :
    ∃ e t, get s ((printAll cfg srcs uses fun _ => []).1 j) = some e ∧ (printAll cfg srcs uses fun _ => []).2[k]? = some t ∧
      ∀ rest, continues rest = false → Reads (t ++ rest) e.name rest := by
  obtain ⟨nm, h0, hnm⟩ := named_init (cfg := cfg) (srcs := srcs) hsep
  obtain ⟨k', hk'⟩ := List.getElem?_of_mem hj
  obtain ⟨st', h1, -⟩ := printAll_at (cfg := cfg) (srcs := srcs) (st := fun _ => []) hk
  obtain ⟨st'', -, h2⟩ := printAll_at (cfg := cfg) (srcs := srcs) (st := fun _ => []) hk'
  obtain ⟨g1, -, -⟩ := exported_print (srcs := srcs) (st := st'') (i := j) (u := .dashedDecl s) (s := s) hci (by simp [scopedName, hd])
  obtain ⟨e, he⟩ := Option.isSome_iff_exists.1 g1
  obtain ⟨e', he', hen, -, -⟩ := h2 j s e he
  have hname : e'.name = cs!"--" ++ writeName cfg.pattern (srcs j) (s.drop 2) := by
    rw [hnm j s e' he']
    exact (h0 j (.dashedDecl s) hj).symm
  refine ⟨e', _, he', h1, fun rest hr => ?_⟩
  rw [hname]
  simp only [print, hd, if_true, referenceDashed]
  have hn2 : NoNul (s.drop 2) := fun c hc => hn c (List.drop_subset _ _ hc)
  have hw : NoNul (writeName cfg.pattern (srcs j) (s.drop 2)) := by
    intro c hc
    obtain ⟨g, hg, hc⟩ := List.mem_flatMap.1 hc
    exact hclean j g hg _ hn2 c hc
  have := reads_serName hw (.done rest hr)
  rw [List.append_nil] at this
  exact .char _ _ _ _ name_dash (.char _ _ _ _ name_dash this)

/-- The uses that reference a name which is exported. -/
def references (cfg : Config) : Use → Option Str
  | .animationIdent s | .animationString s => if cfg.animation then some s else none
  | .counterStyle s => some s
  | .dashedRef s none _ => if cfg.dashedIdents then some s else none
  | _ => none

/-- **C32** A name that is referenced is exported as referenced. -/
theorem C32_referenced (cfg : Config) (srcs : Nat → Source) (uses : List (Nat × Use)) (st : State) (i : Nat) (u : Use) (hu : (i, u) ∈ uses) (s : Str) (hs : references cfg u = some s) :
    ∃ e, get s ((printAll cfg srcs uses st).1 i) = some e ∧ e.isReferenced = true := by
  obtain ⟨k, hk⟩ := List.getElem?_of_mem hu
  obtain ⟨st', -, h2⟩ := printAll_at (cfg := cfg) (srcs := srcs) (st := st) hk
  have href : ∃ e, get s (reference cfg srcs s i st' i) = some e ∧ e.isReferenced = true := by
    simp only [reference, State.upd, if_true]
    exact get_ref ..
  have key : ∃ e, get s ((print cfg srcs i st' u).1 i) = some e ∧ e.isReferenced = true := by
    have pass : ∀ b, ∃ e, get s ((writeIdent cfg srcs s b i (reference cfg srcs s i st')).1 i) = some e ∧ e.isReferenced = true := by
      intro b
      obtain ⟨e, h3, h4⟩ := href
      obtain ⟨e', h5, -, h6, -⟩ := grows_writeIdent cfg srcs s b i (reference cfg srcs s i st') i s e h3
      exact ⟨e', h5, h6 h4⟩
    cases u with
    | animationIdent t =>
      cases ha : cfg.animation <;> simp only [references, ha, Bool.false_eq_true, if_false, if_true, Option.some.injEq, reduceCtorEq] at hs
      subst hs
      simp only [print, ha, if_true]
      exact pass _
    | animationString t =>
      cases ha : cfg.animation <;> simp only [references, ha, Bool.false_eq_true, if_false, if_true, Option.some.injEq, reduceCtorEq] at hs
      subst hs
      simp only [print, ha, if_true]
      exact pass _
    | counterStyle t => cases hs; exact pass _
    | dashedRef t f p =>
      cases f with
      | some f => simp [references] at hs
      | none =>
        cases ha : cfg.dashedIdents <;> simp only [references, ha, Bool.false_eq_true, if_false, if_true, Option.some.injEq, reduceCtorEq] at hs
        subst hs
        simp only [print, ha, if_true, referenceDashed, writeDashed, Bool.false_eq_true, if_false, State.upd]
        exact get_ref ..
    | _ => simp [references] at hs
  obtain ⟨e, h3, h4⟩ := key
  obtain ⟨e', h5, -, h6, -⟩ := h2 i s e h3
  exact ⟨e', h5, h6 h4⟩

/-- A configuration and file for the examples. -/
def cfg0 : Config := ⟨[.hash, .lit cs!"_", .loc], true, true, true, true⟩
/-- A file. -/
def src0 : Source := ⟨cs!"EgL3uq", cs!"a", cs!""⟩

/-- The hypotheses are met, by a file that uses a class, an animation and a custom property, twice. -/
example : cfg0.customIdents = true ∧ Separate [(0, .sel cs!"a"), (0, .animationIdent cs!"a"), (0, .dashedDecl cs!"--a"), (1, .dashedRef cs!"--a" (some (.index 0)) []), (0, .sel cs!"a")] ∧
    (∀ g ∈ cfg0.pattern, ∀ s, NoNul s → NoNul (segText src0 s g)) ∧ (∀ s, s ≠ [] → ∃ g gs, cfg0.pattern = g :: gs ∧ segText src0 s g ≠ []) ∧
    (printAll cfg0 (fun _ => src0) [(0, .sel cs!"a"), (0, .animationIdent cs!"a"), (0, .dashedDecl cs!"--a"), (0, .sel cs!"a")] fun _ => []).1 0 =
      [(cs!"a", ⟨cs!"EgL3uq_a", [], true⟩), (cs!"--a", ⟨cs!"--EgL3uq_a", [], false⟩)] := by
  refine ⟨rfl, ?_, ?_, fun s _ => ⟨.hash, _, rfl, by simp [segText, src0]⟩, rfl⟩
  · intro i u u' h1 h2 h3
    simp only [List.mem_cons, List.not_mem_nil, or_false, Prod.mk.injEq] at h1 h2
    rcases h1 with ⟨-, rfl⟩ | ⟨-, rfl⟩ | ⟨-, rfl⟩ | ⟨-, rfl⟩ | ⟨-, rfl⟩ <;> rcases h2 with ⟨-, rfl⟩ | ⟨-, rfl⟩ | ⟨-, rfl⟩ | ⟨-, rfl⟩ | ⟨-, rfl⟩ <;>
      first | rfl | (simp [useName] at h3)
  · intro g hg s hs
    simp only [cfg0, List.mem_cons, List.not_mem_nil, or_false] at hg
    rcases hg with rfl | rfl | rfl
    · unfold NoNul; simp [segText, src0]
    · unfold NoNul; simp [segText]
    · exact hs

/-- The class `--a` and the custom property `--a` share an export, which has the name of the first only. -/
theorem C32_counterexample_dashed :
    let r := printAll cfg0 (fun _ => src0) [(0, .sel cs!"--a"), (0, .dashedDecl cs!"--a")] fun _ => []
    r.1 0 = [(cs!"--a", ⟨cs!"EgL3uq_--a", [], false⟩)] ∧ r.2 = [cs!"EgL3uq_--a", cs!"--EgL3uq_a"] := ⟨rfl, rfl⟩

/-! ### Composes -/

theorem add_spec (r : Ref) (e : Export) : (if r ∈ e.composes then e else { e with composes := e.composes ++ [r] }).composes = if r ∈ e.composes then e.composes else e.composes ++ [r] := by
  split <;> rfl

/-- References are collected one by one. -/
def collect (l : List Ref) (rs : List Ref) : List Ref := rs.foldl (fun l r => if r ∈ l then l else l ++ [r]) l

theorem collect_eq (rs : List Ref) : ∀ l : List Ref, collect l rs = l ++ (firstOnly rs).filter (· ∉ l) := by
  induction rs with
  | nil => intro l; simp [collect, firstOnly]
  | cons r rs ih =>
    intro l
    have := ih (if r ∈ l then l else l ++ [r])
    simp only [collect, List.foldl_cons] at this ⊢
    rw [this]
    by_cases h : r ∈ l
    · simp only [h, if_true, firstOnly, List.filter_cons, not_true_eq_false, decide_false, Bool.false_eq_true, if_false, List.filter_filter]
      congr 1
      apply List.filter_congr
      intro x hx
      by_cases hx : x ∈ l
      · simp [hx]
      · have : x ≠ r := by rintro rfl; exact hx h
        simp [hx, this]
    · simp only [h, if_false, firstOnly, List.filter_cons, not_false_eq_true, decide_true, if_true, List.filter_filter, List.append_assoc, List.singleton_append]
      congr 2
      apply List.filter_congr
      intro x hx
      simp only [List.mem_append, List.mem_singleton, not_or, Bool.decide_and]

/-- The specifiers for which references are made (all but bundled files). -/
def plainFrom : Option Spec → Bool
  | some (.index _) => false
  | _ => true

theorem get_composeOne {cfg : Config} {srcs : Nat → Source} {f : Option Spec} {i : Nat} {id name : Str} {st : State} (hf : plainFrom f = true) (k : Str) :
    (get k (composeOne cfg srcs f i id name st i)).map (·.composes) =
      (get k (st i)).map fun e => if k = id then (if refOf cfg (srcs i) f name ∈ e.composes then e.composes else e.composes ++ [refOf cfg (srcs i) f name]) else e.composes := by
  have key : ∀ r : Ref, (get k (State.upd st i (modify id fun e => if r ∈ e.composes then e else { e with composes := e.composes ++ [r] }) i)).map (·.composes) =
      (get k (st i)).map fun e => if k = id then (if r ∈ e.composes then e.composes else e.composes ++ [r]) else e.composes := by
    intro r
    simp only [State.upd, if_true, get_modify]
    split
    · rw [Option.map_map]
      congr 1
      funext e
      exact add_spec r e
    · rfl
  cases f with
  | none => exact key _
  | some f => cases f with
    | global => exact key _
    | file f => exact key _
    | index j => simp [plainFrom] at hf

theorem get_composeNames {cfg : Config} {srcs : Nat → Source} {f : Option Spec} {i : Nat} {id : Str} (hf : plainFrom f = true) (k : Str) (names : List Str) : ∀ st : State,
    (get k (names.foldl (fun st name => composeOne cfg srcs f i id name st) st i)).map (·.composes) =
      (get k (st i)).map fun e => if k = id then collect e.composes (names.map (refOf cfg (srcs i) f)) else e.composes := by
  induction names with
  | nil => intro st; simp only [List.foldl_nil, List.map_nil, collect, ite_self]
  | cons n names ih =>
    intro st
    rw [List.foldl_cons, ih]
    have h1 := get_composeOne (cfg := cfg) (srcs := srcs) (i := i) (id := id) (name := n) (st := st) hf k
    cases hg : get k (st i) with
    | none =>
      rw [hg] at h1
      cases hc : get k (composeOne cfg srcs f i id n st i) with
      | none => rfl
      | some e => rw [hc] at h1; simp at h1
    | some e =>
      rw [hg] at h1
      cases hc : get k (composeOne cfg srcs f i id n st i) with
      | none => rw [hc] at h1; simp at h1
      | some e' =>
        rw [hc] at h1
        simp only [Option.map_some, Option.some.injEq] at h1 ⊢
        rw [h1]
        split
        · simp [collect]
        · rfl

/-- A `composes` declaration: the selectors of its rule, the names and where they are from. -/
structure Comp where
  sels : List Sel
  names : List Str
  srcFrom : Option Spec

/-- The `composes` declarations of a file, in order; `none` is an error. -/
def composeAll (cfg : Config) (srcs : Nat → Source) (i : Nat) : List Comp → State → Option State
  | [], st => some st
  | c :: rest, st => (handleComposes cfg srcs c.names c.srcFrom i c.sels st).bind (composeAll cfg srcs i rest)

/-- The references that a declaration makes for a class. -/
def Comp.refs (cfg : Config) (src : Source) (id : Str) (c : Comp) : List Ref :=
  c.sels.flatMap fun | .cls n => if n = id then c.names.map (refOf cfg src c.srcFrom) else [] | .other => []

theorem get_handle {cfg : Config} {srcs : Nat → Source} {f : Option Spec} {i : Nat} {names : List Str} (hf : plainFrom f = true) (k : Str) (sels : List Sel) : ∀ st st' : State,
    handleComposes cfg srcs names f i sels st = some st' →
    (get k (st' i)).map (·.composes) = (get k (st i)).map fun e => collect e.composes (Comp.refs cfg (srcs i) k ⟨sels, names, f⟩) := by
  induction sels with
  | nil => intro st st' h; simp only [handleComposes, Option.some.injEq] at h; subst h; rfl
  | cons s sels ih =>
    intro st st' h
    cases s with
    | other => simp [handleComposes] at h
    | cls id =>
      simp only [handleComposes] at h
      rw [ih _ _ h]
      have h1 := get_composeNames (cfg := cfg) (srcs := srcs) (i := i) (id := id) hf k names st
      cases hg : get k (st i) with
      | none =>
        rw [hg] at h1
        cases hc : get k (names.foldl (fun st name => composeOne cfg srcs f i id name st) st i) with
        | none => rfl
        | some e => rw [hc] at h1; simp at h1
      | some e =>
        rw [hg] at h1
        cases hc : get k (names.foldl (fun st name => composeOne cfg srcs f i id name st) st i) with
        | none => rw [hc] at h1; simp at h1
        | some e' =>
          rw [hc] at h1
          simp only [Option.map_some, Option.some.injEq] at h1 ⊢
          rw [h1]
          by_cases hk : k = id
          · subst hk
            simp [collect, Comp.refs]
          · simp [hk, Comp.refs, Ne.symm hk]

/-- **C34** The export of a class lists what its `composes` declarations refer to, each once, in the order of first appearance. For names of
the file itself, global names and names of files that are not bundled. -/
theorem C34_composes_partial (cfg : Config) (srcs : Nat → Source) (i : Nat) (comps : List Comp) (hf : ∀ c ∈ comps, plainFrom c.srcFrom = true) (st st' : State)
    (h : composeAll cfg srcs i comps st = some st') (id : Str) (e : Export) (he : get id (st i) = some e) (hne : e.composes = []) :
    ∃ e', get id (st' i) = some e' ∧ e'.composes = firstOnly (comps.flatMap (Comp.refs cfg (srcs i) id)) := by
  have key : ∀ (comps : List Comp), (∀ c ∈ comps, plainFrom c.srcFrom = true) → ∀ st, composeAll cfg srcs i comps st = some st' →
      (get id (st' i)).map (·.composes) = (get id (st i)).map fun e => collect e.composes (comps.flatMap (Comp.refs cfg (srcs i) id)) := by
    intro comps
    induction comps with
    | nil => intro _ st h; simp only [composeAll, Option.some.injEq] at h; subst h; rfl
    | cons c comps ih =>
      intro hf st h
      simp only [composeAll, Option.bind_eq_some_iff] at h
      obtain ⟨st1, h1, h2⟩ := h
      rw [ih (fun c hc => hf c (List.mem_cons_of_mem _ hc)) st1 h2]
      have h3 := get_handle (hf c (List.mem_cons_self ..)) id c.sels st st1 h1
      cases hg : get id (st i) with
      | none =>
        rw [hg] at h3
        cases hc : get id (st1 i) with
        | none => rfl
        | some e => rw [hc] at h3; simp at h3
      | some e =>
        rw [hg] at h3
        cases hc : get id (st1 i) with
        | none => rw [hc] at h3; simp at h3
        | some e' =>
          rw [hc] at h3
          simp only [Option.map_some, Option.some.injEq] at h3 ⊢
          rw [h3]
          simp [collect]
  have := key comps hf st h
  rw [he] at this
  simp only [Option.map_some, Option.map_eq_some_iff] at this
  obtain ⟨e', h1, h2⟩ := this
  refine ⟨e', h1, ?_⟩
  rw [h2, hne, collect_eq]
  simp

theorem handle_none {cfg : Config} {srcs : Nat → Source} {names : List Str} {f : Option Spec} {i : Nat} (sels : List Sel) : ∀ st : State,
    handleComposes cfg srcs names f i sels st = none ↔ Sel.other ∈ sels := by
  induction sels with
  | nil => intro st; simp [handleComposes]
  | cons s sels ih =>
    intro st
    cases s with
    | other => simp [handleComposes]
    | cls id => simp [handleComposes, ih]

/-- **C34** `composes` is rejected exactly if it is used with a selector that is not a single class. -/
theorem C34_rejects (cfg : Config) (srcs : Nat → Source) (i : Nat) (comps : List Comp) (st : State) :
    composeAll cfg srcs i comps st = none ↔ ∃ c ∈ comps, Sel.other ∈ c.sels := by
  induction comps generalizing st with
  | nil => simp [composeAll]
  | cons c comps ih =>
    simp only [composeAll, List.mem_cons, exists_eq_or_imp]
    cases h : handleComposes cfg srcs c.names c.srcFrom i c.sels st with
    | none => simp [(handle_none c.sels st).1 h]
    | some st1 =>
      simp only [Option.bind_some, ih]
      have : Sel.other ∉ c.sels := fun hm => by rw [(handle_none c.sels st).2 hm] at h; exact absurd h (by simp)
      simp [this]

/-- The first appearances are the elements, each once. -/
theorem mem_firstOnly {α : Type} [DecidableEq α] (l : List α) : (∀ x, x ∈ firstOnly l ↔ x ∈ l) ∧ (firstOnly l).Nodup := by
  induction l with
  | nil => simp [firstOnly]
  | cons a l ih =>
    simp only [firstOnly, List.mem_cons, List.mem_filter, ih.1, decide_eq_true_eq, ne_eq, List.nodup_cons]
    refine ⟨fun x => ?_, by simp, ih.2.filter _⟩
    by_cases h : x = a <;> simp [h]

/-- The hypotheses are met: two rules for one class that compose from the file, from elsewhere and globally, with repetitions. -/
example :
    let st : State := (printAll cfg0 (fun _ => src0) [(0, .sel cs!"a"), (0, .sel cs!"b")] fun _ => []).1
    let comps : List Comp := [⟨[.cls cs!"a"], [cs!"b", cs!"c", cs!"b"], none⟩, ⟨[.cls cs!"b", .cls cs!"a"], [cs!"b"], some .global⟩, ⟨[.cls cs!"a"], [cs!"b"], some (.file cs!"x.css")⟩,
      ⟨[.cls cs!"a"], [cs!"c"], none⟩]
    (composeAll cfg0 (fun _ => src0) 0 comps st).isSome = true ∧ (∀ c ∈ comps, plainFrom c.srcFrom = true) ∧ (get cs!"a" (st 0)).map (·.composes) = some [] ∧
    firstOnly (comps.flatMap (Comp.refs cfg0 src0 cs!"a")) = [.loc cs!"EgL3uq_b", .loc cs!"EgL3uq_c", .glob cs!"b", .dep cs!"b" cs!"x.css"] := by
  exact ⟨rfl, by decide, rfl, by decide⟩

/-- References to a bundled file are repeated, and those to a file that is printed later are lost. -/
theorem C34_bundled :
    let st : State := (printAll cfg0 (fun _ => src0) [(1, .sel cs!"b"), (0, .sel cs!"a")] fun _ => []).1
    let c : Comp := ⟨[.cls cs!"a"], [cs!"b", cs!"later"], some (.index 1)⟩
    ((composeAll cfg0 (fun _ => src0) 0 [c, c] st).map fun st => st 0) = some [(cs!"a", ⟨cs!"EgL3uq_a", [.loc cs!"EgL3uq_b", .loc cs!"EgL3uq_b"], false⟩)] := rfl

/-! ### Animations -/

/-- **C50** The names of `@keyframes` and of `animation-name` (as identifier or string) are printed alike, if `custom_idents` is on or
`animation` is off. -/
theorem C50_animation_partial (cfg : Config) (srcs : Nat → Source) (i : Nat) (st st' st'' : State) (s : Str) (h : cfg.customIdents = true ∨ cfg.animation = false) :
    (print cfg srcs i st (.animationIdent s)).2 = (print cfg srcs i st' (.keyframes s)).2 ∧
    (print cfg srcs i st'' (.animationString s)).2 = (print cfg srcs i st' (.keyframes s)).2 := by
  cases ha : cfg.animation
  · simp [print, ha, writeIdent]
  · have hc : cfg.customIdents = true := h.resolve_right (by simp [ha])
    simp [print, ha, hc, writeIdent]

example : cfg0.customIdents = true := rfl

/-- With `custom_idents: false` (and `animation: true`, the default) `@keyframes a` is renamed and `animation-name: a` is not: the animation is lost. -/
theorem C50_counterexample : let cfg : Config := { cfg0 with customIdents := false }
    (printAll cfg (fun _ => src0) [(0, .keyframes cs!"a"), (0, .animationIdent cs!"a"), (0, .animationString cs!"a")] fun _ => []).2 =
      [cs!"EgL3uq_a", cs!"a", cs!"EgL3uq_a"] := rfl
end Verif.Modules
