import Verif.TextDeco.Spec
/-!
# Text decorations: the theorems (C195, C196)
-/
namespace Verif.TextDeco
variable {V M : Type} [DecidableEq V]

/-- A field is absent or was set without prefix. -/
def PlainField (x : Option (V × Vp)) : Prop := ∀ v q, x = some (v, q) → q = Vp.plain

/-- The states that unprefixed declarations lead to. -/
structure PlainSt (h : Handler V) : Prop where
  fields : ∀ p, PlainField (h.get p)
  any : h.any = false → h = {}

/-- The value of a longhand that is waiting in the handler. -/
def pending (h : Handler V) (p : Long) : Option V := if p = .thick then h.thick else (h.get p).map (·.1)

/-- `final` from a value. -/
def finalFrom (b : Browser V) (m : V → M) (p : Long) (x : Value M) (ds : List (Decl V)) : Value M := ds.foldl (fun x d => (reads b m p d).getD x) x

theorem finalFrom_append (b : Browser V) (m : V → M) (p : Long) (x : Value M) (a c : List (Decl V)) :
    finalFrom b m p x (a ++ c) = finalFrom b m p (finalFrom b m p x a) c := by simp [finalFrom]

theorem finalFrom_skip (b : Browser V) (m : V → M) (p : Long) (x : Value M) (a : List (Decl V)) (h : ∀ d ∈ a, reads b m p d = none) : finalFrom b m p x a = x := by
  induction a generalizing x with
  | nil => rfl
  | cons d a ih =>
    simp only [finalFrom, List.foldl_cons, h d (by simp), Option.getD_none]
    exact ih x fun e he => h e (by simp [he])

theorem finalFrom_last (b : Browser V) (m : V → M) (p : Long) (x : Value M) (a : List (Decl V)) (d : Decl V) (y : Value M) (h : reads b m p d = some y) :
    finalFrom b m p x (a ++ [d]) = y := by
  rw [finalFrom_append]; simp [finalFrom, h]

variable {env : Env V} {b : Browser V} {m : V → M}

theorem meets_prefixes (hf : Fits env b m) (n : Name) : meets b.known (env.prefixes n Vp.plain) = true := by
  simp [meets, hf.known, hf.prefixes]

theorem meets_plain (hf : Fits env b m) : meets b.known Vp.plain = true := by
  simp [meets, hf.known, Vp.plain]

/-- What a waiting value gives. -/
def over (m : V → M) (x : Value M) (v : Option V) : Value M := match v with
  | some v => .val (m v)
  | none => x

theorem final_single (hf : Fits env b m) {p q : Long} (hp : p ≠ .thick) (x : Value M) {f : Option (V × Vp)} (h : PlainField f) :
    finalFrom b m q x (single env p f) = if p = q then over m x (f.map (·.1)) else x := by
  cases f with
  | none => simp [single, finalFrom, over]
  | some y =>
    obtain ⟨v, vp⟩ := y
    have := h v vp rfl
    subst this
    by_cases hq : p = q
    · subst hq
      simp [single, finalFrom, reads, Vp.plain, Vp.isEmpty, over, hp]
      have := meets_prefixes hf (.long p)
      simp only [Vp.plain] at this
      simp [this]
    · simp [single, finalFrom, reads, Vp.plain, Vp.isEmpty, hq]

theorem final_color (hf : Fits env b m) {p q : Long} (hp : p ≠ .thick) (x : Value M) {f : Option (V × Vp)} (h : PlainField f) :
    finalFrom b m q x (colorProp env p f) = if p = q then over m x (f.map (·.1)) else x := by
  cases f with
  | none => simp [colorProp, finalFrom, over]
  | some y =>
    obtain ⟨v, vp⟩ := y
    have := h v vp rfl
    subst this
    have hn := hf.prefixes (.long p)
    have hm := meets_prefixes hf (.long p)
    have e : colorProp env p (some (v, Vp.plain)) = (env.fallbacks v).1.map (.set p · (env.prefixes (.long p) Vp.plain)) ++ [.set p (env.fallbacks v).2 (env.prefixes (.long p) Vp.plain)] := by
      simp [colorProp, Vp.isEmpty, Vp.plain] at hn ⊢
      simp [hn]
    rw [e]
    by_cases hq : p = q
    · subst hq
      rw [finalFrom_last b m p x _ _ (.val (m v))]
      · simp [over]
      · simp [reads, hp, hm, hf.colors]
    · rw [finalFrom_skip]
      · simp [hq]
      · intro d hd
        simp only [List.mem_append, List.mem_map, List.mem_singleton] at hd
        rcases hd with ⟨_, _, rfl⟩ | rfl <;> simp [reads, hq]

/-- What is written for thickness. -/
def thickOut (env : Env V) (t : V) : List (Decl V) := match env.percent t with
  | some w => [.set .thick w Vp.plain]
  | none => [.set .thick t Vp.plain]

theorem final_thick (hf : Fits env b m) (q : Long) (x : Value M) (t : V) : finalFrom b m q x (thickOut env t) = if q = .thick then .val (m t) else x := by
  unfold thickOut
  cases h : env.percent t with
  | none =>
    have := hf.keep t h
    by_cases hq : q = .thick
    · subst hq; simp [finalFrom, reads, this]
    · simp [finalFrom, reads, hq, Ne.symm hq]
  | some w =>
    obtain ⟨h1, h2⟩ := hf.compile t w h
    by_cases hq : q = .thick
    · subst hq; simp [finalFrom, reads, h1, h2]
    · simp [finalFrom, reads, hq, Ne.symm hq]

/-- The values of `text-decoration`. -/
def decoVal (m : V → M) (x : Value M) (l t s c : V) : Long → Value M
  | .line => .val (m l)
  | .thick => .val (m t)
  | .style => .val (m s)
  | .color => .val (m c)
  | _ => x

theorem reads_deco (hf : Fits env b m) {vp : Vp} (hv : meets b.known vp = true) (q : Long) (x : Value M) (l t s c : V) (ht : t = env.dflt .thick ∨ env.thickInShorthand = true) :
    (reads b m q (.deco l t s c vp)).getD x = decoVal m x l t s c q := by
  have : t = b.auto ∨ b.thickInShorthand = true ∧ b.thickOk t = true := by
    rcases ht with rfl | h
    · exact .inl hf.auto.symm
    · exact .inr ⟨(hf.short h).1, (hf.short h).2 t⟩
  cases q <;> simp [reads, hv, this, decoVal]

theorem decoVal_again (m : V → M) (x : Value M) (l t s c l' t' s' c' : V) (q : Long) :
    decoVal m (decoVal m x l t s c q) l' t' s' c' q = decoVal m x l' t' s' c' q := by cases q <;> rfl

theorem decoVal_color (hf : Fits env b m) (x : Value M) (l t s c : V) (q : Long) : decoVal m x l t s (env.fallbacks c).2 q = decoVal m x l t s c q := by
  cases q <;> simp [decoVal, hf.colors]

theorem final_decoOut (hf : Fits env b m) (q : Long) (x : Value M) (l t s c : V) :
    finalFrom b m q x (decoOut env l t s c Vp.plain) = decoVal m x l (if env.thickInShorthand then t else env.dflt .thick) s c q := by
  have ht : (if env.thickInShorthand then t else env.dflt .thick) = env.dflt .thick ∨ env.thickInShorthand = true := by
    cases env.thickInShorthand <;> simp
  have hfb : ∀ (fb : List V) (x : Value M), finalFrom b m q x (fb.map (Decl.deco l (if env.thickInShorthand then t else env.dflt .thick) s · (env.prefixes .deco Vp.plain)) ++
      [.deco l (if env.thickInShorthand then t else env.dflt .thick) s (env.fallbacks c).2 (env.prefixes .deco Vp.plain)]) =
      decoVal m x l (if env.thickInShorthand then t else env.dflt .thick) s c q := by
    intro fb
    induction fb with
    | nil =>
      intro x
      simp only [List.map_nil, List.nil_append, finalFrom, List.foldl_cons, List.foldl_nil]
      rw [reads_deco hf (meets_prefixes hf _) _ _ _ _ _ _ ht, decoVal_color hf]
    | cons f fb ih =>
      intro x
      simp only [List.map_cons, List.cons_append, finalFrom, List.foldl_cons] at ih ⊢
      rw [ih, reads_deco hf (meets_prefixes hf _) _ _ _ _ _ _ ht, decoVal_again]
  unfold decoOut
  simp only
  split
  · exact hfb _ x
  · simp only [finalFrom, List.foldl_cons, List.foldl_nil]
    exact reads_deco hf (meets_plain hf) _ _ _ _ _ _ ht

theorem single_gone (p : Long) (v : V) : single env p (some (v, Vp.plain.remove Vp.plain)) = [] := by simp [single, Vp.remove, Vp.plain, Vp.isEmpty]
theorem color_gone (p : Long) (v : V) : colorProp env p (some (v, Vp.plain.remove Vp.plain)) = [] := by simp [colorProp, Vp.remove, Vp.plain, Vp.isEmpty]

/-- The longhands of `text-decoration`. -/
def isDeco (p : Long) : Bool := p = .line || p = .thick || p = .style || p = .color

theorem final_decoration (hf : Fits env b m) (h : Handler V) (hp : PlainSt h) (q : Long) (x : Value M) :
    finalFrom b m q x (decoration env h) = if isDeco q then over m x (pending h q) else x := by
  have h1 := hp.fields .line
  have h2 := hp.fields .style
  have h3 := hp.fields .color
  simp only [Handler.get] at h1 h2 h3
  have hgen : finalFrom b m q x (single env .line h.line ++ single env .style h.style ++ colorProp env .color h.color ++ match h.thick with
      | some t => thickOut env t
      | none => []) = if isDeco q then over m x (pending h q) else x := by
    rw [finalFrom_append, finalFrom_append, finalFrom_append, final_single hf (by simp) _ h1, final_single hf (by simp) _ h2, final_color hf (by simp) _ h3]
    cases ht : h.thick with
    | none => cases q <;> simp [finalFrom, isDeco, pending, Handler.get, ht, over]
    | some t =>
      simp only
      rw [final_thick hf]
      cases q <;> simp [isDeco, pending, Handler.get, ht, over]
  have hu : decoration env h = match h.line, h.thick, h.style, h.color with
      | some (l, lvp), some t, some (s, svp), some (c, cvp) =>
        if ((lvp.or svp).or cvp).isEmpty then single env .line h.line ++ single env .style h.style ++ colorProp env .color h.color ++ thickOut env t
        else
          decoOut env l t s c ((lvp.or svp).or cvp) ++ single env .line (some (l, lvp.remove ((lvp.or svp).or cvp))) ++ single env .style (some (s, svp.remove ((lvp.or svp).or cvp))) ++
            colorProp env .color (some (c, cvp.remove ((lvp.or svp).or cvp))) ++ (if env.thickInShorthand ∨ t = env.dflt .thick then [] else thickOut env t)
      | _, _, _, _ => single env .line h.line ++ single env .style h.style ++ colorProp env .color h.color ++
          match h.thick with
          | some t => thickOut env t
          | none => [] := rfl
  rw [hu]
  split
  · next l lvp t s svp c cvp e1 e2 e3 e4 =>
    have := h1 _ _ e1
    subst this
    have := h2 _ _ e3
    subst this
    have := h3 _ _ e4
    subst this
    have e : (Vp.plain.or Vp.plain).or Vp.plain = Vp.plain := rfl
    rw [e, if_neg (by simp [Vp.plain, Vp.isEmpty]), single_gone, single_gone, color_gone, List.append_nil, List.append_nil, List.append_nil, finalFrom_append, final_decoOut hf]
    by_cases hs : env.thickInShorthand = true ∨ t = env.dflt .thick
    · rw [if_pos hs]
      have : (if env.thickInShorthand = true then t else env.dflt .thick) = t := by
        rcases hs with hs | hs
        · simp [hs]
        · subst hs; split <;> rfl
      rw [this]
      cases q <;> simp [finalFrom, decoVal, isDeco, pending, Handler.get, over, e1, e2, e3, e4]
    · rw [if_neg hs, final_thick hf]
      cases q <;> simp [decoVal, isDeco, pending, Handler.get, over, e1, e2, e3, e4]
  · exact hgen

/-- The longhands of `text-emphasis`. -/
def isEmph (p : Long) : Bool := p = .emStyle || p = .emColor

/-- The values of `text-emphasis`. -/
def emphVal (m : V → M) (x : Value M) (s c : V) : Long → Value M
  | .emStyle => .val (m s)
  | .emColor => .val (m c)
  | _ => x

theorem reads_emph {vp : Vp} (hv : meets b.known vp = true) (q : Long) (x : Value M) (s c : V) :
    (reads b m q (.emph s c vp)).getD x = emphVal m x s c q := by
  cases q <;> simp [reads, hv, emphVal]

theorem final_emphasis (hf : Fits env b m) (h : Handler V) (hp : PlainSt h) (q : Long) (x : Value M) :
    finalFrom b m q x (emphasis env h) = if isEmph q then over m x (pending h q) else x := by
  have h2 := hp.fields .emStyle
  have h3 := hp.fields .emColor
  simp only [Handler.get] at h2 h3
  have hgen : finalFrom b m q x (single env .emStyle h.emStyle ++ colorProp env .emColor h.emColor) = if isEmph q then over m x (pending h q) else x := by
    rw [finalFrom_append, final_single hf (by simp) _ h2, final_color hf (by simp) _ h3]
    cases q <;> simp [isEmph, pending, Handler.get]
  unfold emphasis
  split
  · next s svp c cvp e3 e4 =>
    have := h2 _ _ e3
    subst this
    have := h3 _ _ e4
    subst this
    have e : Vp.plain.or Vp.plain = Vp.plain := rfl
    simp only [e]
    rw [if_neg (by simp [Vp.plain, Vp.isEmpty]), single_gone, color_gone, List.append_nil, List.append_nil, if_pos (hf.prefixes _)]
    have hfb : ∀ (fb : List V) (x : Value M), finalFrom b m q x (fb.map (Decl.emph s · (env.prefixes .emph Vp.plain)) ++ [.emph s (env.fallbacks c).2 (env.prefixes .emph Vp.plain)]) =
        emphVal m x s c q := by
      intro fb
      induction fb with
      | nil =>
        intro x
        simp only [List.map_nil, List.nil_append, finalFrom, List.foldl_cons, List.foldl_nil]
        rw [reads_emph (meets_prefixes hf _)]
        cases q <;> simp [emphVal, hf.colors]
      | cons f fb ih =>
        intro x
        simp only [List.map_cons, List.cons_append, finalFrom, List.foldl_cons] at ih ⊢
        rw [ih, reads_emph (meets_prefixes hf _)]
        cases q <;> rfl
    rw [hfb]
    cases q <;> simp [emphVal, isEmph, pending, Handler.get, over, e3, e4]
  · exact hgen

theorem final_position (hf : Fits env b m) (h : Handler V) (hp : PlainSt h) (q : Long) (x : Value M) :
    finalFrom b m q x (position env h.emPosition) = if q = .emPosition then over m x (pending h q) else x := by
  have h1 := hp.fields .emPosition
  simp only [Handler.get] at h1
  cases e : h.emPosition with
  | none => cases q <;> simp [position, finalFrom, pending, Handler.get, e, over]
  | some y =>
    obtain ⟨v, vp⟩ := y
    have := h1 v vp e
    subst this
    have hm : meets b.known (if env.right v = true then env.prefixes (.long .emPosition) Vp.plain else Vp.plain) = true := by
      split
      · exact meets_prefixes hf _
      · exact meets_plain hf
    have e' : position env (some (v, Vp.plain)) = [.set .emPosition v (if env.right v then env.prefixes (.long .emPosition) Vp.plain else Vp.plain)] := by
      simp [position, Vp.plain, Vp.isEmpty]
    rw [e']
    by_cases hq : q = .emPosition
    · subst hq
      simp [finalFrom, reads, hm, pending, Handler.get, e, over]
    · simp [finalFrom, reads, hq, Ne.symm hq]

/-- What is flushed is what was waiting. -/
theorem final_finalize (hf : Fits env b m) (h : Handler V) (hp : PlainSt h) (q : Long) (x : Value M) :
    finalFrom b m q x (finalize env h).1 = over m x (pending h q) := by
  unfold finalize
  split
  · next ha =>
    rw [hp.any ha]
    cases q <;> simp [finalFrom, pending, Handler.get, over]
  · rw [finalFrom_append, finalFrom_append, final_decoration hf h hp, final_emphasis hf h hp, final_position hf h hp]
    cases q <;> simp [isDeco, isEmph]

theorem finalize_init (h : Handler V) (hp : PlainSt h) : (finalize env h).2 = {} := by
  unfold finalize
  split
  · next ha => exact hp.any ha
  · rfl

theorem init_plain : PlainSt ({} : Handler V) := ⟨by intro p; cases p <;> simp [Handler.get, PlainField], fun _ => rfl⟩

/-- Without prefixes nothing is flushed early. -/
theorem maybeFlush_plain (p : Long) (v : V) (r : Run V) (hp : PlainSt r.2) : maybeFlush env p v Vp.plain r = r := by
  unfold maybeFlush
  split
  · next w q e =>
    have := hp.fields p w q e
    subst this
    simp [Vp.contains, Vp.plain]
  · rfl

theorem property_plain (p : Long) (hpt : p ≠ .thick) (v : V) (r : Run V) (hp : PlainSt r.2) :
    property env p v Vp.plain r = (r.1, r.2.put p (v, Vp.plain)) := by
  unfold property
  simp only [maybeFlush_plain p v r hp]
  split
  · next w q e =>
    have hq := hp.fields p w q e
    subst hq
    have ha : r.2.any = true := by
      cases ha : r.2.any with
      | true => rfl
      | false =>
        rw [hp.any ha] at e
        cases p <;> simp [Handler.get] at e
    have : Vp.plain.or Vp.plain = Vp.plain := rfl
    rw [this]
    cases p <;> simp_all [Handler.put]
  · rfl

theorem put_plain (p : Long) (hpt : p ≠ .thick) (v : V) (h : Handler V) (hp : PlainSt h) : PlainSt (h.put p (v, Vp.plain)) := by
  refine ⟨fun q => ?_, ?_⟩
  · have := hp.fields q
    intro w vp e
    have h0 := fun e => this w vp e
    cases p <;> cases q <;> simp_all [Handler.put, Handler.get]
  · cases p <;> simp_all [Handler.put]

theorem thick_plain (t : V) (h : Handler V) (hp : PlainSt h) : PlainSt { h with thick := some t, any := true } :=
  ⟨fun q => by have := hp.fields q; cases q <;> exact this, by simp⟩

theorem pending_put (p q : Long) (hpt : p ≠ .thick) (v : V) (h : Handler V) : pending (h.put p (v, Vp.plain)) q = if q = p then some v else pending h q := by
  cases p <;> cases q <;> simp_all [pending, Handler.put, Handler.get]

/-- One declaration: the state stays plain, and what is written and what waits together are what the ideal browser has read. -/
theorem handle_step (hf : Fits env b m) (r : Run V) (hp : PlainSt r.2) (d : Decl V) (hd : Plain d) :
    PlainSt (handle env r d).2 ∧ ∀ q x, over m (finalFrom b m q x (handle env r d).1) (pending (handle env r d).2 q) =
      (reads b.ideal m q d).getD (over m (finalFrom b m q x r.1) (pending r.2 q)) := by
  have hk : meets b.ideal.known Vp.plain = true := meets_plain (b := b) hf
  cases d with
  | set p v vp =>
    have hv : vp = Vp.plain := hd
    subst hv
    by_cases hpt : p = .thick
    · subst hpt
      refine ⟨thick_plain v _ hp, fun q x => ?_⟩
      cases q <;> simp [handle, pending, reads, Browser.ideal, Handler.get, over]
    · have e : handle env r (.set p v Vp.plain) = (r.1, r.2.put p (v, Vp.plain)) := by
        rw [← property_plain p hpt v r hp]
        cases p <;> first | rfl | exact absurd rfl hpt
      rw [e]
      refine ⟨put_plain p hpt v _ hp, fun q x => ?_⟩
      simp only [pending_put p q hpt]
      by_cases hq : q = p
      · subst hq; simp [reads, hk, hpt, over]
      · simp [reads, hq, Ne.symm hq]
  | deco l t s c vp =>
    have hv : vp = Vp.plain := hd
    subst hv
    have p1 := put_plain .line (by simp) l _ hp
    have p2 : PlainSt ({ r.2.put .line (l, Vp.plain) with thick := some t } : Handler V) := by
      have := thick_plain t _ p1
      simpa [Handler.put] using this
    have p3 := put_plain .style (by simp) s _ p2
    have p4 := put_plain .color (by simp) c _ p3
    have e : handle env r (.deco l t s c Vp.plain) = (r.1, (({ r.2.put .line (l, Vp.plain) with thick := some t } : Handler V).put .style (s, Vp.plain)).put .color (c, Vp.plain)) := by
      simp only [handle]
      rw [maybeFlush_plain _ _ r hp, maybeFlush_plain _ _ r hp, maybeFlush_plain _ _ r hp, property_plain .line (by simp) l r hp,
        property_plain .style (by simp) s _ p2, property_plain .color (by simp) c _ p3]
    rw [e]
    refine ⟨p4, fun q x => ?_⟩
    have : t = b.ideal.auto ∨ b.ideal.thickInShorthand = true ∧ b.ideal.thickOk t = true := .inr ⟨rfl, rfl⟩
    cases q <;> simp [reads, hk, this, pending, Handler.put, Handler.get, over]
  | emph s c vp =>
    have hv : vp = Vp.plain := hd
    subst hv
    have p3 := put_plain .emStyle (by simp) s _ hp
    have p4 := put_plain .emColor (by simp) c _ p3
    have e : handle env r (.emph s c Vp.plain) = (r.1, (r.2.put .emStyle (s, Vp.plain)).put .emColor (c, Vp.plain)) := by
      simp only [handle]
      rw [maybeFlush_plain _ _ r hp, maybeFlush_plain _ _ r hp, property_plain .emStyle (by simp) s r hp, property_plain .emColor (by simp) c _ p3]
    rw [e]
    refine ⟨p4, fun q x => ?_⟩
    cases q <;> simp [reads, hk, pending, Handler.put, Handler.get, over]
  | raw n vp u =>
    have hv : vp = Vp.plain := hd
    subst hv
    simp only [handle, finalize_init r.2 hp]
    refine ⟨init_plain, fun q x => ?_⟩
    rw [finalFrom_append, finalFrom_append, final_finalize hf r.2 hp]
    have h0 : pending ({} : Handler V) q = none := by cases q <;> rfl
    rw [h0]
    simp only [over, finalFrom, List.foldl_cons, List.foldl_nil]
    congr 1
    have hm := fun n => meets_prefixes hf n
    cases n with
    | long p =>
      by_cases hpt : p = .thick
      · subst hpt; simp [reads]
      · simp only [reads, hk, or_true, if_true]
        rw [if_pos]
        · right
          rw [if_neg (by simpa using hpt)]
          exact hm _
    | deco => simp [reads, hk, hm]
    | emph => simp [reads, hk, hm]

theorem run_final (hf : Fits env b m) (ds : List (Decl V)) : ∀ r : Run V, PlainSt r.2 → (∀ d ∈ ds, Plain d) →
    PlainSt (ds.foldl (handle env) r).2 ∧ ∀ q x, over m (finalFrom b m q x (ds.foldl (handle env) r).1) (pending (ds.foldl (handle env) r).2 q) =
      finalFrom b.ideal m q (over m (finalFrom b m q x r.1) (pending r.2 q)) ds := by
  induction ds with
  | nil => intro r hp _; exact ⟨hp, fun q x => rfl⟩
  | cons d ds ih =>
    intro r hp hd
    obtain ⟨h1, h2⟩ := handle_step hf r hp d (hd d (by simp))
    obtain ⟨h3, h4⟩ := ih _ h1 fun e he => hd e (by simp [he])
    refine ⟨h3, fun q x => ?_⟩
    rw [List.foldl_cons, h4, h2]
    rfl

/-- **C195.** Minifying unprefixed declarations of text decorations and text emphasis: every browser that the targets are right about has for every longhand
the value that a browser that reads all values takes from the source. What is missing: sources with prefixes, see the theorems `…_wrong`. -/
theorem decoration_partial (hf : Fits env b m) (ds : List (Decl V)) (hd : ∀ d ∈ ds, Plain d) (p : Long) : final b m p (minify env ds) = final b.ideal m p ds := by
  obtain ⟨h1, h2⟩ := run_final hf ds ([], {}) init_plain hd
  have := h2 p .before
  simp only [minify]
  change finalFrom b m p .before _ = finalFrom b.ideal m p .before ds
  rw [finalFrom_append, final_finalize hf _ h1, this]
  cases p <;> rfl

/-- An environment: value 0 is the default everywhere; thickness must not be in the shorthand; `-webkit-` is added; colour 9 is changed to 8 and has the
fallback 7; thickness 5 is compiled to 6. -/
def exampleEnv : Env Nat where
  dflt _ := 0
  thickInShorthand := false
  prefixes _ vp := if vp.none then { vp with webkit := true } else vp
  fallbacks v := if v = 9 then ([7], 8) else ([], v)
  percent v := if v = 5 then some 6 else none
  right v := v = 0

/-- 8 is another way to write 9, and 6 is another way to write 5. -/
def exampleMeaning (v : Nat) : Nat := if v = 8 then 9 else if v = 6 then 5 else v

/-- A browser that does not read thickness in the shorthand, nor the value 5. -/
def exampleBrowser : Browser Nat := ⟨⟨true, false, false⟩, false, (· ≠ 5), 0⟩

example : Fits exampleEnv exampleBrowser exampleMeaning where
  known := rfl
  auto := rfl
  short := by simp [exampleEnv]
  keep := by intro v; simp [exampleEnv, exampleBrowser]
  compile := by
    intro v w h
    simp only [exampleEnv] at h
    split at h
    · next e => cases h; subst e; decide
    · simp at h
  prefixes := by intro n; rfl
  colors := by
    intro v
    simp only [exampleEnv]
    split
    · next e => subst e; decide
    · rfl

/-- `text-decoration: 1 5 2 9; text-decoration-style: 3` is written as the shorthand without thickness, with a fallback, and the thickness. -/
example : minify exampleEnv [.deco 1 5 2 9 Vp.plain, .set .style 3 Vp.plain] =
    [.deco 1 0 3 7 ⟨true, true, false⟩, .deco 1 0 3 8 ⟨true, true, false⟩, .set .thick 6 Vp.plain] := by decide

/-- All targets read everything and no prefixes are needed. -/
def modernEnv : Env Nat where
  dflt _ := 0
  thickInShorthand := true
  prefixes _ vp := vp
  fallbacks v := ([], v)
  percent _ := none
  right v := v = 0

/-- A modern browser. -/
def modernBrowser : Browser Nat := ⟨⟨true, false, false⟩, true, fun _ => true, 0⟩

/-- `-webkit-` only. -/
def webkit : Vp := ⟨false, true, false⟩

/-- `-webkit-text-decoration: 1; text-decoration-thickness: 2` loses the thickness: it is moved into the prefixed shorthand. -/
theorem thickness_lost_wrong : minify modernEnv [.deco 1 0 0 0 webkit, .set .thick 2 Vp.plain] = [.deco 1 2 0 0 webkit] ∧
    final modernBrowser id .thick [.deco 1 0 0 0 webkit, .set .thick 2 Vp.plain] = .val 2 ∧
    final modernBrowser id .thick [.deco 1 2 0 0 webkit] = .before := by decide

/-- `text-decoration: 1 2; -webkit-text-decoration: 1` loses the thickness too: it is overwritten, as if it had the prefix. -/
theorem thickness_overwritten_wrong : minify modernEnv [.deco 1 2 0 0 Vp.plain, .deco 1 0 0 0 webkit] = [.deco 1 0 0 0 ⟨true, true, false⟩] ∧
    final modernBrowser id .thick [.deco 1 2 0 0 Vp.plain, .deco 1 0 0 0 webkit] = .val 2 ∧
    final modernBrowser id .thick [.deco 1 0 0 0 ⟨true, true, false⟩] = .val 0 := by decide

/-- `-webkit-text-decoration-line: 1` with unprefixed other longhands sets the unprefixed line: the prefixes are joined where they should be intersected. -/
theorem prefix_union_wrong : minify modernEnv [.set .line 1 webkit, .set .thick 2 Vp.plain, .set .style 3 Vp.plain, .set .color 4 Vp.plain] = [.deco 1 2 3 4 Vp.plain] ∧
    final modernBrowser id .line [.set .line 1 webkit, .set .thick 2 Vp.plain, .set .style 3 Vp.plain, .set .color 4 Vp.plain] = .before ∧
    final modernBrowser id .line [.deco 1 2 3 4 Vp.plain] = .val 1 := by decide

/-- The same for `text-emphasis`. -/
theorem emphasis_union_wrong : minify modernEnv [.set .emStyle 1 webkit, .set .emColor 2 Vp.plain] = [.emph 1 2 ⟨true, true, false⟩] ∧
    final modernBrowser id .emStyle [.set .emStyle 1 webkit, .set .emColor 2 Vp.plain] = .before := by decide

/-- `-webkit-text-emphasis-position: 1` (not `right`) loses its prefix. -/
theorem position_prefix_wrong : minify modernEnv [.set .emPosition 1 webkit] = [.set .emPosition 1 Vp.plain] ∧
    final modernBrowser id .emPosition [.set .emPosition 1 webkit] = .before ∧ final modernBrowser id .emPosition [.set .emPosition 1 Vp.plain] = .val 1 := by decide

/-! ## `text-align` -/

theorem align_own (as : List Align) (o : AlignOut) : as.foldl (alignOne false) o = { o with own := o.own ++ as } := by
  induction as generalizing o with
  | nil => simp
  | cons a as ih => rw [List.foldl_cons, ih]; cases a <;> simp [alignOne]

theorem align_logical (compile : Bool) (as : List Align) (h : ∀ a ∈ as, a = .start ∨ a = .end) (rtl : Bool) :
    (alignAll compile as).result rtl = lastAlign rtl as := by
  cases compile with
  | false => simp [alignAll, align_own, AlignOut.result, lastAlign]
  | true =>
    have key : ∀ o : AlignOut, as.foldl (alignOne true) o = ⟨o.own, o.ltr ++ as.map (Align.meaning false), o.rtl ++ as.map (Align.meaning true)⟩ := by
      induction as with
      | nil => intro o; simp
      | cons a as ih =>
        intro o
        rw [List.foldl_cons, ih fun x hx => h x (by simp [hx])]
        rcases h a (by simp) with rfl | rfl <;> simp [alignOne, Align.meaning]
    rw [alignAll, key]
    simp only [AlignOut.result, List.nil_append, lastAlign, List.getLast?_nil, Option.map_none, Option.or_none]
    have idem : ∀ a ∈ as, Align.meaning rtl (Align.meaning rtl a) = Align.meaning rtl a := by
      intro a _; cases a <;> cases rtl <;> rfl
    cases rtl <;> simp only [Bool.false_eq_true, if_true, if_false, List.getLast?_map, Option.map_map] <;>
      (cases e : as.getLast? with
       | none => rfl
       | some a => simp [idem a (List.mem_of_getLast? e)])

/-- **C196.** `text-align` has its value in both directions, with and without targets that know `start` and `end`, if all its declarations in the block are logical or
none is. What is missing: see `align_order_wrong`. -/
theorem align_partial (compile : Bool) (as : List Align) (h : (∀ a ∈ as, a = .start ∨ a = .end) ∨ ∀ a ∈ as, a ≠ .start ∧ a ≠ .end) (rtl : Bool) :
    (alignAll compile as).result rtl = lastAlign rtl as := by
  rcases h with h | h
  · exact align_logical compile as h rtl
  · have key : ∀ o : AlignOut, as.foldl (alignOne compile) o = { o with own := o.own ++ as } := by
      induction as with
      | nil => intro o; simp
      | cons a as ih =>
        intro o
        rw [List.foldl_cons, ih fun x hx => h x (by simp [hx])]
        have := h a (by simp)
        cases a <;> simp_all [alignOne]
    rw [alignAll, key]
    cases rtl <;> simp [AlignOut.result, lastAlign]

example : (alignAll true [.end, .start]).result true = some .right := rfl

/-- The values that are written for targets without logical values are physical. -/
theorem align_physical (as : List Align) : ∀ a ∈ (alignAll true as).own ++ (alignAll true as).ltr ++ (alignAll true as).rtl, a ≠ .start ∧ a ≠ .end := by
  have key : ∀ o : AlignOut, (∀ a ∈ o.own ++ o.ltr ++ o.rtl, a ≠ .start ∧ a ≠ .end) →
      ∀ a ∈ (as.foldl (alignOne true) o).own ++ (as.foldl (alignOne true) o).ltr ++ (as.foldl (alignOne true) o).rtl, a ≠ .start ∧ a ≠ .end := by
    induction as with
    | nil => intro o h; exact h
    | cons a as ih =>
      intro o h
      rw [List.foldl_cons]
      apply ih
      intro x hx
      cases a <;> simp only [alignOne, if_true, List.mem_append, List.mem_singleton] at hx <;> simp only [List.mem_append] at h <;> grind
  exact key ⟨[], [], []⟩ (by simp)

/-- `text-align: start; text-align: center` is compiled to rules in which `start` wins. -/
theorem align_order_wrong : (alignAll true [.start, .center]).result false = some .left ∧ lastAlign false [.start, .center] = some .center := ⟨rfl, rfl⟩

end Verif.TextDeco
