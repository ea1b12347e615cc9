import Verif.SelPrint.Good
/-!
# Lists, and all components
-/
namespace Verif.SelPrint
open Verif.SelParse

variable {v : Opts} {D : Drop} {p : Style}

/-- The pieces of a list that is printed after `w`. -/
def piecesOf (p : Style) (w : List Tok) : List (List Tok) → List (List Tok)
  | [] => [w]
  | t :: l => (w ++ t) :: l.map (p.ws ++ ·)

theorem ws_allWs : AllWs p.ws := by
  unfold Style.ws AllWs; split <;> simp

theorem comma_ws {w : List Tok} (h : AllWs w) : Tok.comma ∉ w := fun hc => by have := h _ hc; simp at this

theorem join_pieces (w : List Tok) (ts : List (List Tok)) : w ++ joinToks p ts = [Tok.comma].intercalate (piecesOf p w ts) := by
  cases ts with
  | nil => simp [joinToks, piecesOf, List.intercalate]
  | cons t l =>
    induction l generalizing w t with
    | nil => simp [joinToks, piecesOf, List.intercalate]
    | cons t' l ih =>
      simp only [joinToks, piecesOf, List.map_cons]
      rw [intercalate_cons2]
      have := ih p.ws t'
      simp only [piecesOf] at this
      rw [← this]
      simp

theorem pieces_join {w : List Tok} (hw : AllWs w) {ts : List (List Tok)} (h : ∀ t ∈ ts, Tok.comma ∉ t) : Pieces (piecesOf p w ts) (w ++ joinToks p ts) := by
  refine ⟨by cases ts <;> simp [piecesOf], ?_, join_pieces w ts⟩
  intro q hq
  cases ts with
  | nil => simp only [piecesOf, List.mem_singleton] at hq; subst hq; exact comma_ws hw
  | cons t l =>
    simp only [piecesOf, List.mem_cons, List.mem_map] at hq
    rcases hq with rfl | ⟨t', ht', rfl⟩
    · simp only [List.mem_append, not_or]; exact ⟨comma_ws hw, h t (by simp)⟩
    · simp only [List.mem_append, not_or]; exact ⟨comma_ws ws_allWs, h t' (by simp [ht'])⟩

theorem reads_nil' {cx : Cx} {inh : List Comp} {s : Sel} (h : ReadsS code D v cx inh .no [] s []) : False := by
  have := (selector_iff cx inh false s (ts := []) (by simp)).2 ⟨[], [], rfl, by simp [AllWs], h⟩
  cases s with
  | nil => rw [readsS_nil, noncomb_iff, loneNesting_iff] at h; simp [phase] at h
  | cons c s =>
    rw [readsS_cons] at h
    obtain ⟨a, b, e, h1, h2, _⟩ := h
    have ea : a = [] := (List.append_eq_nil_iff.1 e.symm).1
    subst ea
    cases hc : c.isSimple with
    | true =>
      obtain ⟨t', a', e, _⟩ := reads_simple_head hc h2
      simp at e
    | false =>
      cases c <;> simp [Comp.isSimple] at hc
      · have := h1.2.2; simp at this
      · simp only [ReadsC] at h2
        obtain ⟨t', x, e', q3⟩ := type_head _ _
        rw [e'] at h2
        simp at h2

theorem drop_ws (hD : Forgiving code v D) (cx : Cx) (inh : List Comp) (rel : Bool) {w : List Tok} (hw : AllWs w) : D cx inh rel w := by
  have key : ∀ r x : List Tok, ∀ s, w = x ++ r → ReadsS code D v cx inh .no [] s r → False := by
    intro r x s e h
    have hr : AllWs r := fun t ht => hw t (by rw [e]; simp [ht])
    have hn := reads_notWs r s h
    cases r with
    | nil => exact reads_nil' h
    | cons t r =>
      have := hr t (by simp)
      subst this
      exact hn r rfl
  have h := hD cx inh w
  cases rel with
  | false =>
    rw [h.1]
    rintro s ⟨x, r, e, _, h | ⟨c, hc, _⟩⟩
    · exact key r x s e h
    · simp at hc
  | true =>
    rw [h.2]
    rintro s ⟨x, r, e, _, h | ⟨c, hc, h⟩⟩
    · exact key r x s e h
    · rw [readsS_scope] at h
      obtain ⟨k, ch, w', r', s', _, _, rfl, _⟩ := h
      have := hw (.delim ch) (by rw [e]; simp)
      simp at this

/-- How one selector of a list is read. -/
structure GoodPiece (v : Opts) (D : Drop) (p : Style) (cx : Cx) (g : Sig) (rel : Option Comp) (prel : Bool) (s s' : List Comp) : Prop where
  reads : ∀ cx' inh, Le cx cx' → sig inh = g → ∃ w r, prS p prel s = w ++ r ∧ AllWs w ∧
    (ReadsS code D v cx' inh .no [] s' r ∨ ∃ c, rel = some c ∧ ReadsS code D v cx' inh (.scope c) [] s' r)
  comma : Tok.comma ∉ prS p prel s
  means : ∀ (E : Type) (M : Meaning E) P, afterAll M s' P = afterAll M s P

theorem prL_map (rel : Bool) (l : List (List Comp)) : prL p rel l = l.map (prS p rel) := by
  induction l with
  | nil => simp [prL]
  | cons s l ih => simp [prL, ih, prS]

theorem matchL_map {E : Type} (M : Meaning E) (l : List (List Comp)) : matchL M l = l.map (Matches M) := by
  induction l with
  | nil => simp [matchL]
  | cons s l ih => simp [matchL, ih, Matches]

/-- A list of selectors. -/
structure GoodList (v : Opts) (D : Drop) (p : Style) (cx : Cx) (g : Sig) (f : Bool) (rel : Option Comp) (prel : Bool) (l l' : List (List Comp)) : Prop where
  reads : ∀ cx' inh w, Le cx cx' → sig inh = g → AllWs w → ReadsP code D v cx' inh f rel l' (piecesOf p w (prL p prel l))
  comma : ∀ t ∈ prL p prel l, Tok.comma ∉ t
  means : ∀ (E : Type) (M : Meaning E), matchL M l' = matchL M l

theorem good_list (hD : Forgiving code v D) {cx : Cx} {g : Sig} {f : Bool} {rel : Option Comp} {prel : Bool} (l : List (List Comp)) (hf : f = true ∨ l ≠ [])
    (h : ∀ s ∈ l, ∃ s', GoodPiece v D p cx g rel prel s s') : ∃ l', GoodList v D p cx g f rel prel l l' := by
  have tail : ∀ l : List (List Comp), (∀ s ∈ l, ∃ s', GoodPiece v D p cx g rel prel s s') → ∃ l' : List (List Comp),
      (∀ cx' inh, Le cx cx' → sig inh = g → ReadsP code D v cx' inh f rel l' ((prL p prel l).map (p.ws ++ ·))) ∧ (∀ t ∈ prL p prel l, Tok.comma ∉ t) ∧
      ∀ (E : Type) (M : Meaning E), matchL M l' = matchL M l := by
    intro l
    induction l with
    | nil => intro _; exact ⟨[], by simp [prL, ReadsP], by simp [prL], fun _ _ => rfl⟩
    | cons s l ih =>
      intro h
      obtain ⟨s', h1⟩ := h s (by simp)
      obtain ⟨l', h2, h3, h4⟩ := ih fun x hx => h x (by simp [hx])
      refine ⟨s' :: l', ?_, ?_, ?_⟩
      · intro cx' inh hle hs
        obtain ⟨w, r, e, hw, hr⟩ := h1.reads cx' inh hle hs
        simp only [prL, List.map_cons, ReadsP]
        refine ⟨[], p.ws ++ w, r, _, ?_, by simp, allWs_append.2 ⟨ws_allWs, hw⟩, hr, h2 cx' inh hle hs⟩
        have e' : assemble p prel (items p s) = w ++ r := e
        rw [e']
        simp
      · intro t ht
        simp only [prL, List.mem_cons] at ht
        rcases ht with rfl | ht
        · exact h1.comma
        · exact h3 t ht
      · intro E M
        simp only [matchL, h4, h1.means]
  cases l with
  | nil =>
    refine ⟨[], ?_, by simp [prL], fun _ _ => rfl⟩
    intro cx' inh w _ _ hw
    simp only [prL, piecesOf, ReadsP]
    intro q hq
    simp only [List.mem_singleton] at hq
    subst hq
    exact ⟨by simpa using hf, drop_ws hD _ _ _ hw⟩
  | cons s l =>
    obtain ⟨s', h1⟩ := h s (by simp)
    obtain ⟨l', h2, h3, h4⟩ := tail l fun x hx => h x (by simp [hx])
    refine ⟨s' :: l', ?_, ?_, ?_⟩
    · intro cx' inh w₀ hle hs hw₀
      obtain ⟨w, r, e, hw, hr⟩ := h1.reads cx' inh hle hs
      simp only [prL, piecesOf, ReadsP]
      refine ⟨[], w₀ ++ w, r, _, ?_, by simp, allWs_append.2 ⟨hw₀, hw⟩, hr, h2 cx' inh hle hs⟩
      have e' : assemble p prel (items p s) = w ++ r := e
      rw [e']
      simp
    · intro t ht
      simp only [prL, List.mem_cons] at ht
      rcases ht with rfl | ht
      · exact h1.comma
      · exact h3 t ht
    · intro E M
      simp only [matchL, h4, h1.means]

theorem goodPiece_of {cx : Cx} {g : Sig} {rel : Option Comp} {s s' : List Comp} (h : GoodSel v D p cx g s s') : GoodPiece v D p cx g rel false s s' :=
  ⟨fun cx' inh hle hs => ⟨[], _, rfl, by simp [AllWs], .inl (h.reads cx' inh hle hs)⟩, h.comma, h.means⟩

theorem goodPiece_rel {cx : Cx} {g : Sig} {rel : Option Comp} {s s' : List Comp} (h : GoodSel v D p cx g s s') (hn : NoScope s) : GoodPiece v D p cx g rel true s s' := by
  refine ⟨fun cx' inh hle hs => ⟨[], prS p true s, rfl, by simp [AllWs], .inl ?_⟩, ?_, h.means⟩
  · rw [prS_rel hn]; exact h.reads cx' inh hle hs
  · rw [prS_rel hn]; exact h.comma

theorem goodPiece_scope {cx : Cx} {g : Sig} {k : Comb} (hk : k ≠ .descendant) {s s' : List Comp} (h : GoodSel v D p cx g s s') :
    GoodPiece v D p cx g (some (.pclass cs!"scope")) true (.pclass cs!"scope" :: .comb k :: s) (.pclass cs!"scope" :: .comb k :: s') := by
  have hx : ∃ x, k.char = some x ∧ combToks p k = p.ws ++ .delim x :: p.ws := by
    cases k <;> simp_all [Comb.char, combToks]
  obtain ⟨x, hx, e⟩ := hx
  refine ⟨fun cx' inh hle hs => ⟨p.ws, .delim x :: (p.ws ++ prS p false s), ?_, ws_allWs, .inr ⟨_, rfl, ?_⟩⟩, ?_, ?_⟩
  · rw [prS_scope, e]; simp
  · rw [readsS_scope]
    exact ⟨k, x, p.ws, _, s', rfl, hx, rfl, ws_allWs, h.reads cx' inh hle hs⟩
  · rw [prS_scope, e]
    have := comma_ws (ws_allWs (p := p))
    simp [this, h.comma]
  · intro E M P
    simp only [afterAll]
    exact h.means E M _

theorem comb_written (k : Comb) : k.Written (combToks p k) := by
  cases k <;> simp only [Comb.Written, Comb.char, combToks]
  · exact ⟨p.ws, p.ws, rfl, ws_allWs, ws_allWs⟩
  · exact ⟨by simp, by simp [AllWs]⟩
  · exact ⟨p.ws, p.ws, rfl, ws_allWs, ws_allWs⟩
  · exact ⟨p.ws, p.ws, rfl, ws_allWs, ws_allWs⟩

theorem attr_written (a : Attr) : a.Written (attrToks p a) := by
  obtain ⟨ns, n, test⟩ := a
  refine ⟨[], ansToks ns, _, rfl, by simp [AllWs], ?_, ?_⟩
  · cases ns <;> simp [ANs.Written, ansToks]
  · cases test with
    | none => simp [AllWs]
    | some x =>
      obtain ⟨o, u, f⟩ := x
      refine ⟨[], opTok o, [], valueTok p _ u, flagToks f, rfl, by simp [AllWs], by simp [AllWs], ?_, ?_, ?_⟩
      · cases o <;> simp [opTok, AttrOp.tok]
      · unfold valueTok; split <;> simp
      · cases f
        · simp [Flag.Written, flagToks, AllWs]
        · exact ⟨[.ws], cs!"i", [], rfl, by simp [AllWs], by simp [AllWs], by decide⟩
        · exact ⟨[.ws], cs!"s", [], rfl, by simp [AllWs], by simp [AllWs], by decide⟩

theorem part_written : ∀ l : List Str, PartNames l (partToks l)
  | [] => .nil
  | [s] => .name .nil
  | s :: s' :: l => .name (.ws (part_written (s' :: l)))

theorem ns_comma (ns : Ns) : Tok.comma ∉ ns.toks := by cases ns <;> simp [Ns.toks]

theorem scrollbar_elem {l : List Comp} (h : (sig l).elem = false) : (sig l).scrollbar = false := by
  have hs : ∀ n, n ∈ scrollbarElems → n ∈ knownElems := by decide
  simp only [sig, List.any_eq_false] at h ⊢
  intro c hc
  have := h c hc
  cases c <;> simp_all [Comp.isScrollbar, Comp.isElem]
  intro h; exact absurd (hs _ h) this

/-- `:nth-child(1)` printed as `:first-child`. -/
theorem good_first {cx : Cx} {g : Sig} {t : NthTy} {n : Str} (e : prC p (.nth t 0 1) = [.colon, .ident n]) (h1 : lower n = n) (h2 : ¬ Css2 n) (h3 : n ∉ scrollbarClasses)
    (hm : ∀ (E : Type) (M : Meaning E) e, M.test (.nth t 0 1) e ↔ M.test (.pclass n) e) : Good v D p cx g (.nth t 0 1) [.pclass n] where
  reads := by
    intro cx' inh pre s t' hle hs ha hp hr
    rw [List.singleton_append, readsS_cons]
    refine ⟨_, _, rfl, (allowed_iff ..).2 ⟨?_, by simp [placeOK]⟩, ?_, hr⟩
    · simp only [AllowG, Sig.plain] at ha ⊢
      rw [← hs] at ha
      exact ⟨ha.2.1, .inr (.inr (.inr ⟨scrollbar_elem ha.1, ha.1, h3⟩))⟩
    · rw [e]
      simp only [ReadsC]
      exact ⟨n, rfl, h1, h2⟩
  place := by
    intro ph pre inh _ _ hp
    have := phRel_next hp (.pclass n)
    rw [← phase_next] at this
    exact this
  sig_eq := rfl
  comma := by rw [e]; simp
  means := by
    intro E M P
    funext q
    simp only [afterAll, after, hm]

mutual
theorem goodC (hD : Forgiving code v D) : ∀ c : Comp, GoodC v D p c
  | .comb k => fun cx g _ _ => ⟨_, good_self (fun _ _ _ _ => by simp only [prC, ReadsC]; exact comb_written k) (by
      have := comma_ws (ws_allWs (p := p))
      cases k <;> simp [prC, combToks, this])⟩
  | .nesting => fun cx g _ _ => ⟨_, good_self (fun _ _ _ _ => by simp only [prC, ReadsC]) (by simp [prC])⟩
  | .type ns n => fun cx g _ _ => ⟨_, good_self (fun _ _ _ _ => by simp only [prC, ReadsC]) (by
      have := ns_comma ns
      cases n <;> simp [prC, nameTok, this])⟩
  | .id s => fun cx g _ _ => ⟨_, good_self (fun _ _ _ _ => by simp only [prC, ReadsC]) (by simp [prC])⟩
  | .cls s => fun cx g _ _ => ⟨_, good_self (fun _ _ _ _ => by simp only [prC, ReadsC]) (by simp [prC])⟩
  | .attr a => fun cx g _ _ => ⟨_, good_self (fun _ _ _ _ => by simp only [prC, ReadsC]; exact ⟨_, rfl, attr_written a⟩) (by simp [prC])⟩
  | .pclass n => fun cx g hw _ => ⟨_, good_self (fun _ _ _ _ => by
      simp only [WFC] at hw
      simp only [prC, ReadsC]; exact ⟨n, rfl, hw⟩) (by simp [prC])⟩
  | .pclassFn n args => fun cx g hw _ => ⟨_, good_self (fun _ _ _ _ => by
      simp only [WFC] at hw
      simp only [prC, ReadsC]; exact ⟨n, rfl, hw⟩) (by simp [prC])⟩
  | .pelem n => fun cx g hw _ => ⟨_, good_self (fun _ _ _ _ => by
      simp only [WFC] at hw
      simp only [prC, ReadsC]
      have e : n = if lower n = cs!"-ms-input-placeholder" ∧ code.msIsMoz = true then cs!"-moz-placeholder" else lower n := by
        rw [hw.1, if_neg (fun h => hw.2 h.1)]
      split
      · rename_i h
        exact ⟨n, [.colon], rfl, .inr ⟨rfl, by rw [Css2, hw.1]; simpa [oneColon] using h⟩, e⟩
      · exact ⟨n, [.colon, .colon], rfl, .inl rfl, e⟩) (by
      simp only [prC]
      split <;> simp)⟩
  | .pelemFn n args => fun cx g hw _ => ⟨_, good_self (fun _ _ _ _ => by
      simp only [WFC] at hw
      simp only [prC, ReadsC]; exact ⟨n, [.colon, .colon], rfl, .inl rfl, hw⟩) (by simp [prC])⟩
  | .part l => fun cx g hw _ => ⟨_, good_self (fun _ _ _ _ => by
      simp only [WFC] at hw
      simp only [prC, ReadsC]; exact ⟨_, _, rfl, by decide, hw, part_written l⟩) (by simp [prC])⟩
  | .nth t a b => fun cx g _ hp => by
    by_cases h1 : a = 0 ∧ b = 1
    · obtain ⟨rfl, rfl⟩ := h1
      simp only [Printable, and_self, true_imp_iff] at hp
      cases t with
      | child => exact ⟨_, good_first (by simp [prC, firstToks]) (by decide) (by unfold Css2; decide) (by decide) fun E M => M.firstChild⟩
      | lastChild => exact ⟨_, good_first (by simp [prC, firstToks]) (by decide) (by unfold Css2; decide) (by decide) fun E M => M.lastChild⟩
      | ofType => exact ⟨_, good_first (by simp [prC, firstToks]) (by decide) (by unfold Css2; decide) (by decide) fun E M => M.firstOfType⟩
      | lastOfType => exact ⟨_, good_first (by simp [prC, firstToks]) (by decide) (by unfold Css2; decide) (by decide) fun E M => M.lastOfType⟩
      | col => exact absurd rfl hp.1
      | lastCol => exact absurd rfl hp.2
    · refine ⟨_, good_self (fun _ _ _ _ => ?_) ?_⟩
      · simp only [prC, if_neg h1, ReadsC]
        exact ⟨t.name, [], [], rfl, by cases t <;> decide, by simp [AllWs], by simp [AllWs]⟩
      · simp [prC, if_neg h1]
  | .logical f l => fun cx g hw hp => by
    have hl := goodL hD l
    by_cases hu : f = .is ∧ unwraps l = true
    · obtain ⟨rfl, hu⟩ := hu
      match l, hl, hw, hp, hu with
      | [x], hl, hw, hp, hu => exact good_unwrap (hl x (by simp)) hu hw hp
      | [], _, _, _, hu => simp [unwraps] at hu
      | _ :: _ :: _, _, _, _, hu => simp [unwraps] at hu
    · simp only [WFC] at hw
      simp only [Printable] at hp
      rw [printableL_mem] at hp
      obtain ⟨l', h1, h2, h3⟩ := good_list (p := p) hD (cx := cx.inner code) (g := g) (f := f != .not) (rel := none) (prel := false) l
        (by by_cases hf : f = .not
            · exact .inr (hw.1 hf)
            · exact .inl (by simpa using hf))
        (fun s hs => by
          obtain ⟨s', h⟩ := good_sel (hl s hs) (hp.2 s hs).2 (hp.2 s hs).1 (wfL_mem hw.2 hs)
          exact ⟨s', goodPiece_of h⟩)
      have e : prC p (.logical f l) = [.colon, .func f.name (joinToks p (prL p false l))] := by simp only [prC, if_neg hu]
      refine ⟨[.logical f l'], ⟨?_, ?_, rfl, by rw [e]; simp, ?_⟩⟩
      · intro cx' inh pre s t hle hs ha hpl hr
        rw [List.singleton_append, readsS_cons]
        refine ⟨_, _, rfl, (allowed_iff ..).2 ⟨by simp [AllowG], by simp [placeOK]⟩, ?_, hr⟩
        rw [e]
        simp only [ReadsC]
        exact ⟨_, _, _, rfl, by cases f <;> decide, pieces_join (w := []) (by simp [AllWs]) h2, h1 _ _ _ hle.inner hs (by simp [AllWs])⟩
      · intro ph pre inh _ _ hp
        have := phRel_next hp (.logical f l')
        rw [← phase_next] at this
        exact this
      · intro E M P
        simp only [afterAll]
        funext q
        simp only [after, h3]
  | .has l => fun cx g hw hp => by
    have hl := goodL hD l
    simp only [WFC] at hw
    simp only [Printable] at hp
    rw [printableL_mem] at hp
    obtain ⟨l', h1, h2, h3⟩ := good_list (p := p) hD (cx := cx.has code) (g := g) (f := code.hasForgiving) (rel := some (.pclass cs!"scope")) (prel := true) l (.inl rfl)
      (fun s hs => by
        rcases hp.1 s hs with hn | ⟨k, s', rfl, hk, hn, ha⟩
        · rcases wfH_mem hw hs with hws | ⟨k, s', rfl, _⟩
          · obtain ⟨s', h⟩ := good_sel (hl s hs) (hp.2 s hs).2 (hp.2 s hs).1 hws
            exact ⟨s', goodPiece_rel h hn⟩
          · exact absurd (by simp) hn
        · have hws : WFS v (cx.has code) g .start s' := by
            rcases wfH_mem hw hs with hws | ⟨k', s'', e, _, h⟩
            · simp only [WFS] at hws
              exact hws.2.2.2.2.2.2
            · injection e with _ e
              injection e with _ e
              rw [e]; exact h
          obtain ⟨s₁, h⟩ := good_sel (fun c hc => hl _ hs c (by simp [hc])) (printable_mem.2 fun c hc => printable_mem.1 (hp.2 _ hs).2 c (by simp [hc])) ha hws
          exact ⟨_, goodPiece_scope hk h⟩)
    have e : prC p (.has l) = [.colon, .func cs!"has" (joinToks p (prL p true l))] := by simp only [prC]
    refine ⟨[.has l'], ⟨?_, ?_, rfl, by rw [e]; simp, ?_⟩⟩
    · intro cx' inh pre s t hle hs ha hpl hr
      rw [List.singleton_append, readsS_cons]
      refine ⟨_, _, rfl, (allowed_iff ..).2 ⟨by simp [AllowG], by simp [placeOK]⟩, ?_, hr⟩
      rw [e]
      simp only [ReadsC]
      exact ⟨_, _, _, rfl, by decide, pieces_join (w := []) (by simp [AllWs]) h2, h1 _ _ _ hle.has hs (by simp [AllWs])⟩
    · intro ph pre inh _ _ hp
      have := phRel_next hp (.has l')
      rw [← phase_next] at this
      exact this
    · intro E M P
      simp only [afterAll]
      funext q
      simp only [after, h3]
  | .nthOf t a b l => fun cx g hw hp => by
    have hl := goodL hD l
    simp only [WFC] at hw
    simp only [Printable] at hp
    rw [printableL_mem] at hp
    obtain ⟨l', h1, h2, h3⟩ := good_list (p := p) hD (cx := cx.inner code) (g := g) (f := code.nthForgiving) (rel := none) (prel := true) l (.inl rfl)
      (fun s hs => by
        obtain ⟨s', h⟩ := good_sel (hl s hs) (hp.2 s hs).2 (hp.2 s hs).1 (wfL_mem hw.2 hs)
        exact ⟨s', goodPiece_rel h (hp.1 s hs)⟩)
    have e : prC p (.nthOf t a b l) = [.colon, .func t.name (.anb a b :: .ws :: .ident cs!"of" :: .ws :: joinToks p (prL p true l))] := by simp only [prC]
    refine ⟨[.nthOf t a b l'], ⟨?_, ?_, rfl, by rw [e]; simp, ?_⟩⟩
    · intro cx' inh pre s t' hle hs ha hpl hr
      rw [List.singleton_append, readsS_cons]
      refine ⟨_, _, rfl, (allowed_iff ..).2 ⟨?_, by simp [placeOK]⟩, ?_, hr⟩
      · rw [hs]; exact ha
      · rw [e]
        simp only [ReadsC]
        exact ⟨t.name, [], [.ws], cs!"of", .ws :: joinToks p (prL p true l), _, rfl, by cases t <;> decide, hw.1, by simp [AllWs], by simp [AllWs], by decide,
          pieces_join (w := [.ws]) (by simp [AllWs]) h2, h1 _ _ _ hle.inner hs (by simp [AllWs])⟩
    · intro ph pre inh _ _ hp
      have := phRel_next hp (.nthOf t a b l')
      rw [← phase_next] at this
      exact this
    · intro E M P
      simp only [afterAll]
      funext q
      simp only [after, h3]
  | .hostFn s => fun cx g hw hp => by
    have hs' := goodS hD s
    simp only [WFC] at hw
    simp only [Printable] at hp
    obtain ⟨s', h⟩ := good_sel hs' hp.2 hp.1 hw
    have e : prC p (.hostFn s) = [.colon, .func cs!"host" (prS p false s)] := by simp only [prC, prS]
    refine ⟨[.hostFn s'], ⟨?_, ?_, rfl, by rw [e]; simp, ?_⟩⟩
    · intro cx' inh pre s₂ t' hle hs ha hpl hr
      rw [List.singleton_append, readsS_cons]
      refine ⟨_, _, rfl, (allowed_iff ..).2 ⟨?_, by simp [placeOK]⟩, ?_, hr⟩
      · rw [hs]; exact ha
      · rw [e]
        simp only [ReadsC]
        exact ⟨_, [], _, rfl, by decide, by simp [AllWs], h.reads _ _ (Le.host _ _) hs⟩
    · intro ph pre inh _ _ hp
      have := phRel_next hp (.hostFn s')
      rw [← phase_next] at this
      exact this
    · intro E M P
      simp only [afterAll]
      funext q
      simp only [after, h.means]
  | .slotted s => fun cx g hw hp => by
    have hs' := goodS hD s
    simp only [WFC] at hw
    simp only [Printable] at hp
    obtain ⟨s', h⟩ := good_sel hs' hp.2 hp.1 hw
    have e : prC p (.slotted s) = [.colon, .colon, .func cs!"slotted" (prS p false s)] := by simp only [prC, prS]
    refine ⟨[.slotted s'], ⟨?_, ?_, rfl, by rw [e]; simp, ?_⟩⟩
    · intro cx' inh pre s₂ t' hle hs ha hpl hr
      rw [List.singleton_append, readsS_cons]
      refine ⟨_, _, rfl, (allowed_iff ..).2 ⟨?_, by simp [placeOK]⟩, ?_, hr⟩
      · rw [hs]; exact allowG_le hle ha
      · rw [e]
        simp only [ReadsC]
        exact ⟨_, [], _, rfl, by decide, by simp [AllWs], h.reads _ _ (Le.host _ _) hs⟩
    · intro ph pre inh _ _ hp
      have := phRel_next hp (.slotted s')
      rw [← phase_next] at this
      exact this
    · intro E M P
      simp only [afterAll]
      funext q
      simp only [after, h.means]
  | .cue r s => fun cx g hw hp => by
    have hs' := goodS hD s
    simp only [WFC] at hw
    simp only [Printable] at hp
    obtain ⟨s', h⟩ := good_sel hs' hp.2 hp.1 hw
    have e : prC p (.cue r s) = [.colon, .colon, .func (if r then cs!"cue-region" else cs!"cue") (prS p false s)] := by simp only [prC, prS]
    refine ⟨[.cue r s'], ⟨?_, ?_, rfl, by rw [e]; simp, ?_⟩⟩
    · intro cx' inh pre s₂ t' hle hs ha hpl hr
      rw [List.singleton_append, readsS_cons]
      refine ⟨_, _, rfl, (allowed_iff ..).2 ⟨?_, by simp [placeOK]⟩, ?_, hr⟩
      · rw [hs]; exact allowG_le hle ha
      · rw [e]
        simp only [ReadsC]
        exact ⟨_, [], _, rfl, by cases r <;> decide, by simp [AllWs], h.reads _ _ (Le.rfl' _) rfl⟩
    · intro ph pre inh _ _ hp
      have := phRel_next hp (.cue r s')
      rw [← phase_next] at this
      exact this
    · intro E M P
      simp only [afterAll]
      funext q
      simp only [after, h.means]
theorem goodS (hD : Forgiving code v D) : ∀ s : List Comp, ∀ c ∈ s, GoodC v D p c
  | [] => by simp
  | c :: s => by
    have h1 := goodC hD c
    have h2 := goodS hD s
    intro x hx
    simp only [List.mem_cons] at hx
    rcases hx with rfl | hx
    · exact h1
    · exact h2 x hx
theorem goodL (hD : Forgiving code v D) : ∀ l : List (List Comp), ∀ s ∈ l, ∀ c ∈ s, GoodC v D p c
  | [] => by simp
  | s :: l => by
    have h1 := goodS hD s
    have h2 := goodL hD l
    intro x hx
    simp only [List.mem_cons] at hx
    rcases hx with rfl | hx
    · exact h1
    · exact h2 x hx
end

end Verif.SelPrint
