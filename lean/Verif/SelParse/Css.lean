import Verif.SelParse.Local
/-!
# The grammar of the code and the grammar of CSS agree on plain selectors
-/
namespace Verif.SelParse

theorem plainArgs_iff (ts : List Tok) : PlainArgs ts ↔ ∀ t ∈ ts, Plain t ∧ ∀ w, t = .ident w → lower w ≠ cs!"of" := by
  induction ts with
  | nil => simp [PlainArgs]
  | cons t ts ih => simp only [PlainArgs, ih, List.mem_cons, forall_eq_or_imp, and_assoc]

/-- All tokens are plain. -/
def PlainL (ts : List Tok) : Prop := ∀ t ∈ ts, Plain t

theorem plainL_args {ts : List Tok} (h : PlainArgs ts) : PlainL ts := fun t ht => ((plainArgs_iff ts).1 h t ht).1

theorem plainL_sub {a ts : List Tok} (h : PlainL ts) (hs : ∀ t ∈ a, t ∈ ts) : PlainL a := fun t ht => h t (hs t ht)

theorem piece_plain {ps : List (List Tok)} {args : List Tok} (h : Pieces ps args) (ha : PlainL args) {p : List Tok} (hp : p ∈ ps) : PlainL p := by
  rw [pieces_iff] at h
  subst h
  exact plainL_sub ha (splitRaw_mem hp)

theorem plain_func {ts args : List Tok} {w : Str} (h : PlainL ts) (hm : Tok.func w args ∈ ts) :
    lower w ≠ cs!"has" ∧ lower w ≠ cs!"host" ∧ lower w ≠ cs!"slotted" ∧ PlainArgs args := by
  have := h _ hm
  simpa only [Plain] using this

/-- Two notions of ignored pieces agree on plain pieces. -/
def AgreePlain (D D' : Drop) : Prop := ∀ cx inh p, cx.combs = true → PlainL p → (D cx inh false p ↔ D' cx inh false p)

theorem inner_eq {cx : Cx} (h : cx.combs = true) : cx.inner css = cx.inner code := by
  simp [Cx.inner, css, code, h]
theorem inner_combs {cx : Cx} : (cx.inner css).combs = true := by
  simp [Cx.inner, css]

theorem allowed_eq {cx : Cx} {before pre : List Comp} {c : Comp} (h1 : c ≠ .nesting) (h2 : ∀ l, c ≠ .has l) :
    Allowed css cx before pre c ↔ Allowed code cx before pre c := by
  cases c <;> first | (exact absurd rfl h1) | (exact absurd rfl (h2 _)) | (simp only [Allowed])

mutual
theorem cssC (v : Opts) (D D' : Drop) (hD : AgreePlain D D') : ∀ (c : Comp) (cx : Cx) (before : List Comp) (a : List Tok), cx.combs = true → PlainL a →
    (ReadsC css D v cx before c a ↔ ReadsC code D' v cx before c a)
  | .comb _, _, _, _, _, _ | .nesting, _, _, _, _, _ | .type _ _, _, _, _, _, _ | .id _, _, _, _, _, _ | .cls _, _, _, _, _, _ | .attr _, _, _, _, _, _
  | .pclass _, _, _, _, _, _ | .pclassFn _ _, _, _, _, _, _ | .nth _ _ _, _, _, _, _, _ | .pelemFn _ _, _, _, _, _, _
  | .part _, _, _, _, _, _ => by simp only [ReadsC]
  | .pelem n, _, _, a, _, h => by
    simp only [ReadsC]
    refine exists_congr fun w => exists_congr fun c => and_congr_right fun e => and_congr_right fun _ => ?_
    have : lower w ≠ cs!"-ms-input-placeholder" := by
      have := h (.ident w) (by rw [e]; simp)
      simpa only [Plain] using this
    simp [this]
  | .logical f l, cx, before, a, hc, h => by
    simp only [ReadsC]
    refine exists_congr fun w => exists_congr fun args => exists_congr fun ps => and_congr_right fun e => and_congr_right fun _ => and_congr_right fun hps => ?_
    rw [← inner_eq hc]
    have := (plain_func (w := w) (args := args) h (by rw [e]; simp)).2.2.2
    exact cssP v D D' hD l (cx.inner css) before _ ps inner_combs fun p hp => piece_plain hps (plainL_args this) hp
  | .has l, cx, before, a, hc, h => by
    simp only [ReadsC]
    constructor
    · rintro ⟨w, args, ps, e, h1, _⟩
      exact absurd h1 (plain_func (w := w) (args := args) h (by rw [e]; simp)).1
    · rintro ⟨w, args, ps, e, h1, _⟩
      exact absurd h1 (plain_func (w := w) (args := args) h (by rw [e]; simp)).1
  | .nthOf t x y l, cx, before, a, hc, h => by
    have no : ∀ w (w₁ w₂ : List Tok) f args, a = [.colon, .func w (w₁ ++ .anb x y :: (w₂ ++ .ident f :: args))] → lower f ≠ cs!"of" := by
      intro w w₁ w₂ f args e
      have := (plain_func (w := w) (args := w₁ ++ .anb x y :: (w₂ ++ .ident f :: args)) h (by rw [e]; simp)).2.2.2
      exact ((plainArgs_iff _).1 this (.ident f) (by simp)).2 f rfl
    simp only [ReadsC]
    constructor
    · rintro ⟨w, w₁, w₂, f, args, ps, e, _, _, _, _, h1, _⟩
      exact absurd h1 (no w w₁ w₂ f args e)
    · rintro ⟨w, w₁, w₂, f, args, ps, e, _, _, _, _, h1, _⟩
      exact absurd h1 (no w w₁ w₂ f args e)
  | .hostFn s, cx, before, a, hc, h => by
    simp only [ReadsC]
    constructor
    · rintro ⟨w, x, r, e, h1, _⟩
      exact absurd h1 (plain_func (w := w) (args := x ++ r) h (by rw [e]; simp)).2.1
    · rintro ⟨w, x, r, e, h1, _⟩
      exact absurd h1 (plain_func (w := w) (args := x ++ r) h (by rw [e]; simp)).2.1
  | .cue region s, cx, before, a, hc, h => by
    simp only [ReadsC]
    refine exists_congr fun w => exists_congr fun x => exists_congr fun r => and_congr_right fun e => and_congr_right fun _ => and_congr_right fun _ => ?_
    have := (plain_func (w := w) (args := x ++ r) h (by rw [e]; simp)).2.2.2
    exact cssS v D D' hD s .top [] [] r rfl (plainL_sub (plainL_args this) (by intro t ht; simp [ht]))
  | .slotted s, cx, before, a, hc, h => by
    simp only [ReadsC]
    constructor
    · rintro ⟨w, x, r, e, h1, _⟩
      exact absurd h1 (plain_func (w := w) (args := x ++ r) h (by rw [e]; simp)).2.2.1
    · rintro ⟨w, x, r, e, h1, _⟩
      exact absurd h1 (plain_func (w := w) (args := x ++ r) h (by rw [e]; simp)).2.2.1
theorem cssS (v : Opts) (D D' : Drop) (hD : AgreePlain D D') : ∀ (s : List Comp) (cx : Cx) (inh pre : List Comp) (ts : List Tok), cx.combs = true →
    PlainL ts → (ReadsS css D v cx inh .no pre s ts ↔ ReadsS code D' v cx inh .no pre s ts)
  | [], cx, inh, pre, ts, hc, h => by
    rw [readsS_nil, readsS_nil]
    refine or_congr_right ?_
    constructor
    · rintro ⟨h1, _⟩; simp [css] at h1
    · rintro ⟨_, _, h1⟩
      have : Tok.delim '|' ∈ ts := by rcases h1 with rfl | rfl | ⟨s, rfl⟩ <;> simp
      have := h _ this
      simp [Plain] at this
  | c :: cs, cx, inh, pre, ts, hc, h => by
    have h1 := cssC v D D' hD c
    have h2 := cssS v D D' hD cs
    rw [readsS_cons, readsS_cons]
    refine exists_congr fun a => exists_congr fun b => and_congr_right fun e => ?_
    have ha : PlainL a := plainL_sub h (by intro t ht; rw [e]; simp [ht])
    have hb : PlainL b := plainL_sub h (by intro t ht; rw [e]; simp [ht])
    rw [h1 cx (pre ++ inh) a hc ha, h2 cx inh (c :: pre) b hc hb]
    refine and_congr_left ?_
    rintro ⟨g, _⟩
    refine allowed_eq ?_ ?_
    · rintro rfl
      simp only [ReadsC] at g
      have := ha (.delim '&') (by rw [g]; simp)
      simp [Plain] at this
    · rintro l rfl
      simp only [ReadsC] at g
      obtain ⟨w, args, ps, e, h1, _⟩ := g
      exact absurd h1 (plain_func (w := w) (args := args) ha (by rw [e]; simp)).1
theorem cssP (v : Opts) (D D' : Drop) (hD : AgreePlain D D') : ∀ (l : List (List Comp)) (cx : Cx) (inh : List Comp) (f : Bool) (ps : List (List Tok)),
    cx.combs = true → (∀ p ∈ ps, PlainL p) → (ReadsP css D v cx inh f none l ps ↔ ReadsP code D' v cx inh f none l ps)
  | [], cx, inh, f, ps, hc, h => by
    simp only [ReadsP]
    exact forall_congr' fun p => forall_congr' fun hp => and_congr_right fun _ => hD cx inh p hc (h p hp)
  | s :: l, cx, inh, f, ps, hc, h => by
    have h1 := cssS v D D' hD s
    have h2 := cssP v D D' hD l
    simp only [ReadsP]
    refine exists_congr fun e => exists_congr fun w => exists_congr fun r => exists_congr fun q => and_congr_right fun eq => ?_
    subst eq
    have hr : PlainL r := plainL_sub (h (w ++ r) (by simp)) (by intro t ht; simp [ht])
    refine and_congr (forall_congr' fun p => forall_congr' fun hp => and_congr_right fun _ => hD cx inh p hc (h p (by simp [hp]))) ?_
    refine and_congr_right fun _ => and_congr ?_ (h2 cx inh f q hc fun p hp => h p (by simp [hp]))
    rw [h1 cx inh [] r hc hr]
    simp
end

theorem cssPiece (v : Opts) (D D' : Drop) (hD : AgreePlain D D') (cx : Cx) (inh : List Comp) (s : Sel) (p : List Tok) (hc : cx.combs = true)
    (h : PlainL p) : ReadsPiece css D v cx inh none s p ↔ ReadsPiece code D' v cx inh none s p := by
  unfold ReadsPiece
  refine exists_congr fun w => exists_congr fun r => and_congr_right fun e => and_congr_right fun _ => ?_
  rw [cssS v D D' hD s cx inh [] r hc (plainL_sub h (by intro t ht; rw [e]; simp [ht]))]
  simp

end Verif.SelParse
