import Verif.SelPrint.Loop
import Verif.SelParse.Props
/-!
# Every component that is printed is read again
-/
namespace Verif.SelPrint
open Verif.SelParse

variable {v : Opts} {D : Drop} {p : Style}

theorem sig_universal (s : List Comp) : sig (.type .implicit none :: s) = sig s := by
  rw [sig_cons]; simp [sig, Sig.or, Comp.isElem, Comp.isPart, Comp.isSlotted, Comp.isScrollbar, Comp.isViewTransition]

/-- Places with and without the universal selectors. -/
def KRel (b : Bool) (ph ph' : Ph) : Prop := if b = true then ph' ≠ .start ∧ (ph' = ph ∨ ph = .mid) else ph' = .start ∧ ph ≠ .nest

theorem keeps_wf {cx : Cx} {b : Bool} {s t : List Comp} (hk : Keeps b s t) : ∀ {g : Sig} {ph ph' : Ph}, WFS v cx g ph s → KRel b ph ph' → WFS v cx g ph' t := by
  induction hk with
  | nil =>
    intro g ph ph' _ hr
    simp only [WFS]
    exact hr.1
  | comb _ ih =>
    intro g ph ph' h hr
    simp only [WFS] at h ⊢
    refine ⟨h.1, hr.1, trivial, ih h.2.2.2 ⟨rfl, by simp [next]⟩⟩
  | @keep b c s t hc _ ih =>
    intro g ph ph' h hr
    simp only [WFS] at h ⊢
    refine ⟨h.1, ?_, h.2.2.1, ih h.2.2.2 ?_⟩
    · have h2 := h.2.1
      cases c <;> simp_all [placeOK, KRel, Comp.isComb]
      cases b <;> simp_all
    · cases b <;> cases ph <;> cases ph' <;> cases c <;> simp_all [KRel, next, Comp.isComb]
  | @drop b s t _ ih =>
    intro g ph ph' h hr
    simp only [WFS] at h
    have h4 := h.2.2.2
    rw [show sig [Comp.type .implicit none] = sig [] from rfl, or_none] at h4
    refine ih h4 ?_
    cases b <;> cases ph <;> cases ph' <;> simp_all [KRel, next]

theorem keeps_after {E : Type} (M : Meaning E) {b : Bool} {s t : List Comp} (hk : Keeps b s t) : ∀ P, afterAll M s P = afterAll M t P := by
  induction hk with
  | nil => intro P; rfl
  | comb _ ih => intro P; simp only [afterAll]; rw [ih]
  | keep _ _ ih => intro P; simp only [afterAll]; rw [ih]
  | drop _ ih =>
    intro P
    simp only [afterAll]
    rw [← ih]
    congr 1
    funext e
    simp [after, M.universal e]

theorem keeps_mem {b : Bool} {s t : List Comp} (hk : Keeps b s t) : ∀ c ∈ t, c ∈ s := by
  induction hk with
  | nil => simp
  | comb _ ih => intro c hc; simp only [List.mem_cons] at hc ⊢; exact hc.imp id (ih c)
  | keep _ _ ih => intro c hc; simp only [List.mem_cons] at hc ⊢; exact hc.imp id (ih c)
  | drop _ ih => intro c hc; exact List.mem_cons_of_mem _ (ih c hc)

theorem keeps_sig {b : Bool} {s t : List Comp} (hk : Keeps b s t) : sig s = sig t := by
  induction hk with
  | nil => rfl
  | comb _ ih => rw [sig_cons, ih, ← sig_cons]
  | keep _ _ ih => rw [sig_cons, ih, ← sig_cons]
  | drop _ ih => rw [sig_universal, ih]

theorem printable_mem {s : List Comp} : PrintableS s ↔ ∀ c ∈ s, Printable c := by
  induction s with
  | nil => simp [PrintableS]
  | cons c s ih => simp [PrintableS, ih]

theorem printableL_mem {l : List (List Comp)} : PrintableL l ↔ ∀ s ∈ l, NoAmpNs s ∧ PrintableS s := by
  induction l with
  | nil => simp [PrintableL]
  | cons c s ih => simp [PrintableL, ih, and_assoc]

/-- More is allowed. -/
def Le (cx cx' : Cx) : Prop := (cx.elems = true → cx'.elems = true) ∧ (cx.combs = true → cx'.combs = true)

theorem Le.rfl' (cx : Cx) : Le cx cx := ⟨id, id⟩
theorem Le.trans' {a b c : Cx} (h : Le a b) (h' : Le b c) : Le a c := ⟨fun x => h'.1 (h.1 x), fun x => h'.2 (h.2 x)⟩
theorem Le.inner {cx cx' : Cx} (h : Le cx cx') : Le (cx.inner code) (cx'.inner code) := by
  simp only [Le, Cx.inner, code, Bool.or_false] at h ⊢; exact ⟨id, h.2⟩
theorem Le.has {cx cx' : Cx} (h : Le cx cx') : Le (cx.has code) (cx'.has code) := by
  simp only [Le, Cx.has, code, Bool.or_false, Bool.and_true] at h ⊢; exact h
theorem Le.host (cx cx' : Cx) : Le cx.host cx'.host := ⟨id, id⟩
theorem Le.of_inner (cx : Cx) : Le (cx.inner code) cx := by
  simp [Le, Cx.inner, code]

theorem allowG_le {cx cx' : Cx} (h : Le cx cx') {g : Sig} {c : Comp} (ha : AllowG cx g c) : AllowG cx' g c := by
  obtain ⟨h1, h2⟩ := h
  cases c <;> simp_all [AllowG]

/-- Places of a component, and of what is read for it. -/
def PhRel : Ph → Ph → Prop
  | .start, y => y = .start
  | .nest, y => y = .nest
  | .mid, y => y ≠ .start

theorem phRel_rfl (ph : Ph) : PhRel ph ph := by cases ph <;> simp [PhRel]
theorem phRel_next {ph y : Ph} (h : PhRel ph y) (c : Comp) : PhRel (next ph c) (next y c) := by
  cases ph <;> cases y <;> cases c <;> simp_all [PhRel, next]
theorem phRel_place {ph y : Ph} (h : PhRel ph y) {c : Comp} (hc : placeOK ph c) : placeOK y c := by
  cases ph <;> cases y <;> cases c <;> simp_all [PhRel, placeOK]
theorem phRel_start {ph y : Ph} (h : PhRel ph y) (hc : ph ≠ .start) : y ≠ .start := by
  cases ph <;> cases y <;> simp_all [PhRel]

/-- What is printed for a component is read as `ns`, which means the same. -/
structure Good (v : Opts) (D : Drop) (p : Style) (cx : Cx) (g : Sig) (c : Comp) (ns : List Comp) : Prop where
  reads : ∀ cx' inh pre s t, Le cx cx' → sig (pre ++ inh) = g → AllowG cx g c → placeOK (phase pre) c →
    ReadsS code D v cx' inh .no (ns.reverse ++ pre) s t → ReadsS code D v cx' inh .no pre (ns ++ s) (prC p c ++ t)
  place : ∀ ph pre inh, sig (pre ++ inh) = g → AllowG cx g c → PhRel ph (phase pre) → PhRel (next ph c) (phase (ns.reverse ++ pre))
  sig_eq : sig ns = sig [c]
  comma : Tok.comma ∉ prC p c
  means : ∀ (E : Type) (M : Meaning E) P, afterAll M ns P = after M c P

/-- The components that the parser can return are good. -/
def GoodC (v : Opts) (D : Drop) (p : Style) (c : Comp) : Prop := ∀ cx g, WFC v cx g c → Printable c → ∃ ns, Good v D p cx g c ns

/-- The place after some components. -/
def nexts (ph : Ph) : List Comp → Ph
  | [] => ph
  | c :: s => nexts (next ph c) s

theorem nexts_ne {cx : Cx} (s : List Comp) : ∀ {g : Sig} {ph : Ph}, WFS v cx g ph s → nexts ph s ≠ .start := by
  induction s with
  | nil => intro g ph h; simp only [WFS] at h; exact h
  | cons c s ih => intro g ph h; simp only [WFS] at h; exact ih h.2.2.2

/-- A component that is read as itself. -/
theorem good_self {cx : Cx} {g : Sig} {c : Comp} (h : ∀ cx' before, Le cx cx' → sig before = g → ReadsC code D v cx' before c (prC p c))
    (hc : Tok.comma ∉ prC p c) : Good v D p cx g c [c] where
  reads := by
    intro cx' inh pre s t hle hs ha hp hr
    rw [List.singleton_append, readsS_cons]
    exact ⟨_, _, rfl, (allowed_iff ..).2 ⟨by rw [hs]; exact allowG_le hle ha, hp⟩, h cx' _ hle hs, hr⟩
  place := by
    intro ph pre inh _ _ hp
    have := phRel_next hp c
    rw [← phase_next] at this
    exact this
  sig_eq := rfl
  comma := hc
  means := fun E M P => rfl

theorem afterAll_append {E : Type} (M : Meaning E) (a b : List Comp) (P : E → Prop) : afterAll M (a ++ b) P = afterAll M b (afterAll M a P) := by
  induction a generalizing P with
  | nil => rfl
  | cons c a ih => simp only [List.cons_append, afterAll, ih]

/-- Components one after the other. -/
theorem good_all {cx : Cx} (s : List Comp) (hg : ∀ c ∈ s, GoodC v D p c) (hp : PrintableS s) : ∀ (g : Sig) (ph₀ : Ph), WFS v cx g ph₀ s → ∃ ns : List Comp,
    (∀ cx' inh pre ph s₂ t, Le cx cx' → sig (pre ++ inh) = g → WFS v cx g ph s → PhRel ph (phase pre) →
      PhRel (nexts ph s) (phase (ns.reverse ++ pre)) ∧
      (ReadsS code D v cx' inh .no (ns.reverse ++ pre) s₂ t → ReadsS code D v cx' inh .no pre (ns ++ s₂) (s.flatMap (prC p) ++ t))) ∧
    sig ns = sig s ∧ Tok.comma ∉ s.flatMap (prC p) ∧ ∀ (E : Type) (M : Meaning E) P, afterAll M ns P = afterAll M s P := by
  induction s with
  | nil =>
    intro g ph₀ _
    exact ⟨[], fun cx' inh pre ph s₂ t _ _ _ hr => ⟨hr, id⟩, rfl, by simp, fun _ _ _ => rfl⟩
  | cons c s ih =>
    intro g ph₀ hw
    simp only [WFS] at hw
    simp only [PrintableS] at hp
    obtain ⟨n₁, h1⟩ := hg c (by simp) cx g hw.2.2.1 hp.1
    obtain ⟨n₂, h2, h3, h4, h5⟩ := ih (fun x hx => hg x (by simp [hx])) hp.2 _ _ hw.2.2.2
    refine ⟨n₁ ++ n₂, ?_, ?_, ?_, ?_⟩
    · intro cx' inh pre ph s₂ t hle hs hw' hr
      simp only [WFS] at hw'
      have hsig : sig ((n₁.reverse ++ pre) ++ inh) = (sig [c]).or g := by
        rw [List.append_assoc, sig_append, sig_reverse, h1.sig_eq, hs]
      have hpl := h1.place ph pre inh hs hw'.1 hr
      obtain ⟨q1, q2⟩ := h2 cx' inh (n₁.reverse ++ pre) _ s₂ t hle hsig hw'.2.2.2 hpl
      rw [List.reverse_append, List.append_assoc]
      refine ⟨q1, fun hrd => ?_⟩
      rw [List.append_assoc, List.flatMap_cons, List.append_assoc]
      exact h1.reads cx' inh pre _ _ hle hs hw'.1 (phRel_place hr hw'.2.1) (q2 hrd)
    · rw [sig_append, h1.sig_eq, h3, ← sig_cons]
    · simp only [List.flatMap_cons, List.mem_append, not_or]
      exact ⟨h1.comma, h4⟩
    · intro E M P
      rw [afterAll_append, h1.means, h5]
      rfl

/-- A selector is read as one that means the same. -/
structure GoodSel (v : Opts) (D : Drop) (p : Style) (cx : Cx) (g : Sig) (s s' : List Comp) : Prop where
  reads : ∀ cx' inh, Le cx cx' → sig inh = g → ReadsS code D v cx' inh .no [] s' (prS p false s)
  comma : Tok.comma ∉ prS p false s
  means : ∀ (E : Type) (M : Meaning E) P, afterAll M s' P = afterAll M s P

theorem good_sel {cx : Cx} {g : Sig} {s : List Comp} (hg : ∀ c ∈ s, GoodC v D p c) (hp : PrintableS s) (ha : NoAmpNs s) (hw : WFS v cx g .start s) :
    ∃ s', GoodSel v D p cx g s s' := by
  obtain ⟨t, hk, e⟩ := prS_keeps (p := p) hw ha
  have hwt : WFS v cx g .start t := keeps_wf hk hw (by simp [KRel])
  have hm := keeps_mem hk
  obtain ⟨ns, h1, h2, h3, h4⟩ := good_all (v := v) (D := D) (p := p) t (fun c hc => hg c (hm c hc))
    (printable_mem.2 fun c hc => printable_mem.1 hp c (hm c hc)) g .start hwt
  refine ⟨ns, ?_, by rw [e]; exact h3, fun E M P => by rw [h4, keeps_after M hk]⟩
  intro cx' inh hle hs
  have := h1 cx' inh [] .start [] [] hle hs hwt (by simp [PhRel, phase])
  rw [e]
  simpa using this.2 (by
    rw [readsS_nil, noncomb_iff]
    exact .inl ⟨by simp [AllWs], phRel_start this.1 (nexts_ne _ hwt)⟩)

theorem wf_noType {cx : Cx} (s : List Comp) (hn : ∀ c ∈ s, c.isComb = false ∧ isType c = false) : ∀ {g : Sig} {ph ph' : Ph}, (s = [] → ph' ≠ .start) → WFS v cx g ph s →
    WFS v cx g ph' s := by
  induction s with
  | nil => intro g ph ph' h _; simp only [WFS]; exact h rfl
  | cons c s ih =>
    intro g ph ph' _ h
    simp only [WFS] at h ⊢
    have hc := hn c (by simp)
    refine ⟨h.1, ?_, h.2.2.1, ih (fun x hx => hn x (by simp [hx])) ?_ h.2.2.2⟩
    · cases c <;> simp_all [placeOK, Comp.isComb, isType]
    · intro _
      cases c <;> cases ph' <;> simp_all [next, Comp.isComb]

theorem sig_noBreak {l : List Comp} (h : ∀ c ∈ l, isBreak c = false) : sig l = sig [] := by
  have hs : ∀ n, n ∈ scrollbarElems → n ∈ knownElems := by decide
  have hv : ∀ n, n ∈ viewTransitionFns → n ∈ knownElemFns := by decide
  have h1 : ∀ c ∈ l, c.isElem = false ∧ c.isSlotted = false ∧ c.isPart = false := by
    intro c hc
    have := h c hc
    simp only [isBreak, breakOf] at this
    cases h1 : c.isElem <;> cases h2 : c.isSlotted <;> cases h3 : c.isPart <;> simp_all
  simp only [sig, List.any_nil, Sig.mk.injEq, List.any_eq_false]
  refine ⟨fun c hc => by simp [h1 c hc], fun c hc => by simp [h1 c hc], fun c hc => by simp [h1 c hc], fun c hc => ?_, fun c hc => ?_⟩
  · have := (h1 c hc).1
    cases c <;> simp_all [Comp.isScrollbar, Comp.isElem]
    intro h; exact absurd (hs _ h) this
  · have := (h1 c hc).1
    cases c <;> simp_all [Comp.isViewTransition, Comp.isElem]
    intro h; exact absurd (hv _ h) this

/-- A component that tests. -/
def tests : Comp → Bool
  | .comb _ | .pelem _ | .pelemFn _ _ | .cue _ _ | .part _ | .slotted _ => false
  | _ => true

theorem after_test {E : Type} (M : Meaning E) {c : Comp} (h : tests c = true) (R : E → Prop) : after M c R = fun q => after M c (fun _ => True) q ∧ R q := by
  funext q
  cases c <;> first | (simp only [tests, Bool.false_eq_true] at h; done) | simp only [after, and_true]

theorem after_tests {E : Type} (M : Meaning E) (y : List Comp) (h : ∀ c ∈ y, tests c = true) : ∀ Q : E → Prop,
    afterAll M y Q = fun q => afterAll M y (fun _ => True) q ∧ Q q := by
  induction y with
  | nil => intro Q; funext q; simp [afterAll]
  | cons c y ih =>
    intro Q
    have ihh := ih fun z hz => h z (by simp [hz])
    simp only [afterAll]
    rw [ihh (after M c Q), ihh (after M c fun _ => True), after_test M (h c (by simp)) Q]
    funext q
    simp only [and_assoc]

theorem tests_of {cx : Cx} (y : List Comp) (he : cx.elems = false) (hb : ∀ c ∈ y, isBreak c = false) : ∀ {g : Sig} {ph : Ph}, WFS v cx g ph y → ∀ c ∈ y, tests c = true := by
  induction y with
  | nil => simp
  | cons c y ih =>
    intro g ph hw z hz
    simp only [WFS] at hw
    simp only [List.mem_cons] at hz
    rcases hz with rfl | hz
    · have h1 := hw.1
      have h2 := hb z (by simp)
      clear ih hw
      cases z <;> first | rfl | (simp [AllowG, he] at h1; done) | (simp [isBreak, Comp.isComb] at h2; done)
    · exact ih (fun x hx => hb x (by simp [hx])) hw.2.2.2 z hz

/-- `:is(x)` printed as `x`. -/
theorem good_unwrap {cx : Cx} {g : Sig} {x : List Comp} (hg : ∀ c ∈ x, GoodC v D p c) (hu : unwraps [x] = true) (hw : WFC v cx g (.logical .is [x]))
    (hp : Printable (.logical .is [x])) : ∃ ns, Good v D p cx g (.logical .is [x]) ns := by
  simp only [WFC, WFL, and_true] at hw
  obtain ⟨_, hw⟩ := hw
  simp only [Printable, PrintableL, and_true, true_imp_iff] at hp
  obtain ⟨ht, ha, hp⟩ := hp
  have htext : prC p (.logical .is [x]) = prS p false x := by simp [prC, hu, prL, prS]
  simp only [unwraps, Bool.and_eq_true, List.all_eq_true, Bool.not_eq_true'] at hu
  obtain ⟨hu1, hu2⟩ := hu
  have hcc : ∀ c ∈ x, c.isComb = false := fun c hc => by
    have := hu2 c hc
    simp only [isBreak, Bool.or_eq_false_iff] at this
    exact this.1
  have htype : ∀ c ∈ x, isType c = false := by
    cases x with
    | nil => simp
    | cons c r =>
      have hct : isType c = false := by simpa using hu1
      intro y hy
      simp only [List.mem_cons] at hy
      rcases hy with rfl | hy
      · exact hct
      · simp only [WFS] at hw
        by_cases hn : c = .nesting
        · subst hn
          simp only [NoAmpType] at ht
          cases y <;> simp [isType]
          exact ht _ _ hy
        · have hm : next .start c = .mid := by
            have := hcc c (by simp)
            cases c <;> simp_all [next, Comp.isComb]
          have h4 := hw.2.2.2
          rw [hm] at h4
          exact noType_mid r (rest := []) (by simpa using h4) (fun z hz => hcc z (by simp [hz])) y hy
  have hnt : ∀ c ∈ x, c.isComb = false ∧ isType c = false := fun c hc => ⟨hcc c hc, htype c hc⟩
  obtain ⟨t, hk, e⟩ := prS_keeps (p := p) hw ha
  have hwt : WFS v (cx.inner code) g .start t := keeps_wf hk hw (by simp [KRel])
  have hm := keeps_mem hk
  have hne : t ≠ [] := by rintro rfl; simp [WFS] at hwt
  obtain ⟨ns, h1, h2, h3, h4⟩ := good_all (v := v) (D := D) (p := p) t (fun c hc => hg c (hm c hc))
    (printable_mem.2 fun c hc => printable_mem.1 hp c (hm c hc)) g .start hwt
  have hany : ∀ ph, WFS v (cx.inner code) g ph t := fun ph => wf_noType t (fun c hc => hnt c (hm c hc)) (fun h => absurd h hne) hwt
  have hsig : sig ns = sig [] := by rw [h2]; exact sig_noBreak fun c hc => hu2 c (hm c hc)
  refine ⟨ns, ⟨?_, ?_, ?_, ?_, ?_⟩⟩
  · intro cx' inh pre s t' hle hs _ _ hr
    rw [htext, e]
    exact (h1 cx' inh pre (phase pre) s t' ((Le.of_inner cx).trans' hle) hs (hany _) (phRel_rfl _)).2 hr
  · intro ph pre inh hs _ _
    have := (h1 (cx.inner code) inh pre (phase pre) [] [] (Le.rfl' _) hs (hany _) (phRel_rfl _)).1
    simp only [next, PhRel]
    exact phRel_start this (nexts_ne _ (hany (phase pre)))
  · rw [hsig]; rfl
  · rw [htext, e]; exact h3
  · intro E M P
    have key : afterAll M ns P = fun q => (Matches M x q ∧ P q) := by
      rw [h4, ← keeps_after M hk]
      exact after_tests M x (tests_of x rfl hu2 hw) P
    rw [key]
    funext q
    simp [after, M.is, matchL, Matches]

end Verif.SelPrint
