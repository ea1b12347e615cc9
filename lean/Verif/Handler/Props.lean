import Verif.Handler.CustomLemmas
/-! Property theorems about minifying declaration blocks. -/
namespace Verif.Handler
variable {V M C : Type} [DecidableEq V] [DecidableEq C]

/-! ## C19: custom properties -/

/-- **C19** In any block, with any targets and handlers left over from earlier blocks, minification writes for every custom property
that is not listed as unused exactly one declaration, with the last value given (as the fallback mechanism keeps it), and none if
none was given. `hk` says that a value from which fallbacks were split off needs no more fallbacks. -/
theorem C19_custom (c : Cfg V C) (hk : ∀ v, c.kept (c.kept v) = c.kept v) (b : Block V) (h hi : State V) (hr : h.Ready) (hri : hi.Ready)
    (x : Ctx V C) (n : Str) (hn : c.unused n = false) :
    (minify c b h hi x).1.decls.filterMap (customValue n) = ((b.decls.filterMap (customValue n)).getLast?.map c.kept).toList ∧
    (minify c b h hi x).1.imps.filterMap (customValue n) = ((b.imps.filterMap (customValue n)).getLast?.map c.kept).toList := by
  have hlast : ∀ ds : List (Decl V), (ds.filterMap (customValue n)).getLast? = last (customValue n) ds := by
    intro ds
    rw [last, List.getLast?_eq_head?_reverse, ← List.filterMap_reverse, List.head?_filterMap]
  have key : ∀ (s : State V) (_ : s.Ready) (imp : Bool) (ds : List (Decl V)) (y z : Ctx V C),
      (State.finalize c ((handleList c imp ds (s, y)).1, z)).1.decls.filterMap (customValue n) =
        ((ds.filterMap (customValue n)).getLast?.map c.kept).toList := by
    intro s hs imp ds y z
    have h0 := (ready_inv s hs).custom
    obtain ⟨a, e⟩ := custom_list c hk imp ds (s, y) h0 (by rw [hs.decls]; simp)
    have hext := finalize_ext c ((handleList c imp ds (s, y)).1, z)
    rw [customInv_filterMap _ _ (customInv_ext _ _ _ a hext) n, last_ext _ _ hext n, e n hn, hs.decls, last_nil, hlast]
    simp
  refine ⟨?_, ?_⟩
  · exact key h hr false b.decls _ _
  · exact key hi hri true b.imps _ _

/-! ## C20: box shorthands -/

/-- Minifying the declarations of one family alone (src/declaration.rs:238-266 restricted to one handler). -/
def runBox (c : BoxCfg V) (ds : List (BoxDecl V)) : List (BoxDecl V) :=
  let r := ds.foldl (fun (o : BoxOut V) d => let r := o.1.handle c d; (r.1, o.2.1 ++ r.2.1, o.2.2 ++ r.2.2)) (.init, [], [])
  r.2.1 ++ (r.1.flush c).2.1

omit [DecidableEq C] in
/-- **C20** For every sequence of declarations of a box family (physical and logical longhands and shorthands, parsed and unparsed),
every writing mode and every targets that support logical properties, each side ends up with the same value. -/
theorem C20_sides (c : BoxCfg V) (hc : c.logicalSupported = true) (ds : List (BoxDecl V)) (wm : WritingMode) (s : Side) :
    last (boxSets id wm s) (runBox c ds) = last (boxSets id wm s) ds := by
  have key : ∀ (ds : List (BoxDecl V)) (o : BoxOut V), o.Inv → BoxOut.Inv (ds.foldl (fun (o : BoxOut V) d => let r := o.1.handle c d; (r.1, o.2.1 ++ r.2.1, o.2.2 ++ r.2.2)) o) ∧
      view id wm s (ds.foldl (fun (o : BoxOut V) d => let r := o.1.handle c d; (r.1, o.2.1 ++ r.2.1, o.2.2 ++ r.2.2)) o) =
        (last (boxSets id wm s) ds).or (view id wm s o) := by
    intro ds
    induction ds with
    | nil => intro o ho; exact ⟨ho, by simp [last_nil]⟩
    | cons d ds ih =>
      intro o ho
      obtain ⟨a, b⟩ := handle_spec id wm c hc d o.1 ho.1
      obtain ⟨a', b'⟩ := ih ((o.1.handle c d).1, o.2.1 ++ (o.1.handle c d).2.1, o.2.2 ++ (o.1.handle c d).2.2) ⟨a.1, by rw [ho.2, a.2]; rfl⟩
      refine ⟨a', ?_⟩
      rw [List.foldl_cons, b', last_cons, Option.or_assoc]
      congr 1
      have := b s
      unfold view at this ⊢
      rw [last_append, ← Option.or_assoc, this, Option.or_assoc]
  obtain ⟨a, b⟩ := key ds (.init, [], []) ⟨clean_inv _ ⟨fun _ => rfl, fun _ => rfl⟩, rfl⟩
  unfold runBox
  simp only []
  rw [last_append, (flush_spec id wm c hc _ a.1).2.2.2.2 s]
  rw [show view id wm s ((.init, [], []) : BoxOut V) = none from rfl, Option.or_none] at b
  exact b

/-- `margin` with targets that support everything. -/
def marginCfg : BoxCfg Nat := ⟨.physical, fun v => decide (v ≥ 100), true, true⟩
/-- Horizontal text, left to right. -/
def ltrMode : WritingMode where
  toFun | .blockStart => .top | .blockEnd => .bottom | .inlineStart => .left | .inlineEnd => .right
  invFun | .top => .blockStart | .bottom => .blockEnd | .left => .inlineStart | .right => .inlineEnd
  left_inv l := by cases l <;> rfl
  right_inv s := by cases s <;> rfl

example : runBox marginCfg [.rect 1 2 3 4, .phys .left 5, .log .inlineStart 7, .block 8 9] =
    [.rect 1 2 3 5, .block 8 9, .log .inlineStart 7] := by decide
example : last (boxSets id ltrMode .left) (runBox marginCfg [.rect 1 2 3 4, .phys .left 5, .log .inlineStart 7, .block 8 9]) =
    some (.val 7) := (C20_sides marginCfg rfl _ _ _).trans (by decide)

/-- A browser drops a declaration with a value it does not know. -/
def known (ok : V → Bool) : BoxDecl V → Bool
  | .phys _ v => ok v
  | .log _ v => ok v
  | .rect t r b l => ok t && ok r && ok b && ok l
  | .block a b => ok a && ok b
  | .inline a b => ok a && ok b
  | .unparsed _ _ => true

/-- In a browser of the targets that does not know a value, merging longhands into a shorthand loses the others. -/
theorem C20_counterexample_unknown_value :
    let ok := fun v : Nat => decide (v < 100)
    let ds : List (BoxDecl Nat) := [.phys .top 1, .phys .right 2, .phys .bottom 3, .phys .left 100]
    last (boxSets id ltrMode .top) (ds.filter (known ok)) = some (.val 1) ∧
    last (boxSets id ltrMode .top) ((runBox marginCfg ds).filter (known ok)) = none := by decide

/-! ## The whole block -/

/-- **C21** (and C19 for `direction` and `unicode-bidi`, C20 in a whole block) Minifying a block changes neither the winning value of
any longhand nor whether it is important; the handlers end up ready for the next block. Missing: unparsed `all`, `direction` and
`unicode-bidi` (counterexamples below), targets for which logical properties are compiled (C49), and the handlers that are not
modelled. -/
theorem C21_winner_partial (m : V → M) (wm : WritingMode) (c : Cfg V C) (hc : c.Keeps m) (b : Block V)
    (hb : ∀ d ∈ b.decls ++ b.imps, d.odd = false) (h hi : State V) (hr : h.Ready) (hri : hi.Ready) (x : Ctx V C) :
    (minify c b h hi x).2.1.Ready ∧ (minify c b h hi x).2.2.1.Ready ∧
      ∀ l, l.used c → winner m wm l (minify c b h hi x).1 = winner m wm l b := by
  have key : ∀ (s : State V) (_ : s.Ready) (imp : Bool) (ds : List (Decl V)) (_ : ∀ d ∈ ds, d.odd = false) (y z : Ctx V C),
      (∀ p, Done (State.finalize c ((handleList c imp ds (s, y)).1, z)).1 p) ∧
      (State.finalize c ((handleList c imp ds (s, y)).1, z)).1.customs = [] ∧ ∀ l, l.used c →
      last (sets m wm l) (State.finalize c ((handleList c imp ds (s, y)).1, z)).1.decls = last (sets m wm l) ds := by
    intro s hs imp ds hds y z
    obtain ⟨a, e⟩ := handleList_spec m wm c hc imp ds hds (s, y) (ready_inv s hs)
    obtain ⟨f, g, k⟩ := finalize_spec m wm c hc ((handleList c imp ds (s, y)).1, z) (inv_finv _ a)
    refine ⟨f, g, fun l hl => ?_⟩
    rw [k l, e l hl, ready_view m wm s hs l]
    simp
  obtain ⟨a1, a2, a3⟩ := key h hr false b.decls (fun d hd => hb d (by simp [hd])) (handleList c true b.imps (hi, x)).2
    (handleList c false b.decls (h, (handleList c true b.imps (hi, x)).2)).2
  obtain ⟨b1, b2, b3⟩ := key hi hri true b.imps (fun d hd => hb d (by simp [hd])) x
    (State.finalize c (handleList c false b.decls (h, (handleList c true b.imps (hi, x)).2))).2
  refine ⟨⟨fun p => ?_, a2, rfl⟩, ⟨fun p => ?_, b2, rfl⟩, fun l hl => ?_⟩
  · have := a1 p
    cases p <;> exact this
  · have := b1 p
    cases p <;> exact this
  · unfold winner
    rw [show last (sets m wm l) (minify c b h hi x).1.imps = last (sets m wm l) b.imps from b3 l hl,
      show last (sets m wm l) (minify c b h hi x).1.decls = last (sets m wm l) b.decls from a3 l hl]

omit [DecidableEq C] in
theorem handle_ctx_irrelevant [DecidableEq C] (c : Cfg V C) (d : Decl V) (s : State V) (x y : Ctx V C) :
    (s.handle c d x).1 = (s.handle c d y).1 := by
  cases d with
  | custom n v =>
    simp only [State.handle, State.handleCustom]
    split
    · rfl
    · split
      · split
        · split
          · rfl
          · simp [addFallbacks_kept]
        · simp [addFallbacks_kept]
      · simp [addFallbacks_kept]
  | unknown n v => simp only [State.handle]; split <;> rfl
  | _ => rfl

theorem handleList_ctx_irrelevant (c : Cfg V C) (i j : Bool) (ds : List (Decl V)) (s : State V) (x y : Ctx V C) :
    (handleList c i ds (s, x)).1 = (handleList c j ds (s, y)).1 := by
  induction ds generalizing s x y with
  | nil => rfl
  | cons d ds ih =>
    rw [handleList, handleList]
    have := handle_ctx_irrelevant c d s { x with isImportant := i } { y with isImportant := j }
    rw [show (s.handle c d { x with isImportant := i }) = ((s.handle c d { x with isImportant := i }).1, (s.handle c d { x with isImportant := i }).2) from rfl,
      show (s.handle c d { y with isImportant := j }) = ((s.handle c d { y with isImportant := j }).1, (s.handle c d { y with isImportant := j }).2) from rfl,
      this]
    exact ih _ _ _

omit [DecidableEq C] in
theorem finalize_ctx_irrelevant (c : Cfg V C) (s : State V) (x y : Ctx V C) :
    (State.finalize c (s, x)).1 = (State.finalize c (s, y)).1 := rfl

/-- **C21** The important declarations that are written do not depend on the normal ones, nor on the context, nor the other way
round. (Any block, any targets.) -/
theorem C21_independent (c : Cfg V C) (b b' : Block V) (h hi h' hi' : State V) (x x' : Ctx V C) :
    (b.imps = b'.imps → hi = hi' → (minify c b h hi x).1.imps = (minify c b' h' hi' x').1.imps) ∧
    (b.decls = b'.decls → h = h' → (minify c b h hi x).1.decls = (minify c b' h' hi' x').1.decls) := by
  constructor
  · intro hb hh
    subst hh
    show (State.finalize c ((handleList c true b.imps (hi, x)).1, _)).1.decls = (State.finalize c ((handleList c true b'.imps (hi, x')).1, _)).1.decls
    rw [hb, handleList_ctx_irrelevant c true true b'.imps hi x x']
    rfl
  · intro hb hh
    subst hh
    show (State.finalize c ((handleList c false b.decls (h, _)).1, _)).1.decls = (State.finalize c ((handleList c false b'.decls (h, _)).1, _)).1.decls
    rw [hb, handleList_ctx_irrelevant c false false b'.decls h _ (handleList c true b'.imps (hi', x')).2]
    rfl

/-! ### Examples and counterexamples -/

/-- Targets that support everything; conditions are numbers. -/
def plainCfg : Cfg Nat Nat where
  box f := ⟨if f = .inset then .logical else .physical, fun _ => false, true, true⟩
  overflowTwo := true
  short _ := ⟨fun _ => false, fun _ v => (v, []), fun vs => (vs, []), id⟩
  lower v := (v, [])
  kind := .styleRule
  unused _ := false

theorem plainCfg_keeps : plainCfg.Keeps (id : Nat → Nat) where
  box f := rfl
  short f := ⟨fun _ _ => rfl, fun _ _ => rfl, fun _ => rfl⟩
  lower := .inr fun _ => rfl

omit [DecidableEq V] in
theorem init_ready : (State.init : State V).Ready where
  done p := by
    cases p with
    | dir => exact ⟨rfl, rfl⟩
    | box f => exact ⟨fun _ => rfl, fun _ => rfl⟩
    | short f => exact ⟨fun _ => rfl, fun _ => rfl⟩
    | overflow => rfl
  customs := rfl
  decls := rfl

/-- A fresh context. -/
def ctx0 : Ctx V C := ⟨false, [], [], []⟩

/-- `direction: 1; margin: 2; --a: 3; all: 4; margin-left: 5; --a: 6; overflow-x: 7; overflow-y: 7` with `--b: 8 !important`. -/
def sample : Block Nat :=
  ⟨[.direction 1, .box .margin (.rect 2 2 2 2), .custom cs!"--a" 3, .all 4, .box .margin (.phys .left 5), .custom cs!"--a" 6,
    .overflow (.x 7), .overflow (.y 7)], [.custom cs!"--b" 8]⟩

example : winner id ltrMode (.box .margin .left) (minify plainCfg sample .init .init ctx0).1 = some (.val 5, false) :=
  ((C21_winner_partial id ltrMode plainCfg plainCfg_keeps sample (by simp [sample, Decl.odd]) _ _ init_ready init_ready _).2.2 (.box .margin .left)
    trivial).trans rfl
example : winner id ltrMode (.box .margin .top) (minify plainCfg sample .init .init ctx0).1 = some (.all 4, false) :=
  ((C21_winner_partial id ltrMode plainCfg plainCfg_keeps sample (by simp [sample, Decl.odd]) _ _ init_ready init_ready _).2.2 (.box .margin .top)
    trivial).trans rfl
example : winner id ltrMode .direction (minify plainCfg sample .init .init ctx0).1 = some (.val 1, false) :=
  ((C21_winner_partial id ltrMode plainCfg plainCfg_keeps sample (by simp [sample, Decl.odd]) _ _ init_ready init_ready _).2.2 .direction
    trivial).trans rfl
example : (minify plainCfg sample .init .init ctx0).1.decls.filterMap (customValue cs!"--a") = [6] :=
  (C19_custom plainCfg (fun _ => rfl) sample _ _ init_ready init_ready _ cs!"--a" rfl).1

/-- `direction: 1; direction: var(2)`: the parsed one is written last and wins. -/
theorem C19_counterexample_direction_order :
    let b : Block Nat := ⟨[.direction 1, .unparsedDirection 2], []⟩
    winner id ltrMode .direction b = some (.var 2, false) ∧
    winner id ltrMode .direction (minify plainCfg b .init .init ctx0).1 = some (.val 1, false) := ⟨rfl, rfl⟩

/-- `direction: var(1); all: 2`: the unparsed direction is lost. -/
theorem C19_counterexample_direction_all :
    let b : Block Nat := ⟨[.unparsedDirection 1, .all 2], []⟩
    winner id ltrMode .direction b = some (.var 1, false) ∧
    winner id ltrMode .direction (minify plainCfg b .init .init ctx0).1 = none := ⟨rfl, rfl⟩

/-- `margin-top: 1; all: var(2)`: the margin is written after `all`. -/
theorem C21_counterexample_all :
    let b : Block Nat := ⟨[.box .margin (.phys .top 1), .unparsedAll 2], []⟩
    winner id ltrMode (.box .margin .top) b = some (.partOfShort 2, false) ∧
    winner id ltrMode (.box .margin .top) (minify plainCfg b .init .init ctx0).1 = some (.val 1, false) := ⟨rfl, rfl⟩

/-- Targets without logical properties. -/
def oldCfg : Cfg Nat Nat := { plainCfg with box := fun f => ⟨if f = .inset then .logical else .physical, fun _ => false, false, false⟩ }

/-- `margin-inline-start: 1 !important` becomes a normal declaration of the `:dir()` rules: nothing important is left. -/
theorem C21_counterexample_logical :
    let b : Block Nat := ⟨[], [.box .margin (.log .inlineStart 1)]⟩
    (minify oldCfg b .init .init ctx0).1 = ⟨[], []⟩ ∧
    (minify oldCfg b .init .init ctx0).2.2.2.ltr = [.box .margin (.phys .left 1)] := ⟨rfl, rfl⟩

/-- Values from 100 on need a conditional rule. -/
def lowerCfg : Cfg Nat Nat := { plainCfg with lower := fun v => if v ≥ 100 then (v - 100, [(0, v)]) else (v, []) }

/-- `--a: 100; --a: 1`: the conditional rule of the overridden value stays and comes after the block. -/
theorem C19_counterexample_stale_fallback :
    let b : Block Nat := ⟨[.custom cs!"--a" 100, .custom cs!"--a" 1], []⟩
    (minify lowerCfg b .init .init ctx0).1.decls = [.custom cs!"--a" 1] ∧
    (minify lowerCfg b .init .init ctx0).2.2.2.supports = [⟨0, [.custom cs!"--a" 100], []⟩] := ⟨rfl, rfl⟩

/-! ## C49: compiling logical properties -/

/-- Horizontal text, right to left. -/
def rtlMode : WritingMode where
  toFun | .blockStart => .top | .blockEnd => .bottom | .inlineStart => .right | .inlineEnd => .left
  invFun | .top => .blockStart | .bottom => .blockEnd | .right => .inlineStart | .left => .inlineEnd
  left_inv l := by cases l <;> rfl
  right_inv s := by cases s <;> rfl

/-- Minifying the declarations of one family alone, with the declarations for the `:dir()` rules, which come after the block. -/
def runBoxAll (c : BoxCfg V) (ds : List (BoxDecl V)) : List (BoxDecl V) × List (Logical (BoxDecl V)) :=
  let r := ds.foldl (fun (o : BoxOut V) d => let r := o.1.handle c d; (r.1, o.2.1 ++ r.2.1, o.2.2 ++ r.2.2)) (.init, [], [])
  (r.2.1 ++ (r.1.flush c).2.1, r.2.2 ++ (r.1.flush c).2.2)

/-- A parsed logical declaration. -/
def BoxDecl.isLogical : BoxDecl V → Bool
  | .log _ _ | .block _ _ | .inline _ _ => true
  | _ => false

/-- While only logical declarations come, nothing is written. -/
def Waiting (σ : BoxState V) : Prop :=
  (∀ s, σ.phys s = none) ∧ (σ.category = .physical → σ.hasAny = false) ∧ (σ.hasAny = false → ∀ l, σ.log l = none)

/-- The state after a logical longhand. -/
def putLog (l : LSide) (v : V) (σ : BoxState V) : BoxState V :=
  { σ with log := fun x => if x = l then some (.parsed v) else σ.log x, category := .logical, hasAny := true }

omit [DecidableEq C] [DecidableEq V] in
theorem putLog_waiting (l : LSide) (v : V) (σ : BoxState V) (h : Waiting σ) : Waiting (putLog l v σ) :=
  ⟨h.1, by simp [putLog], by simp [putLog]⟩

omit [DecidableEq C] in
theorem waiting_flushIf (c : BoxCfg V) (hi : ∀ v, c.incompatible v = false) (p : BoxState V → Bool) (v : V) (σ : BoxState V)
    (h : Waiting σ) : BoxOut.flushIf c p v .logical (σ, [], []) = (σ, [], []) := by
  unfold BoxOut.flushIf
  split
  · next hf =>
    have hcat : σ.category = .physical := by
      rcases hf with hf | hf
      · cases hc : σ.category with
        | physical => rfl
        | logical => exact absurd hc.symm hf
      · simp [hi] at hf
    simp [BoxOut.flush, BoxState.flush, h.2.1 hcat]
  · rfl

omit [DecidableEq C] in
theorem waiting_logical (c : BoxCfg V) (l : LSide) (v : V) (σ : BoxState V) (h : Waiting σ) :
    BoxOut.logicalProperty c l (.parsed v) (σ, [], []) = (putLog l v σ, [], []) := by
  unfold BoxOut.logicalProperty
  simp only [Pending.isUnparsed, Bool.false_eq_true, and_false, or_false]
  split
  · next hf =>
    have hcat : σ.category = .physical := by
      cases hc : σ.category with
      | physical => rfl
      | logical => exact absurd hc hf
    simp [BoxOut.flush, BoxState.flush, h.2.1 hcat, putLog]
  · rfl

/-- The state after a logical declaration. -/
def putDecl : BoxDecl V → BoxState V → BoxState V
  | .log l v, σ => putLog l v σ
  | .block a b, σ => putLog .blockEnd b (putLog .blockStart a σ)
  | .inline a b, σ => putLog .inlineEnd b (putLog .inlineStart a σ)
  | _, σ => σ

omit [DecidableEq C] in
theorem waiting_handle (c : BoxCfg V) (hi : ∀ v, c.incompatible v = false) (d : BoxDecl V) (hd : d.isLogical = true) (σ : BoxState V)
    (h : Waiting σ) : σ.handle c d = (putDecl d σ, [], []) ∧ Waiting (putDecl d σ) := by
  cases d with
  | log l v =>
    refine ⟨?_, putLog_waiting _ _ _ h⟩
    simp only [BoxState.handle, waiting_flushIf c hi _ _ σ h, waiting_logical c _ _ σ h, putDecl]
  | block a b =>
    have h' := putLog_waiting .blockStart a σ h
    refine ⟨?_, putLog_waiting _ _ _ h'⟩
    simp only [BoxState.handle, waiting_flushIf c hi _ _ σ h, waiting_logical c _ _ σ h, waiting_logical c _ _ _ h', putDecl]
  | inline a b =>
    have h' := putLog_waiting .inlineStart a σ h
    refine ⟨?_, putLog_waiting _ _ _ h'⟩
    simp only [BoxState.handle, waiting_flushIf c hi _ _ σ h, waiting_logical c _ _ σ h, waiting_logical c _ _ _ h', putDecl]
  | _ => simp [BoxDecl.isLogical] at hd

omit [DecidableEq C] [DecidableEq V] in
theorem putDecl_pend (wm : WritingMode) (s : Side) (d : BoxDecl V) (hd : d.isLogical = true) (σ : BoxState V) :
    pend id wm s (putDecl d σ) = (boxSets id wm s d).or (pend id wm s σ) := by
  have hl : ∀ l v (σ : BoxState V), pend id wm s (putLog l v σ) = (if wm l = s then some (.val v) else none).or (pend id wm s σ) := by
    intro l v σ
    simp only [pend, putLog]
    by_cases hs : wm l = s
    · rw [if_pos hs, if_pos ((wm_iff wm l s).1 hs).symm]; simp [pendingVal]
    · rw [if_neg hs, if_neg (fun he => hs ((wm_iff wm l s).2 he.symm))]; simp
  cases d with
  | log l v => simp [putDecl, hl, boxSets]
  | block a b =>
    simp only [putDecl, hl, boxSets, wm_iff]
    cases wm.symm s <;> simp
  | inline a b =>
    simp only [putDecl, hl, boxSets, wm_iff]
    cases wm.symm s <;> simp
  | _ => simp [BoxDecl.isLogical] at hd

omit [DecidableEq C] in
theorem runBoxAll_logical (c : BoxCfg V) (hi : ∀ v, c.incompatible v = false) (ds : List (BoxDecl V)) (hd : ∀ d ∈ ds, d.isLogical = true) :
    ∃ σ : BoxState V, Waiting σ ∧ runBoxAll c ds = ((σ.flush c).2.1, (σ.flush c).2.2) ∧
      (∀ wm s, pend id wm s σ = last (boxSets id wm s) ds) ∧ ∀ l p, σ.log l = some p → ∃ v, p = .parsed v := by
  have key : ∀ (ds : List (BoxDecl V)) (_ : ∀ d ∈ ds, d.isLogical = true) (σ : BoxState V), Waiting σ →
      (∀ l p, σ.log l = some p → ∃ v, p = .parsed v) →
      ∃ σ', Waiting σ' ∧ ds.foldl (fun (o : BoxOut V) d => let r := o.1.handle c d; (r.1, o.2.1 ++ r.2.1, o.2.2 ++ r.2.2)) (σ, [], []) = (σ', [], []) ∧
        (∀ wm s, pend id wm s σ' = (last (boxSets id wm s) ds).or (pend id wm s σ)) ∧ ∀ l p, σ'.log l = some p → ∃ v, p = .parsed v := by
    intro ds
    induction ds with
    | nil => intro _ σ h hp; exact ⟨σ, h, rfl, fun wm s => by simp [last_nil], hp⟩
    | cons d ds ih =>
      intro hd σ h hp
      obtain ⟨a, b⟩ := waiting_handle c hi d (hd d (by simp)) σ h
      have hp' : ∀ l p, (putDecl d σ).log l = some p → ∃ v, p = .parsed v := by
        have hput : ∀ l v (σ : BoxState V), (∀ l p, σ.log l = some p → ∃ v, p = .parsed v) →
            ∀ l' p, (putLog l v σ).log l' = some p → ∃ v, p = .parsed v := by
          intro l v σ hσ l' p hl'
          simp only [putLog] at hl'
          split at hl'
          · injection hl' with hl'; exact ⟨v, hl'.symm⟩
          · exact hσ _ _ hl'
        cases d with
        | log l v => exact hput l v σ hp
        | block a b => exact hput _ _ _ (hput _ _ σ hp)
        | inline a b => exact hput _ _ _ (hput _ _ σ hp)
        | _ => exact hp
      obtain ⟨σ', e1, e2, e3, e4⟩ := ih (fun d hd' => hd d (by simp [hd'])) _ b hp'
      refine ⟨σ', e1, ?_, fun wm s => ?_, e4⟩
      · rw [List.foldl_cons]
        simp only [a, List.append_nil]
        exact e2
      · rw [e3 wm s, putDecl_pend wm s d (hd d (by simp)), last_cons, Option.or_assoc]
  obtain ⟨σ, h1, h2, h3, h4⟩ := key ds hd .init ⟨fun _ => rfl, fun _ => rfl, fun _ _ => rfl⟩ (by simp [BoxState.init])
  refine ⟨σ, h1, ?_, fun wm s => ?_, h4⟩
  · simp only [runBoxAll, h2, List.nil_append]
  · rw [h3 wm s]; simp [pend, BoxState.init]

omit [DecidableEq C] in
/-- **C49** When logical properties are compiled away, each side has the same value in horizontal text of either direction, where the
declarations of the `:dir()` rule come after those of the block. Missing: blocks that mix logical with physical or unparsed
declarations, or have values that the targets do not support, where the code is wrong (counterexamples below), and vertical text,
which the compiled form cannot express. -/
theorem C49_compile_partial (c : BoxCfg V) (hc : c.logicalSupported = false) (hi : ∀ v, c.incompatible v = false) (ds : List (BoxDecl V))
    (hd : ∀ d ∈ ds, d.isLogical = true) (s : Side) :
    last (boxSets id ltrMode s) ((runBoxAll c ds).1 ++ (runBoxAll c ds).2.map (·.ltr)) = last (boxSets id ltrMode s) ds ∧
    last (boxSets id rtlMode s) ((runBoxAll c ds).1 ++ (runBoxAll c ds).2.map (·.rtl)) = last (boxSets id rtlMode s) ds := by
  obtain ⟨σ, h1, h2, h3, h4⟩ := runBoxAll_logical c hi ds hd
  rw [← h3 ltrMode s, ← h3 rtlMode s, h2]
  have hlog : ∀ l, σ.log l = none ∨ ∃ v, σ.log l = some (.parsed v) := by
    intro l
    cases hl : σ.log l with
    | none => exact .inl rfl
    | some p => obtain ⟨v, rfl⟩ := h4 l p hl; exact .inr ⟨v, rfl⟩
  unfold BoxState.flush
  cases ha : σ.hasAny with
  | false =>
    have := h1.2.2 ha
    simp [pend, this, h1.1, last_nil]
  | true =>
    have hphys : flushPhys c σ.phys = [] := by simp [flushPhys, h1.1]
    simp only [Bool.not_true, Bool.false_eq_true, if_false, hc, hphys, List.nil_append]
    have hl : ∀ l, ltrMode.symm l = (match l with | .top => .blockStart | .bottom => .blockEnd | .left => .inlineStart | .right => .inlineEnd) := by
      intro l; cases l <;> rfl
    have hr : ∀ l, rtlMode.symm l = (match l with | .top => .blockStart | .bottom => .blockEnd | .right => .inlineStart | .left => .inlineEnd) := by
      intro l; cases l <;> rfl
    have hp := h1.1
    clear h2 h3 h4 hd h1 hphys
    rcases hlog .blockStart with b1 | ⟨v1, b1⟩ <;> rcases hlog .blockEnd with b2 | ⟨v2, b2⟩ <;>
      rcases hlog .inlineStart with b3 | ⟨v3, b3⟩ <;> rcases hlog .inlineEnd with b4 | ⟨v4, b4⟩ <;>
      simp only [b1, b2, b3, b4, compileInline] <;> (try split) <;> cases s <;>
      simp_all [last_append, last_cons, last_nil, boxSets, compiled, pend, pendingVal, hl, hr, hp, b1, b2, b3, b4]

/-- Targets without logical properties, for one family. -/
def oldMargin : BoxCfg Nat := ⟨.physical, fun _ => false, false, false⟩

example : runBoxAll oldMargin [.inline 1 2, .log .blockStart 3, .log .inlineEnd 4] =
    ([.phys .top 3], [⟨.phys .left 1, .phys .right 1⟩, ⟨.phys .right 4, .phys .left 4⟩]) := by decide
example : last (boxSets id rtlMode .right) ((runBoxAll oldMargin [.inline 1 2, .log .blockStart 3, .log .inlineEnd 4]).1 ++
    (runBoxAll oldMargin [.inline 1 2, .log .blockStart 3, .log .inlineEnd 4]).2.map (·.rtl)) = some (.val 1) :=
  (C49_compile_partial oldMargin rfl (fun _ => rfl) _ (by decide) _).2.trans (by decide)

/-- `margin-inline-start: 1; margin-left: 2`: the `:dir(ltr)` rule comes last, so the earlier declaration wins. -/
theorem C49_counterexample_order :
    let ds : List (BoxDecl Nat) := [.log .inlineStart 1, .phys .left 2]
    last (boxSets id ltrMode .left) ds = some (.val 2) ∧
    last (boxSets id ltrMode .left) ((runBoxAll oldMargin ds).1 ++ (runBoxAll oldMargin ds).2.map (·.ltr)) = some (.val 1) := by decide

/-- `margin-inline: 1 2; margin-inline-start: var(3); margin-inline: 4 4`: the equal values are written into the block, before
the `:dir(ltr)` rule. -/
theorem C49_counterexample_equal :
    let ds : List (BoxDecl Nat) := [.inline 1 2, .unparsed (.log .inlineStart) 3, .inline 4 4]
    last (boxSets id ltrMode .right) ds = some (.val 4) ∧
    last (boxSets id ltrMode .right) ((runBoxAll oldMargin ds).1 ++ (runBoxAll oldMargin ds).2.map (·.ltr)) = some (.val 2) := by decide

end Verif.Handler
