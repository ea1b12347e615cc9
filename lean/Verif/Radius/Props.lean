import Verif.Radius.Spec
import Verif.Targets.Props
/-! # C126: the radii of a block -/
namespace Verif.Radius
open Verif.Targets Spec
open Verif.Transition (orNone contains inter remove)

section
variable {V : Type}

/-- Prefixes that the browser knows. -/
structure PrefOk (b : Agent V) (p : PrefixSet) : Prop where
  ne : ∃ q, p.has q = true
  known : ∀ q, p.has q = true → b.prefixes q = true

theorem takes_of {b : Agent V} {p : PrefixSet} {q : Prefix} (h : p.has q = true) (hq : b.prefixes q = true) : b.takes p = true := by
  simp only [Agent.takes, List.any_eq_true]
  exact ⟨q, by cases q <;> simp, by simp [h, hq]⟩

theorem PrefOk.takes {b : Agent V} {p : PrefixSet} (h : PrefOk b p) : b.takes p = true := by
  obtain ⟨q, hq⟩ := h.ne
  exact takes_of hq (h.known q hq)

theorem PrefOk.targets {b : Agent V} {p : PrefixSet} (h : PrefOk b p) (t : Targets) (f : PrefixFeature) : b.takes (t.prefixes p f) = true := by
  have hc := C13_targets t p f
  cases hn : p.has .none with
  | true => exact takes_of (hc.2.2.1 hn) (h.known _ hn)
  | false => rw [hc.1 hn]; exact h.takes

theorem PrefOk.union {b : Agent V} {p q : PrefixSet} (h : PrefOk b p) (h' : PrefOk b q) : PrefOk b (p.union q) := by
  have hu : ∀ x, (p.union q).has x = (p.has x || q.has x) := by intro x; cases x <;> rfl
  obtain ⟨x, hx⟩ := h.ne
  refine ⟨⟨x, by rw [hu, hx]; rfl⟩, fun y hy => ?_⟩
  rw [hu, Bool.or_eq_true] at hy
  exact hy.elim (h.known y) (h'.known y)

theorem ne_empty {p : PrefixSet} (h : p ≠ .empty) : ∃ q, p.has q = true := by
  obtain ⟨a, b, c, d, e⟩ := p
  cases a with
  | true => exact ⟨.none, rfl⟩
  | false => cases b with
    | true => exact ⟨.webkit, rfl⟩
    | false => cases c with
      | true => exact ⟨.moz, rfl⟩
      | false => cases d with
        | true => exact ⟨.ms, rfl⟩
        | false => cases e with
          | true => exact ⟨.o, rfl⟩
          | false => exact absurd rfl h

theorem PrefOk.sub {b : Agent V} {p q : PrefixSet} (h : PrefOk b p) (hs : ∀ x, q.has x = true → p.has x = true) (hne : q ≠ .empty) : PrefOk b q :=
  ⟨ne_empty hne, fun x hx => h.known x (hs x hx)⟩

theorem inter_has (p q : PrefixSet) (x : Prefix) : (inter p q).has x = (p.has x && q.has x) := by cases x <;> rfl
theorem remove_has (p q : PrefixSet) (x : Prefix) : (remove p q).has x = true → p.has x = true := by cases x <;> simp [remove, PrefixSet.has] <;> exact fun h _ => h

theorem computed_append (b : Agent V) (dir : Dir) (m : Corner → Radius V) (l l' : List (Decl V)) : computed b dir m (l ++ l') = computed b dir (computed b dir m l) l' := List.foldl_append ..

theorem apply_corner {b : Agent V} (dir : Dir) (m : Corner → Radius V) (c : Corner) (v : Val V) {p : PrefixSet} (h : b.takes p = true) : apply b dir m (.corner c v p) = Spec.set m c (b.value v) := if_pos h
theorem apply_raw {b : Agent V} (dir : Dir) (m : Corner → Radius V) (t : Str) {p : PrefixSet} (h : b.takes p = true) : apply b dir m (.rawRadius t p) = fun _ => .raw true t := if_pos h
theorem apply_radius {b : Agent V} (dir : Dir) (m : Corner → Radius V) {x y z w : V} {p : PrefixSet} (h : b.takes p = true) (hx : b.knows x = true) (hy : b.knows y = true) (hz : b.knows z = true) (hw : b.knows w = true) :
    apply b dir m (.radius x y z w p) = allFour (.val x) (.val y) (.val z) (.val w) := if_pos (by rw [h, hx, hy, hz, hw]; rfl)

/-- Physical fields that the browser knows. -/
def Known (b : Agent V) (f : Corner → Option (V × PrefixSet)) : Prop := ∀ c v p, f c = some (v, p) → b.knows v = true ∧ (p ≠ .empty → PrefOk b p)

/-- The corner after a single declaration. -/
def upd (f : Corner → Option (V × PrefixSet)) (m : Corner → Radius V) (c : Corner) : Corner → Radius V := fun k =>
  if k = c then (match f c with | some (v, p) => if p = .empty then m k else .val v | none => m k) else m k

theorem computed_single (env : Env V) (b : Agent V) (dir : Dir) (m : Corner → Radius V) (f) (h : Known b f) (c : Corner) : computed b dir m (single env f c) = upd f m c := by
  unfold single
  funext k
  cases hf : f c with
  | none => simp [computed, upd, hf]
  | some x =>
    obtain ⟨v, p⟩ := x
    obtain ⟨hk, hp⟩ := h c v p hf
    by_cases he : p = .empty
    · subst he; simp [computed, upd, hf]
    · simp [computed, upd, hf, he, apply, ((hp he).targets env.targets c.feature), Spec.set, Agent.value, hk]

/-- The physical part of `flush`. -/
def physOut (env : Env V) (f : Corner → Option (V × PrefixSet)) : List (Decl V) :=
  (shorthand env f).1 ++ single env (shorthand env f).2 .tl ++ single env (shorthand env f).2 .tr ++ single env (shorthand env f).2 .br ++ single env (shorthand env f).2 .bl

theorem computed_phys (env : Env V) (b : Agent V) (dir : Dir) (m : Corner → Radius V) (f) (h : ∀ c v p, f c = some (v, p) → b.knows v = true ∧ PrefOk b p) (k : Corner) :
    computed b dir m (physOut env f) k = match f k with | some (v, _) => .val v | none => m k := by
  have hk : Known b f := fun c v p e => ⟨(h c v p e).1, fun _ => (h c v p e).2⟩
  have hne : ∀ c v p, f c = some (v, p) → p ≠ .empty := by
    intro c v p e he
    obtain ⟨q, hq⟩ := (h c v p e).2.ne
    rw [he] at hq
    cases q <;> cases hq
  have plain : ∀ m : Corner → Radius V, computed b dir m (single env f .tl ++ single env f .tr ++ single env f .br ++ single env f .bl) k = match f k with | some (v, _) => .val v | none => m k := by
    intro m
    simp only [computed_append, computed_single env b dir _ f hk]
    cases hf : f k with
    | none => cases k <;> simp [upd, hf]
    | some x =>
      obtain ⟨v, p⟩ := x
      have := hne k v p hf
      cases k <;> simp [upd, hf, this]
  have none_case : shorthand env f = ([], f) → computed b dir m (physOut env f) k = match f k with | some (v, _) => .val v | none => m k := by
    intro e
    unfold physOut
    rw [e]
    exact plain m
  cases h1 : f .tl with
  | none => exact none_case (by simp [shorthand, h1])
  | some x1 =>
  cases h2 : f .tr with
  | none => exact none_case (by simp [shorthand, h1, h2])
  | some x2 =>
  cases h3 : f .br with
  | none => exact none_case (by simp [shorthand, h1, h2, h3])
  | some x3 =>
  cases h4 : f .bl with
  | none => exact none_case (by simp [shorthand, h1, h2, h3, h4])
  | some x4 =>
    obtain ⟨v1, p1⟩ := x1; obtain ⟨v2, p2⟩ := x2; obtain ⟨v3, p3⟩ := x3; obtain ⟨v4, p4⟩ := x4
    by_cases hi : inter (inter (inter p1 p2) p3) p4 = .empty
    · exact none_case (by simp [shorthand, h1, h2, h3, h4, hi])
    · obtain ⟨k1, o1⟩ := h _ _ _ h1
      obtain ⟨k2, o2⟩ := h _ _ _ h2
      obtain ⟨k3, o3⟩ := h _ _ _ h3
      obtain ⟨k4, o4⟩ := h _ _ _ h4
      have oi : PrefOk b (inter (inter (inter p1 p2) p3) p4) := o1.sub (fun x hx => by simp only [inter_has, Bool.and_eq_true] at hx; exact hx.1.1.1) hi
      have hs : shorthand env f = ([.radius v1 v2 v3 v4 (env.targets.prefixes (inter (inter (inter p1 p2) p3) p4) .borderRadius)], corners (some (v1, remove p1 (inter (inter (inter p1 p2) p3) p4))) (some (v2, remove p2 (inter (inter (inter p1 p2) p3) p4))) (some (v3, remove p3 (inter (inter (inter p1 p2) p3) p4))) (some (v4, remove p4 (inter (inter (inter p1 p2) p3) p4)))) := by simp [shorthand, h1, h2, h3, h4, hi]
      unfold physOut
      rw [hs]
      have hk' : Known b (corners (some (v1, remove p1 (inter (inter (inter p1 p2) p3) p4))) (some (v2, remove p2 (inter (inter (inter p1 p2) p3) p4))) (some (v3, remove p3 (inter (inter (inter p1 p2) p3) p4))) (some (v4, remove p4 (inter (inter (inter p1 p2) p3) p4)))) := by
        intro c v p e
        cases c <;> cases e
        · exact ⟨k1, fun hne => o1.sub (remove_has _ _) hne⟩
        · exact ⟨k2, fun hne => o2.sub (remove_has _ _) hne⟩
        · exact ⟨k3, fun hne => o3.sub (remove_has _ _) hne⟩
        · exact ⟨k4, fun hne => o4.sub (remove_has _ _) hne⟩
      simp only [computed_append, computed_single env b dir _ _ hk']
      have hr : computed b dir m [.radius v1 v2 v3 v4 (env.targets.prefixes (inter (inter (inter p1 p2) p3) p4) .borderRadius)] = allFour (.val v1) (.val v2) (.val v3) (.val v4) := by
        simp [computed, apply, oi.targets env.targets .borderRadius, k1, k2, k3, k4]
      rw [hr]
      cases k <;> simp [upd, h1, h2, h3, h4, allFour, corners]

/-- The logical corner that is a corner. -/
def lOf : Dir → Corner → LCorner
  | .ltr, .tl => .ss
  | .ltr, .tr => .se
  | .ltr, .br => .ee
  | .ltr, .bl => .es
  | .rtl, .tr => .ss
  | .rtl, .tl => .se
  | .rtl, .bl => .ee
  | .rtl, .br => .es

theorem phys_eq (dir : Dir) (k : Corner) (c : LCorner) : k = physicalCorner dir c ↔ c = lOf dir k := by
  cases dir <;> cases k <;> cases c <;> simp [physicalCorner, lOf]

/-- An accepted value. -/
def radiusOf : Val V → Radius V
  | .val v => .val v
  | .raw t => .raw false t

/-- The pending values over the computed ones. -/
def over (dir : Dir) (h : Handler V) (m : Corner → Radius V) : Corner → Radius V := fun k =>
  match h.phys k with
  | some (v, _) => .val v
  | none => match h.log (lOf dir k) with
    | some v => radiusOf v
    | none => m k

/-- Logical fields that the browser knows. -/
def LKnown (b : Agent V) (f : LCorner → Option (Val V)) : Prop := ∀ c v, f c = some (.val v) → b.knows v = true

theorem value_of {b : Agent V} {f} (h : LKnown b f) {c : LCorner} {v : Val V} (e : f c = some v) : b.value v = some (radiusOf v) := by
  cases v with
  | val v => simp [Agent.value, radiusOf, h c v e]
  | raw t => rfl

/-- The logical declarations, not compiled. -/
def logOut (f : LCorner → Option (Val V)) (c : LCorner) : List (Decl V) := match f c with | none => [] | some v => [.logical c v]

theorem computed_log (b : Agent V) (hb : b.logical = true) (dir : Dir) (f) (h : LKnown b f) (m : Corner → Radius V) (k : Corner) :
    computed b dir m (logOut f .ss ++ logOut f .se ++ logOut f .ee ++ logOut f .es) k = match f (lOf dir k) with | some v => radiusOf v | none => m k := by
  have one : ∀ (m : Corner → Radius V) c, computed b dir m (logOut f c) = fun k => if c = lOf dir k then (match f c with | some v => radiusOf v | none => m k) else m k := by
    intro m c
    funext k
    unfold logOut
    cases hf : f c with
    | none => simp [computed]
    | some v => simp [computed, apply, hb, Spec.set, value_of h hf, phys_eq]
  simp only [computed_append, one]
  cases hl : lOf dir k <;> simp

theorem flushLogical_plain (env : Env V) (hc : env.compile = false) (f) (o : Out V) :
    [LCorner.ss, .se, .ee, .es].foldl (flushLogical env f) o = { o with dest := o.dest ++ (logOut f .ss ++ logOut f .se ++ logOut f .ee ++ logOut f .es) } := by
  have one : ∀ (o : Out V) c, flushLogical env f o c = { o with dest := o.dest ++ logOut f c } := by
    intro o c
    unfold flushLogical logOut
    cases f c with
    | none => simp
    | some v => simp [hc]
  simp [one]

/-- The compiled declarations for a direction. -/
def compOut (env : Env V) (dir : Dir) (f : LCorner → Option (Val V)) (c : LCorner) : List (Decl V) :=
  match f c with
  | none => []
  | some v => [.corner (physicalCorner dir c) v (env.targets.prefixes Prefix.none.set c.ltr.feature)]

theorem flushLogical_compiled (env : Env V) (hc : env.compile = true) (f) (o : Out V) :
    [LCorner.ss, .se, .ee, .es].foldl (flushLogical env f) o = { o with
      ltr := o.ltr ++ (compOut env .ltr f .ss ++ compOut env .ltr f .se ++ compOut env .ltr f .ee ++ compOut env .ltr f .es),
      rtl := o.rtl ++ (compOut env .rtl f .ss ++ compOut env .rtl f .se ++ compOut env .rtl f .ee ++ compOut env .rtl f .es) } := by
  have one : ∀ (o : Out V) c, flushLogical env f o c = { o with ltr := o.ltr ++ compOut env .ltr f c, rtl := o.rtl ++ compOut env .rtl f c } := by
    intro o c
    unfold flushLogical compOut
    cases f c with
    | none => simp
    | some v =>
      simp only [hc, if_true]
      cases c <;> rfl
  simp [one]

theorem computed_comp (env : Env V) (b : Agent V) (hb : b.prefixes .none = true) (dir : Dir) (f) (h : LKnown b f) (m : Corner → Radius V) (k : Corner) :
    computed b dir m (compOut env dir f .ss ++ compOut env dir f .se ++ compOut env dir f .ee ++ compOut env dir f .es) k = match f (lOf dir k) with | some v => radiusOf v | none => m k := by
  have hp : ∀ feat, b.takes (env.targets.prefixes Prefix.none.set feat) = true := fun feat =>
    takes_of ((C13_targets env.targets Prefix.none.set feat).2.2.1 rfl) hb
  have one : ∀ (m : Corner → Radius V) c, computed b dir m (compOut env dir f c) = fun k => if c = lOf dir k then (match f c with | some v => radiusOf v | none => m k) else m k := by
    intro m c
    funext k
    unfold compOut
    cases hf : f c with
    | none => simp [computed]
    | some v => simp [computed, apply, hp, Spec.set, value_of h hf, phys_eq]
  simp only [computed_append, one]
  cases hl : lOf dir k <;> simp

/-- The browser that the source is seen with: if logical properties are compiled, it has them. -/
def Spec.Agent.seeing (b : Agent V) (env : Env V) : Agent V := { b with logical := b.logical || env.compile }

/-- The state after declarations with the effect `g`. -/
structure Inv (env : Env V) (b : Agent V) (g : Dir → (Corner → Radius V) → Corner → Radius V) (st : Handler V × Out V) : Prop where
  physCat : ∀ c x, st.1.phys c = some x → st.1.physical = true
  logCat : ∀ c x, st.1.log c = some x → st.1.physical = false
  any : st.1.hasAny = false → (∀ c, st.1.phys c = none) ∧ ∀ c, st.1.log c = none
  pref : ∀ c v p, st.1.phys c = some (v, p) → b.knows v = true ∧ PrefOk b p
  known : LKnown b st.1.log
  ltr : st.2.ltr = []
  rtl : st.2.rtl = []
  val : ∀ dir m, over dir st.1 (computed b dir m st.2.dest) = g dir m

/-- What the theorem asks of the browser: it has logical properties if they are not compiled, and knows no prefix, if they are. -/
structure Fit (env : Env V) (b : Agent V) : Prop where
  logical : env.compile = false → b.logical = true
  none : env.compile = true → b.prefixes .none = true

/-- Nothing logical is pending if it had to be compiled. -/
def NoLog (env : Env V) (h : Handler V) : Prop := env.compile = true → ∀ c, h.log c = none

theorem over_clear (dir : Dir) (h : Handler V) (m : Corner → Radius V) : over dir h.clear m = m := rfl

theorem Inv.flush {env : Env V} {b : Agent V} {g} {st} (hb : Fit env b) (h : Inv env b g st) (hn : NoLog env st.1) :
    Inv env b g (flush env st) ∧ (∀ c, (Radius.flush env st).1.phys c = none) ∧ (∀ c, (Radius.flush env st).1.log c = none) ∧ (Radius.flush env st).1.physical = st.1.physical := by
  unfold Radius.flush
  cases ha : st.1.hasAny with
  | false =>
    simp only [Bool.false_eq_true, if_false]
    exact ⟨h, (h.any ha).1, (h.any ha).2, trivial⟩
  | true =>
    simp only [if_true]
    have hd : st.2.dest ++ (shorthand env st.1.phys).1 ++ single env (shorthand env st.1.phys).2 .tl ++ single env (shorthand env st.1.phys).2 .tr ++ single env (shorthand env st.1.phys).2 .br ++ single env (shorthand env st.1.phys).2 .bl =
        st.2.dest ++ physOut env st.1.phys := by simp [physOut]
    rw [hd]
    have goal : ∃ o, [LCorner.ss, .se, .ee, .es].foldl (flushLogical env st.1.log) { st.2 with dest := st.2.dest ++ physOut env st.1.phys } = o ∧ o.ltr = [] ∧ o.rtl = [] ∧
        ∀ dir m, computed b dir m o.dest = over dir st.1 (computed b dir m st.2.dest) := by
      cases hc : env.compile with
      | false =>
        refine ⟨_, flushLogical_plain env hc _ _, h.ltr, h.rtl, fun dir m => ?_⟩
        funext k
        simp only
        rw [computed_append, computed_log b (hb.logical hc) dir st.1.log h.known, computed_append, computed_phys env b dir _ _ h.pref]
        simp only [over]
        cases hp : st.1.phys k with
        | none => cases hl : st.1.log (lOf dir k) <;> rfl
        | some x =>
          have h1 := h.physCat _ _ hp
          cases hl : st.1.log (lOf dir k) with
          | none => rfl
          | some y => rw [h.logCat _ _ hl] at h1; cases h1
      | true =>
        have hl := hn hc
        refine ⟨_, flushLogical_compiled env hc _ _, ?_, ?_, fun dir m => ?_⟩
        · simp [compOut, hl, h.ltr]
        · simp [compOut, hl, h.rtl]
        · funext k
          simp only
          rw [computed_append, computed_phys env b dir _ _ h.pref]
          simp only [over, hl]
    obtain ⟨o, e, h1, h2, h3⟩ := goal
    rw [e]
    refine ⟨⟨fun c x e => (by cases e), fun c x e => (by cases e), fun _ => ⟨fun _ => rfl, fun _ => rfl⟩, fun c v p e => (by cases e), fun c v e => (by cases e), h1, h2, fun dir m => ?_⟩, fun _ => rfl, fun _ => rfl, rfl⟩
    rw [over_clear, h3, h.val]

/-- A declaration that the browser knows, with its prefixes. -/
def Good (b : Agent V) : Decl V → Prop
  | .corner _ (.val v) p => b.knows v = true ∧ PrefOk b p
  | .corner _ (.raw _) p => PrefOk b p
  | .radius x y z w p => b.knows x = true ∧ b.knows y = true ∧ b.knows z = true ∧ b.knows w = true ∧ PrefOk b p
  | .rawRadius _ p => PrefOk b p
  | .logical _ (.val v) => b.knows v = true
  | .logical _ (.raw _) => True

variable [DecidableEq V]

theorem Inv.maybeFlush {env : Env V} {b : Agent V} {g} {st} (hb : Fit env b) (h : Inv env b g st) (hn : NoLog env st.1) (c : Corner) (v : V) (vp : PrefixSet) :
    Inv env b g (maybeFlush env c v vp st) ∧ NoLog env (Radius.maybeFlush env c v vp st).1 ∧ (Radius.maybeFlush env c v vp st).1.physical = st.1.physical ∧
      ((∀ c, st.1.log c = none) → ∀ l, (Radius.maybeFlush env c v vp st).1.log l = none) := by
  have step : ∀ st, Inv env b g st → NoLog env st.1 → Inv env b g (Radius.flush env st) ∧ NoLog env (Radius.flush env st).1 ∧ (Radius.flush env st).1.physical = st.1.physical ∧ ((∀ c, st.1.log c = none) → ∀ c, (Radius.flush env st).1.log c = none) := by
    intro st h hn
    obtain ⟨h1, h2, h3, h4⟩ := h.flush hb hn
    exact ⟨h1, fun _ => h3, h4, fun _ => h3⟩
  have first : ∀ st, Inv env b g st → NoLog env st.1 → ∀ st', st' = (match st.1.phys c with | some (w, p) => if w ≠ v && !contains p vp then Radius.flush env st else st | none => st) →
      Inv env b g st' ∧ NoLog env st'.1 ∧ st'.1.physical = st.1.physical ∧ ((∀ c, st.1.log c = none) → ∀ c, st'.1.log c = none) := by
    intro st h hn st' e
    subst e
    split
    · split
      · exact step st h hn
      · exact ⟨h, hn, rfl, id⟩
    · exact ⟨h, hn, rfl, id⟩
  unfold Radius.maybeFlush
  obtain ⟨a1, a2, a3, a4⟩ := first st h hn _ rfl
  extract_lets st'
  change Inv env b g st' at a1
  change NoLog env st'.1 at a2
  change st'.1.physical = _ at a3
  change _ → ∀ c, st'.1.log c = none at a4
  clear_value st'
  split
  · obtain ⟨b1, b2, b3, b4⟩ := step _ a1 a2
    exact ⟨b1, b2, b3.trans a3, fun h => b4 (a4 h)⟩
  · exact ⟨a1, a2, a3, a4⟩

omit [DecidableEq V] in
theorem seeing_good {env : Env V} {b : Agent V} {v : V} (h : b.knows v = true) : (b.seeing env).knows v = true := h
omit [DecidableEq V] in
theorem seeing_takes (env : Env V) (b : Agent V) (p : PrefixSet) : (b.seeing env).takes p = b.takes p := rfl

omit [DecidableEq V] in
theorem computed_snoc (b : Agent V) (dir : Dir) (m : Corner → Radius V) (l : List (Decl V)) (d : Decl V) : computed b dir m (l ++ [d]) = apply b dir (computed b dir m l) d := by
  simp [computed]

theorem Inv.property {env : Env V} {b : Agent V} {g} {st} (hb : Fit env b) (h : Inv env b g st) (hn : NoLog env st.1) (c : Corner) (v : V) (vp : PrefixSet)
    (hk : b.knows v = true) (hp : PrefOk b vp) :
    Inv env b (fun dir m => apply (b.seeing env) dir (g dir m) (.corner c (.val v) vp)) (property env c v vp st) ∧ (∀ l, (Radius.property env c v vp st).1.log l = none) := by
  have s1 : ∃ st1, st1 = (if st.1.physical then st else Radius.flush env st) ∧ Inv env b g st1 ∧ NoLog env st1.1 ∧ (∀ c, st1.1.log c = none) := by
    cases hph : st.1.physical with
    | true =>
      refine ⟨_, rfl, ?_⟩
      simp only [if_true]
      refine ⟨h, hn, fun c => ?_⟩
      cases hl : st.1.log c with
      | none => rfl
      | some x => rw [h.logCat c x hl] at hph; cases hph
    | false =>
      refine ⟨_, rfl, ?_⟩
      obtain ⟨h1, h2, h3, h4⟩ := h.flush hb hn
      simp only [Bool.false_eq_true, if_false]
      exact ⟨h1, fun _ => h3, h3⟩
  obtain ⟨st1, e1, i1, n1, l1⟩ := s1
  obtain ⟨i2, n2, -, l2⟩ := i1.maybeFlush hb n1 c v vp
  have l2 := l2 l1
  have hdef : Radius.property env c v vp st = (match (Radius.maybeFlush env c v vp st1).1.phys c with
    | some (_, p) => ({ (Radius.maybeFlush env c v vp st1).1 with phys := put (Radius.maybeFlush env c v vp st1).1.phys c (some (v, p.union vp)), physical := true }, (Radius.maybeFlush env c v vp st1).2)
    | none => ({ (Radius.maybeFlush env c v vp st1).1 with phys := put (Radius.maybeFlush env c v vp st1).1.phys c (some (v, vp)), physical := true, hasAny := true }, (Radius.maybeFlush env c v vp st1).2)) := by
    subst e1; rfl
  rw [hdef]
  generalize Radius.maybeFlush env c v vp st1 = st2 at i2 n2 l2
  have key : ∀ (p : PrefixSet) (a : Bool), PrefOk b p → (a = false → False) →
      Inv env b (fun dir m => apply (b.seeing env) dir (g dir m) (.corner c (.val v) vp)) (⟨put st2.1.phys c (some (v, p)), st2.1.log, true, a⟩, st2.2) := by
    intro p a hpp ha
    refine ⟨fun _ _ _ => rfl, fun k x hx => ?_, fun e => (ha e).elim, fun k w q e => ?_, i2.known, i2.ltr, i2.rtl, fun dir m => ?_⟩
    · simp only at hx; rw [l2 k] at hx; cases hx
    · simp only [put] at e
      split at e
      · cases e; exact ⟨hk, hpp⟩
      · exact i2.pref k w q e
    · rw [← i2.val dir m]
      funext k
      have ht : (b.seeing env).takes vp = true := hp.takes
      have hv : (b.seeing env).value (.val v) = some (.val v) := if_pos hk
      simp only [apply_corner dir _ c (.val v) ht, hv, Spec.set, over, put]
      by_cases hkc : k = c <;> simp [hkc]
  cases hc : st2.1.phys c with
  | some x =>
    obtain ⟨w, p⟩ := x
    have ha : st2.1.hasAny = true := by
      cases hh : st2.1.hasAny with
      | true => rfl
      | false => rw [(i2.any hh).1 c] at hc; cases hc
    exact ⟨key _ _ ((i2.pref c w p hc).2.union hp) (by rw [ha]; intro e; cases e), l2⟩
  | none => exact ⟨key _ _ hp (by intro e; cases e), l2⟩

omit [DecidableEq V] in
/-- Whether the declarations are in an order that compilation of logical properties keeps: after a logical one, no physical longhand and no `border-radius` with `var()`, until there is another `border-radius`. -/
def Ordered : Bool → List (Decl V) → Prop
  | _, [] => True
  | _, .logical _ _ :: ds => Ordered true ds
  | _, .radius _ _ _ _ _ :: ds => Ordered false ds
  | seen, .corner _ _ _ :: ds => seen = false ∧ Ordered false ds
  | seen, .rawRadius _ _ :: ds => seen = false ∧ Ordered false ds

theorem Inv.handle {env : Env V} {b : Agent V} {g} {st} (hb : Fit env b) (h : Inv env b g st) (seen : Bool) (hn : seen = false → NoLog env st.1) (d : Decl V) (ds : List (Decl V))
    (hg : Good b d) (ho : env.compile = true → Ordered seen (d :: ds)) :
    ∃ seen', Inv env b (fun dir m => apply (b.seeing env) dir (g dir m) d) (handle env st d) ∧ (seen' = false → NoLog env (Radius.handle env st d).1) ∧ (env.compile = true → Ordered seen' ds) := by
  have nolog : (env.compile = true → seen = false) → NoLog env st.1 := fun hs hc => hn (hs hc) hc
  cases d with
  | corner c v p =>
    have hs : env.compile = true → seen = false := fun hc => (ho hc).1
    cases v with
    | val v =>
      obtain ⟨i, l⟩ := h.property hb (nolog hs) c v p hg.1 hg.2
      exact ⟨false, i, fun _ _ => l, fun hc => (ho hc).2⟩
    | raw t =>
      obtain ⟨i, h2, h3, -⟩ := h.flush hb (nolog hs)
      simp only [Radius.handle]
      generalize Radius.flush env st = st' at i h2 h3
      refine ⟨false, ⟨i.physCat, i.logCat, i.any, i.pref, i.known, i.ltr, i.rtl, fun dir m => ?_⟩, fun _ _ => h3, fun hc => (ho hc).2⟩
      have hp : PrefOk b p := hg
      have ho : orNone p = p := by
        unfold orNone; split
        · rename_i e; obtain ⟨q, hq⟩ := hp.ne; rw [e] at hq; cases q <;> cases hq
        · rfl
      rw [computed_snoc, ← i.val dir m]
      funext k
      have ht : (b.seeing env).takes p = true := hp.takes
      rw [apply_corner dir _ c (.raw t) ht, ho]
      simp only [over, h2, h3, apply_corner dir _ c (.raw t) (hp.targets env.targets .borderRadius), Spec.set, Agent.value]
  | rawRadius t p =>
    have hs : env.compile = true → seen = false := fun hc => (ho hc).1
    obtain ⟨i, h2, h3, -⟩ := h.flush hb (nolog hs)
    simp only [Radius.handle]
    generalize Radius.flush env st = st' at i h2 h3
    refine ⟨false, ⟨i.physCat, i.logCat, i.any, i.pref, i.known, i.ltr, i.rtl, fun dir m => ?_⟩, fun _ _ => h3, fun hc => (ho hc).2⟩
    have hp : PrefOk b p := hg
    have ho : orNone p = p := by
      unfold orNone; split
      · rename_i e; obtain ⟨q, hq⟩ := hp.ne; rw [e] at hq; cases q <;> cases hq
      · rfl
    rw [computed_snoc, ← i.val dir m]
    funext k
    have ht : (b.seeing env).takes p = true := hp.takes
    rw [apply_raw dir _ t ht, ho]
    simp only [over, h2, h3, apply_raw dir _ t (hp.targets env.targets .borderRadius)]
  | logical c v =>
    refine ⟨true, ?_, fun e => (by cases e), fun hc => ho hc⟩
    have s1 : ∃ st1, st1 = (if st.1.physical then Radius.flush env st else st) ∧ Inv env b g st1 ∧ (∀ c, st1.1.phys c = none) := by
      refine ⟨_, rfl, ?_⟩
      cases hph : st.1.physical with
      | true =>
        simp only [if_true]
        have hnl : NoLog env st.1 := by
          intro _ c
          cases hl : st.1.log c with
          | none => rfl
          | some x => rw [h.logCat c x hl] at hph; cases hph
        obtain ⟨i, h2, -, -⟩ := h.flush hb hnl
        exact ⟨i, h2⟩
      | false =>
        simp only [Bool.false_eq_true, if_false]
        refine ⟨h, fun c => ?_⟩
        cases hl : st.1.phys c with
        | none => rfl
        | some x => rw [h.physCat c x hl] at hph; cases hph
    obtain ⟨st1, e1, i, hp⟩ := s1
    simp only [Radius.handle, logicalProperty, ← e1]
    have hv : LKnown b (put st1.1.log c (some v)) := by
      intro k w e
      simp only [put] at e
      split at e
      · cases e; exact hg
      · exact i.known k w e
    refine ⟨fun k x e => ?_, fun _ _ _ => rfl, fun e => (by cases e), i.pref, hv, i.ltr, i.rtl, fun dir m => ?_⟩
    · simp only at e; rw [hp k] at e; cases e
    · rw [← i.val dir m]
      have hval : (b.seeing env).value v = some (radiusOf v) := value_of (b := b) hv (c := c) (v := v) (by simp [put])
      have hl : (b.seeing env).logical = true := by
        cases hc : env.compile with
        | true => simp [Agent.seeing, hc]
        | false => simp [Agent.seeing, hb.logical hc]
      funext k
      simp only [over, hp, apply, hl, if_true, hval, Spec.set, put, phys_eq]
      by_cases hkc : lOf dir k = c
      · simp [hkc]
      · simp [hkc, Ne.symm hkc]
  | radius x y z w p =>
    obtain ⟨kx, ky, kz, kw, hp⟩ := hg
    refine ⟨false, ?_⟩
    -- the logical values are dropped; the four corners are set anyway
    have h0 : Inv env b (fun dir m => over dir { st.1 with log := fun _ => none } (computed b dir m st.2.dest)) ({ st.1 with log := fun _ => none }, st.2) :=
      ⟨h.physCat, fun _ _ e => (by cases e), fun e => ⟨(h.any e).1, fun _ => rfl⟩, h.pref, fun _ _ e => (by cases e), h.ltr, h.rtl, fun _ _ => rfl⟩
    have n0 : NoLog env ({ st.1 with log := fun _ => none } : Handler V) := fun _ _ => rfl
    obtain ⟨i1, n1, -, -⟩ := h0.maybeFlush hb n0 .tl x p
    obtain ⟨i2, n2, -, -⟩ := i1.maybeFlush hb n1 .tr y p
    obtain ⟨i3, n3, -, -⟩ := i2.maybeFlush hb n2 .br z p
    obtain ⟨i4, n4, -, -⟩ := i3.maybeFlush hb n3 .bl w p
    obtain ⟨i5, n5⟩ := i4.property hb n4 .tl x p kx hp
    obtain ⟨i6, n6⟩ := i5.property hb (fun _ => n5) .tr y p ky hp
    obtain ⟨i7, n7⟩ := i6.property hb (fun _ => n6) .br z p kz hp
    obtain ⟨i8, n8⟩ := i7.property hb (fun _ => n7) .bl w p kw hp
    refine ⟨⟨i8.physCat, i8.logCat, i8.any, i8.pref, i8.known, i8.ltr, i8.rtl, fun dir m => ?_⟩, fun _ _ => n8, fun hc => ho hc⟩
    refine (i8.val dir m).trans ?_
    funext k
    have ht : (b.seeing env).takes p = true := hp.takes
    have vx : ∀ u, b.knows u = true → (b.seeing env).value (.val u) = some (.val u) := fun u hu => if_pos hu
    simp only [apply_corner dir _ _ _ ht, apply_radius (b := b.seeing env) dir _ ht kx ky kz kw, vx x kx, vx y ky, vx z kz, vx w kw, Spec.set]
    cases k <;> simp [allFour]

/-- The state after a block. -/
theorem Inv.fold {env : Env V} {b : Agent V} (hb : Fit env b) (ds : List (Decl V)) : ∀ {g st} (seen : Bool), Inv env b g st → (seen = false → NoLog env st.1) → (∀ d ∈ ds, Good b d) → (env.compile = true → Ordered seen ds) →
    Inv env b (fun dir m => computed (b.seeing env) dir (g dir m) ds) (ds.foldl (Radius.handle env) st) := by
  induction ds with
  | nil => intro g st seen h _ _ _; exact h
  | cons d ds ih =>
    intro g st seen h hn hg ho
    obtain ⟨seen', h1, h2, h3⟩ := h.handle hb seen hn d ds (hg d (List.mem_cons_self ..)) ho
    exact ih seen' h1 h2 (fun d' hd' => hg d' (List.mem_cons_of_mem _ hd')) h3

end

/-- A handler with nothing pending. -/
def Handler.Clear {V : Type} (h : Handler V) : Prop := (∀ c, h.phys c = none) ∧ (∀ c, h.log c = none) ∧ h.hasAny = false

/-- C126: whatever a block declares about radii, in whatever order, with whatever vendor prefixes that the browser knows, the corners of a box have the same radii with what is written, in left-to-right and in right-to-left text. Logical corners are either written as they are, for a browser that has them, or compiled to rules for both directions, if no physical longhand comes after them. (What is missing: values or prefixes that the browser does not know, and physical corners after logical ones that are compiled: see the counterexamples below.) -/
theorem C126_radius_partial {V : Type} [DecidableEq V] (env : Env V) (b : Agent V) (hb : Fit env b) (h : Handler V) (hc : h.Clear) (ds : List (Decl V)) (hg : ∀ d ∈ ds, Good b d)
    (ho : env.compile = true → Ordered false ds) (dir : Dir) (m : Corner → Radius V) :
    computed b dir m (written (run env h ds).2 dir) = computed (b.seeing env) dir m ds := by
  have i0 : Inv env b (fun _ m => m) (h, ({} : Out V)) := by
    refine ⟨fun c x e => (by rw [hc.1] at e; cases e), fun c x e => (by rw [hc.2.1] at e; cases e), fun _ => ⟨hc.1, hc.2.1⟩, fun c v p e => (by rw [hc.1] at e; cases e), fun c v e => (by rw [hc.2.1] at e; cases e), rfl, rfl, fun dir m => ?_⟩
    funext k
    simp [over, hc.1, hc.2.1, computed]
  have i := i0.fold hb ds false (fun _ _ c => hc.2.1 c) hg ho
  unfold run
  generalize ds.foldl (handle env) (h, ({} : Out V)) = st at i
  cases hcm : env.compile with
  | false =>
    obtain ⟨j, p1, p2, -⟩ := i.flush hb (fun e => (by rw [hcm] at e; cases e))
    have := j.val dir m
    rw [← this]
    funext k
    cases dir <;> simp [written, j.ltr, j.rtl, over, p1, p2]
  | true =>
    unfold flush
    cases ha : st.1.hasAny with
    | false =>
      have := i.val dir m
      rw [← this]
      obtain ⟨p1, p2⟩ := i.any ha
      funext k
      cases dir <;> simp [written, i.ltr, i.rtl, over, p1, p2]
    | true =>
      simp only [if_true]
      rw [flushLogical_compiled env hcm]
      have hv := i.val dir m
      rw [← hv]
      have hd : st.2.dest ++ (shorthand env st.1.phys).1 ++ single env (shorthand env st.1.phys).2 .tl ++ single env (shorthand env st.1.phys).2 .tr ++ single env (shorthand env st.1.phys).2 .br ++ single env (shorthand env st.1.phys).2 .bl =
          st.2.dest ++ physOut env st.1.phys := by simp [physOut]
      have hw : ∀ o : Out V, o.ltr = [] → o.rtl = [] → o.dest = st.2.dest ++ physOut env st.1.phys →
          written ⟨o.dest, o.ltr ++ (compOut env .ltr st.1.log .ss ++ compOut env .ltr st.1.log .se ++ compOut env .ltr st.1.log .ee ++ compOut env .ltr st.1.log .es),
            o.rtl ++ (compOut env .rtl st.1.log .ss ++ compOut env .rtl st.1.log .se ++ compOut env .rtl st.1.log .ee ++ compOut env .rtl st.1.log .es)⟩ dir =
          st.2.dest ++ physOut env st.1.phys ++ (compOut env dir st.1.log .ss ++ compOut env dir st.1.log .se ++ compOut env dir st.1.log .ee ++ compOut env dir st.1.log .es) := by
        intro o h1 h2 h3
        cases dir <;> simp [written, h1, h2, h3]
      simp only [hd]
      rw [hw ⟨st.2.dest ++ physOut env st.1.phys, st.2.ltr, st.2.rtl⟩ i.ltr i.rtl rfl]
      funext k
      rw [computed_append, computed_comp env b (hb.none hcm) dir _ i.known, computed_append, computed_phys env b dir _ _ i.pref]
      simp only [over]
      cases hp : st.1.phys k with
      | none => cases hl : st.1.log (lOf dir k) <;> rfl
      | some x =>
        have h1 := i.physCat _ _ hp
        cases hl : st.1.log (lOf dir k) with
        | none => rfl
        | some y => rw [i.logCat _ _ hl] at h1; cases h1

/-- Nothing is pending if the flag says so. -/
def Flagged {V : Type} (s : Handler V × Out V) : Prop := s.1.hasAny = false → s.1.Clear

section
variable {V : Type} [DecidableEq V] {env : Env V}

omit [DecidableEq V] in
theorem Flagged.flush {s : Handler V × Out V} (h : Flagged s) : Flagged (flush env s) := by
  unfold Radius.flush
  split
  · exact fun _ => ⟨fun _ => rfl, fun _ => rfl, rfl⟩
  · exact h

theorem Flagged.maybeFlush {s : Handler V × Out V} (h : Flagged s) (c v p) : Flagged (maybeFlush env c v p s) := by
  unfold Radius.maybeFlush
  extract_lets s1
  have h1 : Flagged s1 := by
    simp only [s1]
    split
    · split
      · exact h.flush
      · exact h
    · exact h
  split
  · exact h1.flush
  · exact h1

theorem Flagged.property {s : Handler V × Out V} (h : Flagged s) (c v p) : Flagged (property env c v p s) := by
  unfold Radius.property
  extract_lets s1 s2
  have h1 : Flagged s1 := by
    simp only [s1]
    split
    · exact h
    · exact h.flush
  have h2 : Flagged s2 := h1.maybeFlush c v p
  clear_value s2
  split
  · rename_i e
    intro hf
    rw [(h2 hf).1 c] at e
    cases e
  · intro hf; cases hf

theorem Flagged.handle {s : Handler V × Out V} (h : Flagged s) (d : Decl V) : Flagged (handle env s d) := by
  cases d with
  | corner c v p =>
    cases v with
    | val v => exact h.property c v p
    | raw t => exact h.flush
  | radius x y z w p =>
    have h0 : Flagged ({ s.1 with log := fun _ => none }, s.2) := fun e => ⟨(h e).1, fun _ => rfl, e⟩
    exact ((((((((h0.maybeFlush _ _ _).maybeFlush _ _ _).maybeFlush _ _ _).maybeFlush _ _ _).property _ _ _).property _ _ _).property _ _ _).property _ _ _)
  | rawRadius t p => exact h.flush
  | logical c v => intro e; cases e

end

/-- C126: after every block, nothing is pending, so that the next block can be handled. -/
theorem C126_ready {V : Type} [DecidableEq V] (env : Env V) (h : Handler V) (hc : h.Clear) (ds : List (Decl V)) : (run env h ds).1.Clear := by
  have key : ∀ (ds : List (Decl V)) s, Flagged s → Flagged (ds.foldl (handle env) s) := by
    intro ds
    induction ds with
    | nil => exact fun _ h => h
    | cons d ds ih => exact fun s h => ih _ (h.handle d)
  have hf := key ds (h, {}) (fun _ => hc)
  unfold run
  generalize ds.foldl (handle env) (h, ({} : Out V)) = s at hf
  unfold flush
  split
  · exact ⟨fun _ => rfl, fun _ => rfl, rfl⟩
  · rename_i e; exact hf (by simpa using e)

/-- Without targets; radii are numbers. -/
def plain : Env Nat := ⟨⟨none, 0, 0⟩, false, fun _ _ => true⟩
/-- Logical properties are compiled. -/
def compiling : Env Nat := ⟨⟨none, Flags.logicalProperties, 0⟩, false, fun _ _ => true⟩
/-- A browser that knows some prefixes, and the values below ten. -/
def agent (ps : List Prefix) : Agent Nat := ⟨fun p => p ∈ ps, fun v => v < 10, true⟩

theorem ok_none : PrefOk (agent [.none, .webkit]) Prefix.none.set := ⟨⟨.none, rfl⟩, by intro q; cases q <;> decide⟩
theorem ok_webkit : PrefOk (agent [.none, .webkit]) Prefix.webkit.set := ⟨⟨.webkit, rfl⟩, by intro q; cases q <;> decide⟩

example : Fit plain (agent [.none, .webkit]) := ⟨fun _ => rfl, fun h => (by cases h)⟩
example : Fit compiling (agent [.none, .webkit]) := ⟨fun _ => rfl, fun _ => rfl⟩
example : compiling.compile = true := by decide
example : (Handler.new (V := Nat)).Clear := ⟨fun _ => rfl, fun _ => rfl, rfl⟩
example : ∀ d ∈ ([.radius 1 2 3 4 Prefix.webkit.set, .corner .tl (.val 5) Prefix.none.set, .corner .tr (.raw cs!"var(--x)") Prefix.none.set, .logical .ee (.val 6), .logical .ss (.raw cs!"var(--y)")] : List (Decl Nat)), Good (agent [.none, .webkit]) d := by
  intro d hd
  simp only [List.mem_cons, List.not_mem_nil, or_false] at hd
  rcases hd with rfl | rfl | rfl | rfl | rfl
  · exact ⟨rfl, rfl, rfl, rfl, ok_webkit⟩
  · exact ⟨rfl, ok_none⟩
  · exact ok_none
  · exact (rfl : (agent _).knows 6 = true)
  · trivial
example : Ordered false ([.radius 1 2 3 4 Prefix.webkit.set, .corner .tl (.val 5) Prefix.none.set, .corner .tr (.raw cs!"var(--x)") Prefix.none.set, .logical .ee (.val 6), .logical .ss (.raw cs!"var(--y)")] : List (Decl Nat)) :=
  ⟨rfl, rfl, trivial⟩
example : (run plain .new [.corner .tl (.val 1) Prefix.none.set, .corner .tr (.val 2) Prefix.none.set, .corner .br (.val 3) Prefix.none.set, .corner .bl (.val 4) Prefix.none.set]).2.dest = [.radius 1 2 3 4 Prefix.none.set] := by decide
example : (run compiling .new [.logical .se (.val 1)]).2 = ⟨[], [.corner .tr (.val 1) Prefix.none.set], [.corner .tl (.val 1) Prefix.none.set]⟩ := by decide

/-- C126 fails with compiled logical corners before a physical one: with `border-start-start-radius: 1px; border-top-left-radius: 2px`, the rule for left-to-right text comes after the block, and the corner is `1px` wide. -/
theorem C126_order_fails : ∃ ds : List (Decl Nat), ∀ m, computed (agent [.none]) .ltr m ds .tl = .val 2 ∧ computed (agent [.none]) .ltr m (written (run compiling .new ds).2 .ltr) .tl = .val 1 :=
  ⟨[.logical .ss (.val 1), .corner .tl (.val 2) Prefix.none.set], fun _ => ⟨rfl, rfl⟩⟩

/-- C126 fails with a prefix that the browser does not know: `border-start-start-radius: 5px; -moz-border-radius: 3px` loses the first declaration. -/
theorem C126_prefix_fails : ∃ ds : List (Decl Nat), ∀ m, computed (agent [.none]) .ltr m ds .tl = .val 5 ∧ computed (agent [.none]) .ltr m (written (run plain .new ds).2 .ltr) = m :=
  ⟨[.logical .ss (.val 5), .radius 3 3 3 3 Prefix.moz.set], fun _ => ⟨rfl, rfl⟩⟩

set_option maxRecDepth 8000 in
/-- C126 fails with a prefix that the browser does not know: in `-webkit-border-radius: 1px; border-radius: 1px; -webkit-border-radius: 2px` the prefixed declaration changes the other. -/
theorem C126_merged_prefix_fails : ∃ ds : List (Decl Nat), ∀ m, computed (agent [.none]) .ltr m ds .tl = .val 1 ∧ computed (agent [.none]) .ltr m (written (run plain .new ds).2 .ltr) .tl = .val 2 :=
  ⟨[.radius 1 1 1 1 Prefix.webkit.set, .radius 1 1 1 1 Prefix.none.set, .radius 2 2 2 2 Prefix.webkit.set], fun _ => ⟨rfl, rfl⟩⟩

/-- C126 fails with a value that the browser does not know: four longhands, of which one is not known, become one shorthand, that is not known. -/
theorem C126_value_fails : ∃ ds : List (Decl Nat), ∀ m, computed (agent [.none]) .ltr m ds .tl = .val 1 ∧ computed (agent [.none]) .ltr m (written (run plain .new ds).2 .ltr) = m :=
  ⟨[.corner .tl (.val 1) Prefix.none.set, .corner .tr (.val 2) Prefix.none.set, .corner .br (.val 3) Prefix.none.set, .corner .bl (.val 40) Prefix.none.set], fun _ => ⟨rfl, rfl⟩⟩

end Verif.Radius
