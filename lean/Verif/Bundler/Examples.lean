import Verif.Bundler.EvalProps
import Verif.Bundler.LoadProps
/-! Concrete bundles: the hypotheses of the theorems are met, and what goes wrong without them. Files are numbers, external URLs strings,
media lists are lists of lists of atoms (`or` of `and`s; the empty list is no condition), supports conditions are likewise non-empty. -/
namespace Verif.Bundler

/-- Files of the examples. -/
abbrev F := File Nat Nat (List (List Nat)) (List (List Nat)) Unit

/-- Disjunctive normal forms: conjunction. -/
def dnfAnd (a b : List (List Nat)) : List (List Nat) := a.flatMap fun x => b.map fun y => x ++ y

/-- Conditions in disjunctive normal form, with the empty list for "always" as in `MediaList`. -/
def dnf : Ops (List (List Nat)) (List (List Nat)) where
  always := []
  isEmpty := List.isEmpty
  mediaAnd a b := some (if a.isEmpty then b else if b.isEmpty then a else dnfAnd a b)
  mediaOr a b := a ++ b
  supportsAnd := dnfAnd
  supportsOr a b := a ++ b

/-- A device is the atoms that hold. -/
def dnfMeaning : Meaning (Nat → Bool) (List (List Nat)) (List (List Nat)) where
  media d m := m.isEmpty || m.any fun c => c.all d
  supports d s := s.any fun c => c.all d

theorem any_dnfAnd (d : Nat → Bool) (x y : List (List Nat)) :
    (dnfAnd x y).any (fun c => c.all d) = (x.any (fun c => c.all d) && y.any fun c => c.all d) := by
  rw [Bool.eq_iff_iff]
  simp only [dnfAnd, List.any_eq_true, List.mem_flatMap, List.mem_map, Bool.and_eq_true]
  constructor
  · rintro ⟨_, ⟨a, ha, b, hb, rfl⟩, h⟩
    rw [List.all_append, Bool.and_eq_true] at h
    exact ⟨⟨a, ha, h.1⟩, b, hb, h.2⟩
  · rintro ⟨⟨a, ha, h1⟩, b, hb, h2⟩
    exact ⟨a ++ b, ⟨a, ha, b, hb, rfl⟩, by rw [List.all_append, h1, h2]; rfl⟩

theorem dnfAnd_isEmpty (x y : List (List Nat)) : (dnfAnd x y).isEmpty = (x.isEmpty || y.isEmpty) := by
  cases x <;> cases y <;> simp [dnfAnd]

/-- The operations of the examples are lawful. -/
theorem dnf_lawful : dnf.Lawful dnfMeaning where
  always d := rfl
  always_empty := rfl
  empty d x h := by simp only [dnf] at h; simp [dnfMeaning, h]
  mediaAnd d x y z h := by
    simp only [dnf, Option.some.injEq] at h
    subst h
    simp only [dnfMeaning]
    cases hx : x.isEmpty
    · cases hy : y.isEmpty
      · simp only [Bool.false_eq_true, if_false, any_dnfAnd, dnfAnd_isEmpty, hx, hy, Bool.false_or, Bool.or_false]
      · simp [hx]
    · simp
  mediaOr d x y hx hy := by
    simp only [dnf] at hx hy
    cases x <;> cases y <;> simp_all [dnf, dnfMeaning, Bool.or_assoc]
  supportsAnd d x y := any_dnfAnd d x y
  supportsOr d x y := List.any_append

/-- An `@import` of a file without conditions. -/
def imp (p : Nat) : Pre Nat Nat (List (List Nat)) (List (List Nat)) := .imp ⟨.file p, none, [], none⟩
/-- An `@import` of a file with a media condition. -/
def impM (p m : Nat) : Pre Nat Nat (List (List Nat)) (List (List Nat)) := .imp ⟨.file p, none, [[m]], none⟩
/-- An `@import` of a file into a layer. -/
def impL (p : Nat) (l : Option LName) : Pre Nat Nat (List (List Nat)) (List (List Nat)) := .imp ⟨.file p, some l, [], none⟩
/-- A file with only imports. -/
def src (l : List (Pre Nat Nat (List (List Nat)) (List (List Nat)))) : F := ⟨l, [], ()⟩
/-- A file system given by a list. -/
def fsOf (l : List F) (n : Nat) : F := l.getD n (src [])
/-- No conditions. -/
def noCond : Cond (List (List Nat)) (List (List Nat)) := ⟨none, [], none⟩
/-- The files of a bundle in order. -/
def filesOf (l : List F) (fuel : Nat) : Except Err (List Nat) := (bundle (fsOf l) (fun _ => none) (fun _ => noCond) 0 fuel fuel).map bodies

theorem fsOf_uses {l : List F} {u v : Nat} (h : Uses (fsOf l) u v) : ∃ f, l[u]? = some f ∧ (v ∈ f.css ∨ v ∈ f.files) := by
  unfold Uses fsOf at h
  rw [List.getD_eq_getElem?_getD] at h
  cases hu : l[u]? with
  | none => rw [hu] at h; simp [src, File.files, File.imports] at h
  | some f => rw [hu] at h; exact ⟨f, rfl, h⟩

/-- Checks on a list of files give facts about the file system. -/
def allUses (l : List F) (P : Nat → Nat → Bool) : Bool :=
  (List.range l.length).all fun u => match l[u]? with
    | some f => (f.css ++ f.files).all (P u)
    | none => true

theorem of_allUses {l : List F} {P : Nat → Nat → Bool} (h : allUses l P = true) {u v : Nat} (hu : Uses (fsOf l) u v) : P u v = true := by
  obtain ⟨f, hf, hv⟩ := fsOf_uses hu
  have hlt : u < l.length := (List.getElem?_eq_some_iff.1 hf).1
  have := List.all_eq_true.1 h u (List.mem_range.2 hlt)
  simp only [hf] at this
  exact List.all_eq_true.1 this v (by simpa [List.mem_append] using hv)

theorem closed_of {l : List F} (h0 : 0 < l.length) (h : allUses l (fun _ v => decide (v < l.length)) = true) : Closed (fsOf l) 0 (List.range l.length) :=
  ⟨List.mem_range.2 h0, fun _ _ _ hv => List.mem_range.2 (of_decide_eq_true (of_allUses h hv))⟩

/-! ### C27 -/

/-- A diamond in which a file imports the entry again, and another composes from a third. -/
def diamond : List F := [src [imp 1, imp 2], ⟨[imp 3, imp 0], [2], ()⟩, src [imp 3], src []]

/-- `C27_terminates`, `C27_complete_partial` apply to it. -/
example : Closed (fsOf diamond) 0 (List.range 4) ∧ (fsOf diamond 0).css[0]? ≠ some 0 ∧
    ∃ rank : Nat → Nat, ∀ u v, Uses (fsOf diamond) u v → v ≠ 0 → rank v < rank u :=
  ⟨closed_of (l := diamond) (by decide) (by decide +kernel), by decide +kernel, fun n => [3, 2, 1, 0].getD n 0, fun u v h hv =>
    (of_decide_eq_true (of_allUses (l := diamond) (P := fun u v => decide (v = 0 ∨ [3, 2, 1, 0].getD v 0 < [3, 2, 1, 0].getD u 0))
      (by decide +kernel) h)).resolve_left hv⟩

example : filesOf diamond 30 = .ok [3, 1, 2, 0] := by decide +kernel

/-- The two files of a cycle that does not go through the entry are lost. -/
theorem C27_lost_cycle : filesOf [src [imp 1], src [imp 2], src [imp 1]] 30 = .ok [0] ∧ Reach (fsOf [src [imp 1], src [imp 2], src [imp 1]]) 0 1 ∧
    Reach (fsOf [src [imp 1], src [imp 2], src [imp 1]]) 0 2 := by
  have h1 : Reach (fsOf [src [imp 1], src [imp 2], src [imp 1]]) 0 1 := .step 0 1 .entry (.inr (by decide +kernel))
  exact ⟨by decide +kernel, h1, .step 1 2 h1 (.inr (by decide +kernel))⟩

/-- The bundler overflows the stack when the entry file composes from itself first. -/
theorem C27_overflow (fuel₁ fuel₂ : Nat) : bundle (fsOf [⟨[], [0], ()⟩]) (fun _ => none) (fun _ => noCond) 0 fuel₁ fuel₂ = .error .overflow := by
  have hp : (order (fsOf [⟨[], [0], ()⟩]) fuel₁ 0 (initO 0)).parent 0 = (0, 0) := by
    cases fuel₁ with
    | zero => rfl
    | succ n => simp [order, fsOf, initO, orderCss, orderImports, File.files, File.imports]
  have : ∀ fuel st, inline (fsOf [⟨[], [0], ()⟩]) (fun _ => none) (fun _ => noCond) (order (fsOf [⟨[], [0], ()⟩]) fuel₁ 0 (initO 0)).parent fuel 0 st = .error .overflow := by
    intro fuel
    induction fuel with
    | zero => intro st; rfl
    | succ n ih =>
      intro st
      have hc : (fsOf [⟨[], [0], ()⟩] 0).css = [0] := rfl
      simp only [inline, hc, inlineCss, hp, if_true, ih]
  simp only [bundle, this, Except.map]

/-! ### C28 -/

/-- The entry imports 1, 2 and 1 again, and 2 imports 3. -/
def twice : List F := [src [imp 1, imp 2, imp 1], src [], src [imp 3], src []]

theorem twice_evaluates : Evaluates (fsOf twice) 0 [1, 3, 2, 1, 0] := by
  have e1 : Evaluates (fsOf twice) 1 [1] := .mk 1 [] .nil
  have e3 : Evaluates (fsOf twice) 3 [3] := .mk 3 [] .nil
  have e2 : Evaluates (fsOf twice) 2 [3, 2] := .mk 2 [3] (.cons 3 [] [3] [] e3 .nil)
  exact .mk 0 [1, 3, 2, 1] (.cons 1 _ [1] _ e1 (.cons 2 _ [3, 2] _ e2 (.cons 1 [] [1] [] e1 .nil)))

/-- `C28_order_partial` applies to it. -/
example : (∀ p, (fsOf twice p).css = []) ∧ Closed (fsOf twice) 0 (List.range 4) ∧ Evaluates (fsOf twice) 0 [1, 3, 2, 1, 0] ∧
    (∀ v u u', u ∈ [1, 3, 2, 1, 0] → u' ∈ [1, 3, 2, 1, 0] → u ≠ u' → v ∈ (fsOf twice u).files → v ∈ (fsOf twice u').files → [1, 3, 2, 1, 0].count u = 1) ∧
    keepLast [1, 3, 2, 1, 0] = [3, 2, 1, 0] := by
  refine ⟨fun p => ?_, closed_of (l := twice) (by decide) (by decide +kernel), twice_evaluates, ?_, by decide⟩
  · match p with
    | 0 | 1 | 2 | 3 => rfl
    | n + 4 => rfl
  · intro v u u' hu hu' hne h1 h2
    have key : ∀ u ∈ [1, 3, 2, 1, 0], ∀ u' ∈ [1, 3, 2, 1, 0], u ≠ u' → ∀ v ∈ (fsOf twice u).files, v ∈ (fsOf twice u').files → [1, 3, 2, 1, 0].count u = 1 := by
      decide +kernel
    exact key u hu u' hu' hne v h1 h2

/-- The order of the bundle is not always that of the browser: 0 imports 1, 2, 3, 4, where 1 imports 2, and 4 imports 1. -/
theorem C28_wrong_order : filesOf [src [imp 1, imp 2, imp 3, imp 4], src [imp 2], src [], src [], src [imp 1]] 30 = .ok [2, 3, 1, 4, 0] ∧
    Evaluates (fsOf [src [imp 1, imp 2, imp 3, imp 4], src [imp 2], src [], src [], src [imp 1]]) 0 [2, 1, 2, 3, 2, 1, 4, 0] ∧
    keepLast [2, 1, 2, 3, 2, 1, 4, 0] = [3, 2, 1, 4, 0] := by
  refine ⟨by decide +kernel, ?_, by decide⟩
  have e2 : Evaluates (fsOf [src [imp 1, imp 2, imp 3, imp 4], src [imp 2], src [], src [], src [imp 1]]) 2 [2] := .mk 2 [] .nil
  have e3 : Evaluates (fsOf [src [imp 1, imp 2, imp 3, imp 4], src [imp 2], src [], src [], src [imp 1]]) 3 [3] := .mk 3 [] .nil
  have e1 : Evaluates (fsOf [src [imp 1, imp 2, imp 3, imp 4], src [imp 2], src [], src [], src [imp 1]]) 1 [2, 1] := .mk 1 [2] (.cons 2 [] [2] [] e2 .nil)
  have e4 : Evaluates (fsOf [src [imp 1, imp 2, imp 3, imp 4], src [imp 2], src [], src [], src [imp 1]]) 4 [2, 1, 4] :=
    .mk 4 [2, 1] (.cons 1 [] [2, 1] [] e1 .nil)
  exact .mk 0 [2, 1, 2, 3, 2, 1, 4] (.cons 1 _ [2, 1] _ e1 (.cons 2 _ [2] _ e2 (.cons 3 _ [3] _ e3 (.cons 4 [] [2, 1, 4] [] e4 .nil))))

/-- An external import of a file that comes after another file's rules is written after them, where browsers ignore it. -/
theorem C28_late_external : bundle (fsOf [src [imp 1, imp 2], src [], src [.imp ⟨.ext 7, none, [], none⟩]]) (fun _ => none) (fun _ => noCond) 0 30 30 =
    .ok [.body 1 (some noCond), .ext ⟨.ext 7, none, [], none⟩, .body 2 (some noCond), .body 0 (some noCond)] := by rfl

/-! ### C29 and C30 -/

/-- The entry imports 1 for media 5 and 2 for media 6, which both import 3, which imports nothing. -/
def media3 : List F := [src [impM 1 5, impM 2 6], src [imp 3], src [impM 3 7], src []]

/-- The conditions after loading in order. -/
def loaded3 : List (Nat × Cond (List (List Nat)) (List (List Nat))) :=
  [(0, noCond), (1, ⟨none, [[5]], none⟩), (2, ⟨none, [[6]], none⟩), (3, ⟨none, [[5], [6, 7]], none⟩)]

/-- A step of the first pending call. -/
theorem step_head {l pre p rule} {l' : List F} {st' : LSt Nat (List (List Nat)) (List (List Nat))}
    {a : LSt Nat (List (List Nat)) (List (List Nat))} (h : Steps dnf (fsOf l') a ⟨l, (p, rule) :: pre⟩)
    (h' : loadFile dnf (fsOf l') ⟨l, pre⟩ p rule = some st') : Steps dnf (fsOf l') a st' :=
  .tail _ _ _ h (.run l [] pre p rule st' h')

theorem media3_loads : Loads dnf (fsOf media3) 0 loaded3 :=
  step_head (step_head (step_head (step_head (step_head (.refl _) (st' := ⟨[(0, noCond)], [(1, ⟨none, [[5]], none⟩), (2, ⟨none, [[6]], none⟩)]⟩) rfl)
    (st' := ⟨[(0, noCond), (1, ⟨none, [[5]], none⟩)], [(2, ⟨none, [[6]], none⟩), (3, ⟨none, [[5]], none⟩)]⟩) rfl)
    (st' := ⟨[(0, noCond), (1, ⟨none, [[5]], none⟩), (2, ⟨none, [[6]], none⟩)], [(3, ⟨none, [[5]], none⟩), (3, ⟨none, [[6, 7]], none⟩)]⟩) rfl)
    (st' := ⟨[(0, noCond), (1, ⟨none, [[5]], none⟩), (2, ⟨none, [[6]], none⟩), (3, ⟨none, [[5]], none⟩)], [(3, ⟨none, [[6, 7]], none⟩)]⟩) rfl)
    (st' := ⟨loaded3, []⟩) rfl

/-- Checks on a list of files show `LeavesShared`. -/
def sharedOk (l : List F) : Bool :=
  (List.range l.length).all fun v => (fsOf l v).uses.isEmpty ||
    (decide (v ≠ 0 ∨ ∀ u ∈ List.range l.length, v ∉ (fsOf l u).uses) &&
      (List.range l.length).all fun u => decide ((fsOf l u).uses.count v ≤ 1) &&
        (List.range l.length).all fun u' => decide (u = u' ∨ v ∉ (fsOf l u).uses ∨ v ∉ (fsOf l u').uses))

theorem uses_lt {l : List F} {u v : Nat} (h : v ∈ (fsOf l u).uses) : u < l.length := by
  rcases Nat.lt_or_ge u l.length with h' | h'
  · exact h'
  · unfold fsOf at h
    rw [List.getD_eq_getElem?_getD, List.getElem?_eq_none h'] at h
    simp [src, File.uses, File.files, File.imports] at h

theorem shared_of {l : List F} (h : sharedOk l = true) : LeavesShared (fsOf l) 0 := by
  intro v hv
  obtain ⟨w, hw⟩ := List.exists_mem_of_ne_nil _ hv
  have h1 := List.all_eq_true.1 h v (List.mem_range.2 (uses_lt hw))
  rw [Bool.or_eq_true, Bool.and_eq_true] at h1
  obtain ⟨h2, h3⟩ := h1.resolve_left (by simp [hv])
  have h2 := of_decide_eq_true h2
  have h4 : ∀ u < l.length, (fsOf l u).uses.count v ≤ 1 ∧ ∀ u' < l.length, u = u' ∨ v ∉ (fsOf l u).uses ∨ v ∉ (fsOf l u').uses := by
    intro u hu
    have := List.all_eq_true.1 h3 u (List.mem_range.2 hu)
    rw [Bool.and_eq_true] at this
    exact ⟨of_decide_eq_true this.1, fun u' hu' => of_decide_eq_true (List.all_eq_true.1 this.2 u' (List.mem_range.2 hu'))⟩
  refine ⟨fun u u' _ _ a b => ?_, fun u _ => ?_, fun hv u _ a => ?_⟩
  · rcases (h4 u (uses_lt a)).2 u' (uses_lt b) with h | h | h
    · exact h
    · exact absurd a h
    · exact absurd b h
  · rcases Nat.lt_or_ge u l.length with h' | h'
    · exact (h4 u h').1
    · rw [List.count_eq_zero_of_not_mem (fun a => absurd (uses_lt a) (by omega))]; omega
  · exact (h2.resolve_left (fun h => h hv)) u (List.mem_range.2 (uses_lt a)) a

/-- `C29_conditions_partial` applies to it: file 3 applies on devices with 5, or with 6 and 7. -/
example : dnf.Lawful dnfMeaning ∧ LeavesShared (fsOf media3) 0 ∧ Loads dnf (fsOf media3) 0 loaded3 ∧ find 3 loaded3 = some ⟨none, [[5], [6, 7]], none⟩ :=
  ⟨dnf_lawful, shared_of (by decide +kernel), media3_loads, rfl⟩

/-- `C29_wrapped_partial` applies to it. -/
example : (∃ rank : Nat → Nat, ∀ u v, Uses (fsOf media3) u v → rank v < rank u) ∧
    bundle (fsOf media3) (fun _ => none) (fun p => (find p loaded3).getD noCond) 0 30 30 =
      .ok [.body 1 (some ⟨none, [[5]], none⟩), .body 3 (some ⟨none, [[5], [6, 7]], none⟩), .body 2 (some ⟨none, [[6]], none⟩), .body 0 (some noCond)] :=
  ⟨⟨fun n => 4 - n, fun u v h => of_decide_eq_true (of_allUses (l := media3) (P := fun u v => decide (4 - v < 4 - u)) (by decide +kernel) h)⟩, rfl⟩

/-- The files of `C29_lost_condition`: a file imported twice imports another. -/
def nested : List F := [src [impM 1 5, impM 1 6], src [imp 2], src []]

/-- When a file is imported twice with different conditions, the files it imports keep those of the first import only, and which import is
first depends on the schedule. -/
theorem C29_lost_condition :
    Loads dnf (fsOf nested) 0 [(0, noCond), (1, ⟨none, [[5], [6]], none⟩), (2, ⟨none, [[5]], none⟩)] ∧
    Loads dnf (fsOf nested) 0 [(0, noCond), (1, ⟨none, [[6], [5]], none⟩), (2, ⟨none, [[6]], none⟩)] ∧
    Applies dnfMeaning (fsOf nested) 0 (· == 5) 2 ∧ Applies dnfMeaning (fsOf nested) 0 (· == 6) 2 ∧
    dnfMeaning.holds (· == 6) [[5]] none = false ∧ dnfMeaning.holds (· == 5) [[6]] none = false := by
  have start : Steps dnf (fsOf nested) (initL dnf 0) ⟨[(0, noCond)], [(1, ⟨none, [[5]], none⟩), (1, ⟨none, [[6]], none⟩)]⟩ := step_head (.refl _) rfl
  refine ⟨?_, ?_, ?_, ?_, by decide, by decide⟩
  · exact step_head (step_head (step_head start (st' := ⟨[(0, noCond), (1, ⟨none, [[5]], none⟩)], [(1, ⟨none, [[6]], none⟩), (2, ⟨none, [[5]], none⟩)]⟩) rfl)
      (st' := ⟨[(0, noCond), (1, ⟨none, [[5], [6]], none⟩)], [(2, ⟨none, [[5]], none⟩)]⟩) rfl) rfl
  · exact step_head (step_head (.tail _ _ _ start (.run _ [(1, ⟨none, [[5]], none⟩)] [] 1 ⟨none, [[6]], none⟩
      ⟨[(0, noCond), (1, ⟨none, [[6]], none⟩)], [(1, ⟨none, [[5]], none⟩), (2, ⟨none, [[6]], none⟩)]⟩ rfl))
      (st' := ⟨[(0, noCond), (1, ⟨none, [[6], [5]], none⟩)], [(2, ⟨none, [[6]], none⟩)]⟩) rfl) rfl
  · exact .imp 1 2 ⟨.file 2, none, [], none⟩ (.imp 0 1 ⟨.file 1, none, [[5]], none⟩ .entry (by simp [fsOf, nested, src, impM, File.imports]) rfl (by decide))
      (by simp [fsOf, nested, src, imp, File.imports]) rfl (by decide)
  · exact .imp 1 2 ⟨.file 2, none, [], none⟩ (.imp 0 1 ⟨.file 1, none, [[6]], none⟩ .entry (by simp [fsOf, nested, src, impM, File.imports]) rfl (by decide))
      (by simp [fsOf, nested, src, imp, File.imports]) rfl (by decide)

/-- In a cycle the conditions of a file can be taken before its rules, which are then in no layer: the entry composes from 1, which imports
the entry, and imports 2 into layer `a`, which composes from 1. -/
theorem C29_cycle : bundle (fsOf [⟨[impL 2 (some [cs!"a"])], [1], ()⟩, src [imp 0], ⟨[], [1], ()⟩]) (fun _ => none)
    (fun p => if p = 0 then noCond else ⟨some (some [cs!"a"]), [], none⟩) 0 30 30 =
    .ok [.empty (some ⟨some (some [cs!"a"]), [], none⟩), .empty (some noCond), .body 1 none, .body 2 (some ⟨some (some [cs!"a"]), [], none⟩), .body 0 none] := by rfl

/-- An external import of a file imported with a condition is in the bundle without the condition. -/
theorem C29_external : bundle (fsOf [src [impM 1 5], src [.imp ⟨.ext 7, none, [], none⟩]]) (fun _ => none) (fun p => if p = 1 then ⟨none, [[5]], none⟩ else noCond) 0 30 30 =
    .ok [.ext ⟨.ext 7, none, [], none⟩, .body 1 (some ⟨none, [[5]], none⟩), .body 0 (some noCond)] := by rfl

/-- A `@layer` statement of a file imported with a condition is in the bundle without the condition. -/
theorem C29_layer_statement : bundle (fsOf [src [impM 1 5], src [.layers [[cs!"a"]]]]) (fun _ => none) (fun p => if p = 1 then ⟨none, [[5]], none⟩ else noCond) 0 30 30 =
    .ok [.layers [[cs!"a"]], .body 1 (some ⟨none, [[5]], none⟩), .body 0 (some noCond)] := by rfl

/-- The entry imports 1 into layer `a`, which imports 2 into layer `b.c` and 3. -/
def layers3 : List F := [src [impL 1 (some [cs!"a"])], src [impL 2 (some [cs!"b", cs!"c"]), imp 3], src [], src []]

/-- `C30_layer_partial` and `C30_unique_partial` apply to it. -/
example : Named (fsOf layers3) ∧ LeavesShared (fsOf layers3) 0 ∧ InLayer (fsOf layers3) 0 2 [cs!"a", cs!"b", cs!"c"] ∧
    Loads dnf (fsOf layers3) 0 [(0, noCond), (1, ⟨some (some [cs!"a"]), [], none⟩), (2, ⟨some (some [cs!"a", cs!"b", cs!"c"]), [], none⟩),
      (3, ⟨some (some [cs!"a"]), [], none⟩)] := by
  refine ⟨?_, shared_of (by decide +kernel), ?_, ?_⟩
  · intro u i hi
    match u with
    | 0 => simp only [fsOf, layers3, src, impL, File.imports, List.getD_cons_zero, List.filterMap_cons, List.filterMap_nil, List.mem_singleton] at hi; subst hi; exact .inr ⟨_, by simp, rfl⟩
    | 1 =>
      simp only [fsOf, layers3, src, imp, impL, File.imports, List.getD_cons_zero, List.getD_cons_succ, List.filterMap_cons, List.filterMap_nil, List.mem_cons, List.not_mem_nil, or_false] at hi
      rcases hi with rfl | rfl
      · exact .inr ⟨_, by simp, rfl⟩
      · exact .inl rfl
    | 2 | 3 => simp [fsOf, layers3, src, File.imports] at hi
    | n + 4 => simp [fsOf, layers3, src, File.imports] at hi
  · exact .named 1 2 ⟨.file 2, some (some [cs!"b", cs!"c"]), [], none⟩ [cs!"a"] [cs!"b", cs!"c"]
      (.named 0 1 ⟨.file 1, some (some [cs!"a"]), [], none⟩ [] [cs!"a"] .entry (by simp [fsOf, layers3, src, impL, File.imports]) rfl rfl)
      (by simp [fsOf, layers3, src, imp, impL, File.imports]) rfl rfl
  · exact step_head (step_head (step_head (step_head (.refl _) (st' := ⟨[(0, noCond)], [(1, ⟨some (some [cs!"a"]), [], none⟩)]⟩) rfl)
      (st' := ⟨[(0, noCond), (1, ⟨some (some [cs!"a"]), [], none⟩)], [(2, ⟨some (some [cs!"a", cs!"b", cs!"c"]), [], none⟩), (3, ⟨some (some [cs!"a"]), [], none⟩)]⟩) rfl)
      (st' := ⟨[(0, noCond), (1, ⟨some (some [cs!"a"]), [], none⟩), (2, ⟨some (some [cs!"a", cs!"b", cs!"c"]), [], none⟩)], [(3, ⟨some (some [cs!"a"]), [], none⟩)]⟩) rfl) rfl

/-- A file imported without a layer by a file in an anonymous layer is in no layer. -/
theorem C30_anonymous : Loads dnf (fsOf [src [impL 1 none], src [imp 2], src []]) 0 [(0, noCond), (1, ⟨some none, [], none⟩), (2, noCond)] :=
  step_head (step_head (step_head (.refl _) (st' := ⟨[(0, noCond)], [(1, ⟨some none, [], none⟩)]⟩) rfl)
    (st' := ⟨[(0, noCond), (1, ⟨some none, [], none⟩)], [(2, noCond)]⟩) rfl) rfl

/-- A file imported without and with a layer is in the layer only. -/
theorem C30_mixed : Loads dnf (fsOf [src [imp 1, impL 1 (some [cs!"a"])], src []]) 0 [(0, noCond), (1, ⟨some (some [cs!"a"]), [], none⟩)] :=
  step_head (step_head (step_head (.refl _) (st' := ⟨[(0, noCond)], [(1, noCond), (1, ⟨some (some [cs!"a"]), [], none⟩)]⟩) rfl)
    (st' := ⟨[(0, noCond), (1, noCond)], [(1, ⟨some (some [cs!"a"]), [], none⟩)]⟩) rfl) rfl
end Verif.Bundler
