import Verif.Transition.PanicProps
import Verif.Targets.Props
/-! # C119: the transition handler with several vendor prefixes -/
namespace Verif.Transition
open Verif.Targets Spec

/-! ### Prefixes -/

/-- A held set of prefixes, when the browser knows all prefixes of the source. -/
structure PrefOk (b : Agent) (p : PrefixSet) : Prop where
  ne : p ≠ .empty
  none : p.none = true → b.knows .none = true
  others : p.none = false → ∀ q, p.has q = true → b.knows q = true

theorem takes_iff (b : Agent) (p : PrefixSet) : b.takes p = true ↔ ∃ q, p.has q = true ∧ b.knows q = true := by
  constructor
  · intro h
    simp only [Agent.takes, Bool.or_eq_true, Bool.and_eq_true] at h
    rcases h with (((h | h) | h) | h) | h
    · exact ⟨.none, h⟩
    · exact ⟨.webkit, h⟩
    · exact ⟨.moz, h⟩
    · exact ⟨.ms, h⟩
    · exact ⟨.o, h⟩
  · rintro ⟨q, h1, h2⟩
    cases q <;> simp only [PrefixSet.has] at h1 <;> simp [Agent.takes, h1, h2]

theorem ne_empty_iff (p : PrefixSet) : p ≠ .empty ↔ ∃ q, p.has q = true := by
  obtain ⟨a, b, c, d, e⟩ := p
  constructor
  · intro h
    cases a <;> cases b <;> cases c <;> cases d <;> cases e <;>
      first
      | exact ⟨.none, rfl⟩ | exact ⟨.webkit, rfl⟩ | exact ⟨.moz, rfl⟩ | exact ⟨.ms, rfl⟩ | exact ⟨.o, rfl⟩
      | exact absurd rfl h
  · rintro ⟨q, h⟩ e
    rw [e] at h
    cases q <;> cases h

theorem PrefOk.takes {b : Agent} {p : PrefixSet} (h : PrefOk b p) : b.takes p = true := by
  rw [takes_iff]
  cases hn : p.none with
  | true => exact ⟨.none, hn, h.none hn⟩
  | false =>
    obtain ⟨q, hq⟩ := (ne_empty_iff p).mp h.ne
    exact ⟨q, hq, h.others hn q hq⟩

theorem inter_has (a b : PrefixSet) (q : Prefix) : (inter a b).has q = (a.has q && b.has q) := by cases q <;> rfl
theorem union_has (a b : PrefixSet) (q : Prefix) : (a.union b).has q = (a.has q || b.has q) := by cases q <;> rfl

theorem PrefOk.inter {b : Agent} {p q : PrefixSet} (hp : PrefOk b p) (hq : PrefOk b q) (h : inter p q ≠ .empty) : PrefOk b (inter p q) := by
  refine ⟨h, fun hn => ?_, fun hn r hr => ?_⟩
  · simp only [Transition.inter, Bool.and_eq_true] at hn; exact hp.none hn.1
  · rw [inter_has, Bool.and_eq_true] at hr
    cases h1 : p.none with
    | false => exact hp.others h1 r hr.1
    | true =>
      cases h2 : q.none with
      | false => exact hq.others h2 r hr.2
      | true => simp [Transition.inter, h1, h2] at hn

theorem PrefOk.union {b : Agent} {p q : PrefixSet} (hp : PrefOk b p) (hq : PrefOk b q) : PrefOk b (p.union q) := by
  refine ⟨?_, fun hn => ?_, fun hn r hr => ?_⟩
  · obtain ⟨r, hr⟩ := (ne_empty_iff p).mp hp.ne
    rw [ne_empty_iff]; exact ⟨r, by rw [union_has, hr]; rfl⟩
  · simp only [PrefixSet.union, Bool.or_eq_true] at hn; exact hn.elim hp.none hq.none
  · simp only [PrefixSet.union, Bool.or_eq_false_iff] at hn
    rw [union_has, Bool.or_eq_true] at hr
    exact hr.elim (hp.others hn.1 r) (hq.others hn.2 r)

theorem PrefOk.prefixes {b : Agent} {p : PrefixSet} (hp : PrefOk b p) (t : Targets) (f : PrefixFeature) : PrefOk b (t.prefixes p f) := by
  have h := C13_targets t p f
  cases hn : p.none with
  | false => rw [h.1 hn]; exact hp
  | true =>
    have h2 := h.2.2.1 hn
    refine ⟨?_, fun _ => hp.none hn, fun h3 => ?_⟩
    · rw [ne_empty_iff]; exact ⟨_, h2⟩
    · have h2 : (t.prefixes p f).none = true := h2
      rw [h2] at h3; cases h3

theorem PrefOk.single {b : Agent} {q : Prefix} (h : b.knows q = true) : PrefOk b q.set := by
  refine ⟨?_, ?_, ?_⟩
  · cases q <;> simp [Prefix.set, PrefixSet.empty]
  · cases q <;> simp [Prefix.set]; exact h
  · intro _ r hr
    have : r = q := by cases q <;> cases r <;> first | rfl | cases hr
    rw [this]; exact h

/-! ### Lists of properties -/

theorem merge_nodup_aux (ps : List Pid) : ∀ acc : List Pid, ((acc ++ ps).map Pid.name).Nodup → ps.foldl mergeProperties.step acc = acc ++ ps := by
  induction ps with
  | nil => intro acc _; simp
  | cons p ps ih =>
    intro acc h
    have hs : mergeProperties.step acc p = acc ++ [p] := by
      unfold mergeProperties.step
      have : acc.findIdx? (fun c => c.withPrefix .empty = p.withPrefix .empty) = none := by
        rw [List.findIdx?_eq_none_iff]
        intro c hc
        simp only [decide_eq_false_iff_not]
        intro e
        have en : c.name = p.name := by
          cases c <;> cases p <;> simp [Pid.withPrefix] at e <;> simp [Pid.name, e]
        rw [List.map_append, List.nodup_append] at h
        exact h.2.2 _ (List.mem_map_of_mem hc) _ (List.mem_map_of_mem (.head _)) en
      rw [this]
    rw [List.foldl_cons, hs, ih]
    · simp
    · simpa using h

/-- Properties with different names are not merged. -/
theorem merge_nodup (ps : List Pid) (h : (ps.map Pid.name).Nodup) : mergeProperties ps = ps := by
  exact merge_nodup_aux ps [] (by simpa using h)

/-- The targets need no other name for the property. -/
def Untouched (env : Env) (q : Pid) : Prop := expandProperties env [q] = some ([q], none)

theorem expandLoop_untouched (env : Env) (ps : List Pid) : ∀ done, (∀ q ∈ ps, Untouched env q) → expandLoop env done none ps = some (done ++ ps, none) := by
  induction ps with
  | nil => intro done _; simp [expandLoop]
  | cons q ps ih =>
    intro done h
    have hq := h q (.head _)
    have ih := fun done => ih done fun x hx => h x (.tail _ hx)
    unfold Untouched expandProperties at hq
    rw [expandLoop] at hq ⊢
    have other : some (maskBefore env (env.setPrefixes q) ++ [env.setPrefixes q], (none : Option (List Pid))) = some ([q], none) →
        expandLoop env (done ++ maskBefore env (env.setPrefixes q) ++ [env.setPrefixes q]) none ps = some (done ++ q :: ps, none) := by
      intro hh
      injection hh with hh
      injection hh with hh _
      rw [ih, List.append_assoc done, hh]; simp
    simp only [expandRtl, expandLoop, List.nil_append] at hq ⊢
    cases hl : logical q with
    | none => rw [hl] at hq; simp only at hq ⊢; exact other hq
    | block f l =>
      rw [hl] at hq; simp only at hq ⊢
      split at hq
      · rename_i hf
        simp only [replaceRtl] at hq
        injection hq with hq; injection hq with hq _
        simp only [hf, if_true, replaceRtl]
        rw [ih, hq]; simp
      · rename_i hf
        simp only [hf]
        exact other hq
    | inline f l r =>
      rw [hl] at hq; simp only at hq ⊢
      split at hq
      · simp [replaceRtl, replaceAt] at hq
      · rename_i hf
        simp only [hf]
        exact other hq

theorem expand_untouched (env : Env) (ps : List Pid) (h : ∀ q ∈ ps, Untouched env q) : expandProperties env ps = some (ps, none) := by
  simpa [expandProperties] using expandLoop_untouched env ps [] h

/-- A property as the parser makes it: without a prefix, or with exactly one flag. -/
def OneName (q : Pid) : Prop := (∃ n, q = .plain n) ∨ ∃ n p, q = .pref n (Prefix.set p)

theorem flags_set (p : Prefix) : flags (orNone p.set) = [p] := by cases p <;> rfl

theorem OneName.flags {q : Pid} (h : OneName q) : ∃ p, flags (orNone q.prefix) = [p] ∧ q.withPrefix p.set = q ∧ q.print = [(p, q.name)] := by
  rcases h with ⟨n, rfl⟩ | ⟨n, p, rfl⟩
  · exact ⟨.none, rfl, rfl, rfl⟩
  · exact ⟨p, flags_set p, rfl, by simp [Pid.print, Pid.prefix, flags_set]⟩

section
variable {T : Type} [Zero T]

theorem written_one (t : Tr T) (h : OneName t.property) :
    ∃ p, written t = [((p, t.property.name), t.duration, t.delay, t.timing)] ∧ t.property.print = [(p, t.property.name)] := by
  obtain ⟨p, -, -, hp⟩ := h.flags
  exact ⟨p, by simp [written, hp], hp⟩

/-- The transitions of lists of the same length. -/
def zipTr : List Pid → List T → List T → List Easing → List (Tr T)
  | q :: ps, d :: ds, l :: dl, t :: ts => ⟨q, d, l, t⟩ :: zipTr ps ds dl ts
  | _, _, _, _ => []

theorem cycle_lt {A : Type} (l : List A) (a : A) (i : Nat) (h : i < l.length) : cycle l a i = l[i] := by
  simp [cycle, Nat.mod_eq_of_lt h, h]

theorem getTransitions_go (ds dl : List T) (ts : List Easing) (ps : List Pid) : ∀ i, (∀ q ∈ ps, OneName q) →
    ds.length = i + ps.length → dl.length = i + ps.length → ts.length = i + ps.length →
    (getTransitions.go ds dl ts i ps).flatten = zipTr ps (ds.drop i) (dl.drop i) (ts.drop i) := by
  induction ps with
  | nil => intro i _ _ _ _; simp [getTransitions.go, zipTr]
  | cons q ps ih =>
    intro i h h1 h2 h3
    simp only [List.length_cons] at h1 h2 h3
    obtain ⟨p, hf, hw, -⟩ := (h q (.head _)).flags
    rw [getTransitions.go, hf]
    rw [List.drop_eq_getElem_cons (by omega : i < ds.length), List.drop_eq_getElem_cons (by omega : i < dl.length), List.drop_eq_getElem_cons (by omega : i < ts.length)]
    simp only [List.map_cons, List.map_nil, List.flatten_cons, List.singleton_append, hw, zipTr]
    rw [cycle_lt ds _ i (by omega), cycle_lt dl _ i (by omega), cycle_lt ts _ i (by omega)]
    rw [ih (i + 1) (fun x hx => h x (.tail _ hx)) (by omega) (by omega) (by omega)]

theorem getTransitions_zip (ds dl : List T) (ts : List Easing) (ps : List Pid) (h : ∀ q ∈ ps, OneName q)
    (h1 : ds.length = ps.length) (h2 : dl.length = ps.length) (h3 : ts.length = ps.length) :
    getTransitions ds dl ts ps = zipTr ps ds dl ts := by
  simpa [getTransitions] using getTransitions_go ds dl ts ps 0 h (by omega) (by omega) (by omega)

theorem zipTr_written (ps : List Pid) : ∀ (ds dl : List T) (ts : List Easing), (∀ q ∈ ps, OneName q) →
    ds.length = ps.length → dl.length = ps.length → ts.length = ps.length →
    ((zipTr ps ds dl ts).flatMap written).map (·.1) = ps.flatMap Pid.print ∧ ((zipTr ps ds dl ts).flatMap written).map (·.2.1) = ds ∧
    ((zipTr ps ds dl ts).flatMap written).map (·.2.2.1) = dl ∧ ((zipTr ps ds dl ts).flatMap written).map (·.2.2.2) = ts := by
  induction ps with
  | nil => 
    intro ds dl ts _ h1 h2 h3
    simp only [List.length_nil, List.length_eq_zero_iff] at h1 h2 h3
    subst h1 h2 h3
    simp [zipTr]
  | cons q ps ih =>
    intro ds dl ts h h1 h2 h3
    match ds, dl, ts, h1, h2, h3 with
    | d :: ds, l :: dl, t :: ts, h1, h2, h3 =>
      simp only [List.length_cons, Nat.add_right_cancel_iff] at h1 h2 h3
      obtain ⟨i1, i2, i3, i4⟩ := ih ds dl ts (fun x hx => h x (.tail _ hx)) h1 h2 h3
      obtain ⟨p, hw, hp⟩ := written_one (⟨q, d, l, t⟩ : Tr T) (h q (.head _))
      simp only at hp
      simp [zipTr, hw, hp, i1, i2, i3, i4]

theorem map_written (v : List (Tr T)) (h : ∀ t ∈ v, OneName t.property) :
    (v.flatMap written).map (·.1) = (v.map (·.property)).flatMap Pid.print ∧ (v.flatMap written).map (·.2.1) = v.map (·.duration) ∧
    (v.flatMap written).map (·.2.2.1) = v.map (·.delay) ∧ (v.flatMap written).map (·.2.2.2) = v.map (·.timing) := by
  induction v with
  | nil => simp
  | cons t v ih =>
    obtain ⟨i1, i2, i3, i4⟩ := ih fun x hx => h x (.tail _ hx)
    obtain ⟨p, hw, hp⟩ := written_one t (h t (.head _))
    simp [hw, hp, i1, i2, i3, i4]

/-! ### What is held -/

/-- The computed values when the held values are written after `c`. -/
def Handler.over (h : Handler T) (c : Computed T) : Computed T :=
  ⟨match h.properties with | some (v, _) => .list (v.flatMap Pid.print) | none => c.property,
   match h.durations with | some (v, _) => .list v | none => c.duration,
   match h.delays with | some (v, _) => .list v | none => c.delay,
   match h.timings with | some (v, _) => .list v | none => c.timing⟩

/-- A list of properties of length `n` that is neither merged nor expanded. -/
structure Steady (env : Env) (n : Nat) (ps : List Pid) : Prop where
  len : ps.length = n
  one : ∀ q ∈ ps, OneName q
  nodup : (ps.map Pid.name).Nodup
  untouched : ∀ q ∈ ps, Untouched env q

/-- The invariant for the held values. -/
structure Held (env : Env) (n : Nat) (b : Agent) (h : Handler T) : Prop where
  properties : ∀ v p, h.properties = some (v, p) → Steady env n v ∧ PrefOk b p
  durations : ∀ v p, h.durations = some (v, p) → v.length = n ∧ PrefOk b p
  delays : ∀ v p, h.delays = some (v, p) → v.length = n ∧ PrefOk b p
  timings : ∀ v p, h.timings = some (v, p) → v.length = n ∧ PrefOk b p

/-- The declarations at the end of `flush`, without a right-to-left list. -/
def restDecls (h : Handler T) : List (Decl T) :=
  (match h.properties with | some (v, p) => if p = .empty then [] else [.property v p] | none => []) ++
  (match h.durations with | some (v, p) => if p = .empty then [] else [.duration v p] | none => []) ++
  (match h.delays with | some (v, p) => if p = .empty then [] else [.delay v p] | none => []) ++
  (match h.timings with | some (v, p) => if p = .empty then [] else [.timing v p] | none => [])

/-- The condition that a field writes nothing new: it has no prefixes left that the browser knows, or the computed value is its value. -/
theorem computed_rest (b : Agent) (h : Handler T) (c : Computed T)
    (h1 : ∀ v p, h.properties = some (v, p) → b.takes p = true ∨ c.property = .list (v.flatMap Pid.print))
    (h2 : ∀ v p, h.durations = some (v, p) → b.takes p = true ∨ c.duration = .list v)
    (h3 : ∀ v p, h.delays = some (v, p) → b.takes p = true ∨ c.delay = .list v)
    (h4 : ∀ v p, h.timings = some (v, p) → b.takes p = true ∨ c.timing = .list v) :
    computed b c (restDecls h) = h.over c := by
  have te : b.takes .empty = false := rfl
  unfold restDecls computed
  rw [List.foldl_append, List.foldl_append, List.foldl_append]
  obtain ⟨a1, a2, a3, a4⟩ := h
  obtain ⟨c1, c2, c3, c4⟩ := c
  simp only at h1 h2 h3 h4
  have s1 : (match a1 with | some (v, p) => if p = PrefixSet.empty then [] else [Decl.property v p] | none => []).foldl (apply b) ⟨c1, c2, c3, c4⟩ =
      (⟨match a1 with | some (v, _) => .list (v.flatMap Pid.print) | none => c1, c2, c3, c4⟩ : Computed T) := by
    cases a1 with
    | none => rfl
    | some x =>
      obtain ⟨v, p⟩ := x
      rcases h1 v p rfl with h | h
      · have : p ≠ .empty := fun e => by rw [e, te] at h; cases h
        simp [this, apply, h]
      · simp only
        split
        · simp [h]
        · simp only [List.foldl_cons, List.foldl_nil, apply, h, ite_self]
  rw [s1]
  have s2 : ∀ c1, (match a2 with | some (v, p) => if p = PrefixSet.empty then [] else [Decl.duration v p] | none => []).foldl (apply b) ⟨c1, c2, c3, c4⟩ =
      (⟨c1, match a2 with | some (v, _) => .list v | none => c2, c3, c4⟩ : Computed T) := by
    intro c1
    cases a2 with
    | none => rfl
    | some x =>
      obtain ⟨v, p⟩ := x
      rcases h2 v p rfl with h | h
      · have : p ≠ .empty := fun e => by rw [e, te] at h; cases h
        simp [this, apply, h]
      · simp only
        split
        · simp [h]
        · simp only [List.foldl_cons, List.foldl_nil, apply, h, ite_self]
  rw [s2]
  have s3 : ∀ c1 c2, (match a3 with | some (v, p) => if p = PrefixSet.empty then [] else [Decl.delay v p] | none => []).foldl (apply b) ⟨c1, c2, c3, c4⟩ =
      (⟨c1, c2, match a3 with | some (v, _) => .list v | none => c3, c4⟩ : Computed T) := by
    intro c1 c2
    cases a3 with
    | none => rfl
    | some x =>
      obtain ⟨v, p⟩ := x
      rcases h3 v p rfl with h | h
      · have : p ≠ .empty := fun e => by rw [e, te] at h; cases h
        simp [this, apply, h]
      · simp only
        split
        · simp [h]
        · simp only [List.foldl_cons, List.foldl_nil, apply, h, ite_self]
  rw [s3]
  have s4 : ∀ c1 c2 c3, (match a4 with | some (v, p) => if p = PrefixSet.empty then [] else [Decl.timing v p] | none => []).foldl (apply b) ⟨c1, c2, c3, c4⟩ =
      (⟨c1, c2, c3, match a4 with | some (v, _) => .list v | none => c4⟩ : Computed T) := by
    intro c1 c2 c3
    cases a4 with
    | none => rfl
    | some x =>
      obtain ⟨v, p⟩ := x
      rcases h4 v p rfl with h | h
      · have : p ≠ .empty := fun e => by rw [e, te] at h; cases h
        simp [this, apply, h]
      · simp only
        split
        · simp [h]
        · simp only [List.foldl_cons, List.foldl_nil, apply, h, ite_self]
  rw [s4]
  cases a1 <;> cases a2 <;> cases a3 <;> cases a4 <;> rfl

/-- `flush` writes the shorthand, if all four are there for a prefix, and then what is left. -/
theorem flushWith_dest (h : Handler T) (o : Out T) : flushWith h none o =
    { o with dest := o.dest ++ (match h.properties, h.durations, h.delays, h.timings with
      | some (ps, p1), some (ds, p2), some (dl, p3), some (ts, p4) =>
        let i := inter (inter (inter p1 p2) p3) p4
        if i = .empty then restDecls h
        else .transition (getTransitions ds dl ts ps) i ::
          restDecls ⟨some (ps, remove p1 i), some (ds, remove p2 i), some (dl, remove p3 i), some (ts, remove p4 i)⟩
      | _, _, _, _ => restDecls h) } := by
  have key : ∀ (h : Handler T) (o : Out T),
      pushRest .timing h.timings (pushRest .delay h.delays (pushRest .duration h.durations
        (match h.properties with
          | none => o
          | some (ps, p) => if p = .empty then o else o.add (.property ps p) none))) = { o with dest := o.dest ++ restDecls h } := by
    intro h o
    obtain ⟨a1, a2, a3, a4⟩ := h
    obtain ⟨o1, o2, o3⟩ := o
    simp only [restDecls]
    cases a1 with
    | none => 
      cases a2 <;> cases a3 <;> cases a4 <;> simp only [pushRest] <;> (repeat' split) <;> simp
    | some x =>
      obtain ⟨v, p⟩ := x
      by_cases hp : p = .empty
      · cases a2 <;> cases a3 <;> cases a4 <;> simp only [pushRest, hp, if_true] <;> (repeat' split) <;> simp
      · cases a2 <;> cases a3 <;> cases a4 <;> simp only [pushRest, hp, if_false, Out.add] <;> (repeat' split) <;> simp
  obtain ⟨a1, a2, a3, a4⟩ := h
  cases a1 with
  | none => exact key _ _
  | some x1 => cases a2 with
    | none => exact key _ _
    | some x2 => cases a3 with
      | none => exact key ⟨some x1, some x2, none, a4⟩ o
      | some x3 => cases a4 with
        | none => exact key ⟨some x1, some x2, some x3, none⟩ o
        | some x4 =>
          obtain ⟨ps, p1⟩ := x1
          obtain ⟨ds, p2⟩ := x2
          obtain ⟨dl, p3⟩ := x3
          obtain ⟨ts, p4⟩ := x4
          simp only [flushWith]
          split
          · exact key ⟨some (ps, p1), some (ds, p2), some (dl, p3), some (ts, p4)⟩ o
          · refine (key ⟨some (ps, _), some (ds, _), some (dl, _), some (ts, _)⟩ _).trans ?_
            simp [Out.add]

theorem flush_held (env : Env) (n : Nat) (b : Agent) (h : Handler T) (hh : Held env n b h) (o : Out T) :
    ∃ o', flush env h o = some o' ∧ o'.ltr = o.ltr ∧ o'.rtl = o.rtl ∧ ∀ c, computed b c o'.dest = h.over (computed b c o.dest) := by
  have hf : flush env h o = some (flushWith h none o) := by
    unfold flush
    cases hp : h.properties with
    | none => rfl
    | some x =>
      obtain ⟨ps, p⟩ := x
      simp only [expand_untouched env ps (hh.properties ps p hp).1.untouched]
      obtain ⟨a1, a2, a3, a4⟩ := h
      simp only at hp; rw [hp]
  refine ⟨_, hf, ?_⟩
  rw [flushWith_dest]
  refine ⟨rfl, rfl, fun c => ?_⟩
  have plain : ∀ c, computed b c (restDecls h) = h.over c := fun c =>
    computed_rest b h c (fun v p e => .inl (hh.properties v p e).2.takes) (fun v p e => .inl (hh.durations v p e).2.takes)
      (fun v p e => .inl (hh.delays v p e).2.takes) (fun v p e => .inl (hh.timings v p e).2.takes)
  have app : ∀ xs, computed b c (o.dest ++ xs) = computed b (computed b c o.dest) xs := by intro xs; simp [computed, List.foldl_append]
  rw [app]
  split
  · rename_i ps p1 ds p2 dl p3 ts p4 e1 e2 e3 e4
    dsimp only
    split
    · exact plain _
    · rename_i hne
      obtain ⟨hs, k1⟩ := hh.properties _ _ e1
      obtain ⟨l2, k2⟩ := hh.durations _ _ e2
      obtain ⟨l3, k3⟩ := hh.delays _ _ e3
      obtain ⟨l4, k4⟩ := hh.timings _ _ e4
      have n3 : inter (inter p1 p2) p3 ≠ .empty := by
        rw [ne_empty_iff]
        obtain ⟨q, hq⟩ := (ne_empty_iff _).mp hne
        rw [inter_has, Bool.and_eq_true] at hq
        exact ⟨q, hq.1⟩
      have n2 : inter p1 p2 ≠ .empty := by
        rw [ne_empty_iff] at n3 ⊢
        obtain ⟨q, hq⟩ := n3
        rw [inter_has, Bool.and_eq_true] at hq
        exact ⟨q, hq.1⟩
      have tk := (((k1.inter k2 n2).inter k3 n3).inter k4 hne).takes
      have hz := getTransitions_zip ds dl ts ps hs.one (l2.trans hs.len.symm) (l3.trans hs.len.symm) (l4.trans hs.len.symm)
      obtain ⟨z1, z2, z3, z4⟩ := zipTr_written ps ds dl ts hs.one (l2.trans hs.len.symm) (l3.trans hs.len.symm) (l4.trans hs.len.symm)
      have ha : apply b (computed b c o.dest) (.transition (getTransitions ds dl ts ps) (inter (inter (inter p1 p2) p3) p4)) =
          ⟨.list (ps.flatMap Pid.print), .list ds, .list dl, .list ts⟩ := by
        simp only [apply, tk, if_true, hz, z1, z2, z3, z4]
      have hcons : ∀ (d : Decl T) xs c, computed b c (d :: xs) = computed b (apply b c d) xs := fun _ _ _ => rfl
      rw [hcons, ha]
      rw [computed_rest]
      · simp [Handler.over, e1, e2, e3, e4]
      · intro v p e; injection e with e; injection e with e _; exact .inr (by rw [e])
      · intro v p e; injection e with e; injection e with e _; exact .inr (by rw [e])
      · intro v p e; injection e with e; injection e with e _; exact .inr (by rw [e])
      · intro v p e; injection e with e; injection e with e _; exact .inr (by rw [e])
  · exact plain _

/-! ### The declarations -/

variable [DecidableEq T]

/-- The state after some declarations. -/
structure Inv (env : Env) (n : Nat) (b : Agent) (s : Handler T × Out T) (g : Computed T → Computed T) : Prop where
  held : Held env n b s.1
  ltr : s.2.ltr = []
  rtl : s.2.rtl = []
  value : ∀ c, s.1.over (computed b c s.2.dest) = g c

omit [Zero T] [DecidableEq T] in
theorem held_empty (env : Env) (n : Nat) (b : Agent) : Held env n b ({} : Handler T) :=
  ⟨fun _ _ h => (by cases h), fun _ _ h => (by cases h), fun _ _ h => (by cases h), fun _ _ h => (by cases h)⟩

omit [DecidableEq T] in
theorem Inv.flushIf {env : Env} {n : Nat} {b : Agent} {s : Handler T × Out T} {g} (hs : Inv env n b s g) (c : Bool) :
    ∃ s', flushIf env c s = some s' ∧ Inv env n b s' g := by
  unfold Transition.flushIf
  split
  · obtain ⟨o, ho, h1, h2, h3⟩ := flush_held env n b s.1 hs.held s.2
    refine ⟨({}, o), by simp [ho], held_empty .., h1.trans hs.ltr, h2.trans hs.rtl, fun c => ?_⟩
    rw [← hs.value c, ← h3 c]; rfl
  · exact ⟨s, rfl, hs⟩

theorem update_some {A : Type} {b : Agent} (env : Env) (f : PrefixFeature) (x : Option (List A × PrefixSet)) (v : List A) (vp : PrefixSet)
    (hx : ∀ w p, x = some (w, p) → PrefOk b p) (hv : PrefOk b vp) : ∃ p, update env f x v vp = some (v, p) ∧ PrefOk b p := by
  unfold update
  cases x with
  | none => exact ⟨_, rfl, hv.prefixes _ _⟩
  | some y =>
    obtain ⟨w, p⟩ := y
    exact ⟨_, rfl, ((hx w p rfl).union hv).prefixes _ _⟩

/-- A declaration of the source: it has one prefix, which the browser knows; lists have the length `n`, and the properties are neither merged nor expanded. -/
def Fits (env : Env) (n : Nat) (b : Agent) : Decl T → Prop
  | .property v p => Steady env n v ∧ ∃ q, p = Prefix.set q ∧ b.knows q = true
  | .duration v p => v.length = n ∧ ∃ q, p = Prefix.set q ∧ b.knows q = true
  | .delay v p => v.length = n ∧ ∃ q, p = Prefix.set q ∧ b.knows q = true
  | .timing v p => v.length = n ∧ ∃ q, p = Prefix.set q ∧ b.knows q = true
  | .transition v p => Steady env n (v.map (·.property)) ∧ ∃ q, p = Prefix.set q ∧ b.knows q = true
  | .unparsed _ _ p => ∃ q, p = Prefix.set q ∧ b.knows q = true

theorem Inv.handle {env : Env} {n : Nat} {b : Agent} {s : Handler T × Out T} {g} (hs : Inv env n b s g) (d : Decl T) (hd : Fits env n b d) :
    ∃ s', handle env s d = some s' ∧ Inv env n b s' (fun c => apply b (g c) d) := by
  cases d with
  | property v p =>
    obtain ⟨hv, q, rfl, hq⟩ := hd
    have hp := PrefOk.single hq
    have hm := merge_nodup v hv.nodup
    obtain ⟨⟨h, o⟩, e, i⟩ := hs.flushIf (conflict s.1.properties (mergeProperties v) q.set)
    obtain ⟨p', hu, hp'⟩ := update_some env .transitionProperty h.properties v q.set (fun w p h => (i.held.properties w p h).2) hp
    refine ⟨_, by simp only [Transition.handle]; rw [e]; rfl, ?_⟩
    refine ⟨⟨?_, i.held.durations, i.held.delays, i.held.timings⟩, i.ltr, i.rtl, fun c => ?_⟩
    · intro w p hw; simp only [hm, hu, Option.some.injEq, Prod.mk.injEq] at hw; obtain ⟨rfl, rfl⟩ := hw; exact ⟨hv, hp'⟩
    · rw [← i.value c]; simp [apply, hp.takes, hm, hu, Handler.over]
  | duration v p =>
    obtain ⟨hv, q, rfl, hq⟩ := hd
    have hp := PrefOk.single hq
    obtain ⟨⟨h, o⟩, e, i⟩ := hs.flushIf (conflict s.1.durations v q.set)
    obtain ⟨p', hu, hp'⟩ := update_some env .transitionDuration h.durations v q.set (fun w p h => (i.held.durations w p h).2) hp
    refine ⟨_, by simp only [Transition.handle]; rw [e]; rfl, ?_⟩
    refine ⟨⟨i.held.properties, ?_, i.held.delays, i.held.timings⟩, i.ltr, i.rtl, fun c => ?_⟩
    · intro w p hw; simp only [hu, Option.some.injEq, Prod.mk.injEq] at hw; obtain ⟨rfl, rfl⟩ := hw; exact ⟨hv, hp'⟩
    · rw [← i.value c]; simp [apply, hp.takes, hu, Handler.over]
  | delay v p =>
    obtain ⟨hv, q, rfl, hq⟩ := hd
    have hp := PrefOk.single hq
    obtain ⟨⟨h, o⟩, e, i⟩ := hs.flushIf (conflict s.1.delays v q.set)
    obtain ⟨p', hu, hp'⟩ := update_some env .transitionDelay h.delays v q.set (fun w p h => (i.held.delays w p h).2) hp
    refine ⟨_, by simp only [Transition.handle]; rw [e]; rfl, ?_⟩
    refine ⟨⟨i.held.properties, i.held.durations, ?_, i.held.timings⟩, i.ltr, i.rtl, fun c => ?_⟩
    · intro w p hw; simp only [hu, Option.some.injEq, Prod.mk.injEq] at hw; obtain ⟨rfl, rfl⟩ := hw; exact ⟨hv, hp'⟩
    · rw [← i.value c]; simp [apply, hp.takes, hu, Handler.over]
  | timing v p =>
    obtain ⟨hv, q, rfl, hq⟩ := hd
    have hp := PrefOk.single hq
    obtain ⟨⟨h, o⟩, e, i⟩ := hs.flushIf (conflict s.1.timings v q.set)
    obtain ⟨p', hu, hp'⟩ := update_some env .transitionTimingFunction h.timings v q.set (fun w p h => (i.held.timings w p h).2) hp
    refine ⟨_, by simp only [Transition.handle]; rw [e]; rfl, ?_⟩
    refine ⟨⟨i.held.properties, i.held.durations, i.held.delays, ?_⟩, i.ltr, i.rtl, fun c => ?_⟩
    · intro w p hw; simp only [hu, Option.some.injEq, Prod.mk.injEq] at hw; obtain ⟨rfl, rfl⟩ := hw; exact ⟨hv, hp'⟩
    · rw [← i.value c]; simp [apply, hp.takes, hu, Handler.over]
  | transition v p =>
    obtain ⟨hv, q, rfl, hq⟩ := hd
    have hp := PrefOk.single hq
    have hm := merge_nodup _ hv.nodup
    obtain ⟨s1, e1, i1⟩ := hs.flushIf (conflict s.1.properties (mergeProperties (v.map (·.property))) q.set)
    rw [hm] at e1
    obtain ⟨s2, e2, i2⟩ := i1.flushIf (conflict s1.1.durations (v.map (·.duration)) q.set)
    obtain ⟨s3, e3, i3⟩ := i2.flushIf (conflict s2.1.delays (v.map (·.delay)) q.set)
    obtain ⟨⟨h, o⟩, e4, i⟩ := i3.flushIf (conflict s3.1.timings (v.map (·.timing)) q.set)
    obtain ⟨p1, u1, k1⟩ := update_some env .transitionProperty h.properties (v.map (·.property)) q.set (fun w p h => (i.held.properties w p h).2) hp
    obtain ⟨p2, u2, k2⟩ := update_some env .transitionDuration h.durations (v.map (·.duration)) q.set (fun w p h => (i.held.durations w p h).2) hp
    obtain ⟨p3, u3, k3⟩ := update_some env .transitionDelay h.delays (v.map (·.delay)) q.set (fun w p h => (i.held.delays w p h).2) hp
    obtain ⟨p4, u4, k4⟩ := update_some env .transitionTimingFunction h.timings (v.map (·.timing)) q.set (fun w p h => (i.held.timings w p h).2) hp
    have hlen : v.length = n := by simpa using hv.len
    refine ⟨_, by simp only [Transition.handle, hm, e1, e2, e3, e4, Option.bind_eq_bind, Option.bind_some, u1, u2, u3, u4]; rfl, ?_⟩
    refine ⟨⟨?_, ?_, ?_, ?_⟩, i.ltr, i.rtl, fun c => ?_⟩
    · intro w p hw; simp only [Option.some.injEq, Prod.mk.injEq] at hw; obtain ⟨rfl, rfl⟩ := hw; exact ⟨hv, k1⟩
    · intro w p hw; simp only [Option.some.injEq, Prod.mk.injEq] at hw; obtain ⟨rfl, rfl⟩ := hw; exact ⟨by simpa using hlen, k2⟩
    · intro w p hw; simp only [Option.some.injEq, Prod.mk.injEq] at hw; obtain ⟨rfl, rfl⟩ := hw; exact ⟨by simpa using hlen, k3⟩
    · intro w p hw; simp only [Option.some.injEq, Prod.mk.injEq] at hw; obtain ⟨rfl, rfl⟩ := hw; exact ⟨by simpa using hlen, k4⟩
    · obtain ⟨m1, m2, m3, m4⟩ := map_written v fun t ht => hv.one _ (List.mem_map_of_mem ht)
      simp only [apply, hp.takes, if_true, m1, m2, m3, m4, Handler.over]
  | unparsed lh t p =>
    obtain ⟨q, rfl, hq⟩ := hd
    have hp := PrefOk.single hq
    obtain ⟨o, ho, h1, h2, h3⟩ := flush_held env n b s.1 hs.held s.2
    have ho' : orNone q.set = q.set := by cases q <;> rfl
    refine ⟨_, by simp only [Transition.handle]; rw [ho]; rfl, ?_⟩
    refine ⟨held_empty .., h1.trans hs.ltr, h2.trans hs.rtl, fun c => ?_⟩
    have h4 : ∀ c, ({} : Handler T).over c = c := fun _ => rfl
    rw [h4, ← hs.value c, ← h3 c, ho']
    have tk := (hp.prefixes env.targets .transition).takes
    simp only [computed, List.foldl_append, List.foldl_cons, List.foldl_nil, apply, tk, hp.takes, if_true]

/-- C119: for a browser that knows the prefixes of the source, all lists having the same length and the targets needing no other names, the computed values of the four longhands are the same before and after, whatever the order of the prefixed declarations is. -/
theorem C119_prefixes_partial (env : Env) (n : Nat) (b : Agent) (ds : List (Decl T)) (hd : ∀ d ∈ ds, Fits env n b d) :
    ∃ out, run env ds = some out ∧ out.ltr = [] ∧ out.rtl = [] ∧ ∀ c, computed b c out.dest = computed b c ds := by
  have : ∀ (ds : List (Decl T)) (s : Handler T × Out T) g, Inv env n b s g → (∀ d ∈ ds, Fits env n b d) →
      ∃ s', ds.foldlM (Transition.handle env) s = some s' ∧ Inv env n b s' (fun c => computed b (g c) ds) := by
    intro ds
    induction ds with
    | nil => intro s g hs _; exact ⟨s, rfl, hs⟩
    | cons d ds ih =>
      intro s g hs h
      obtain ⟨s1, e1, i1⟩ := hs.handle d (h d (.head _))
      obtain ⟨s2, e2, i2⟩ := ih s1 _ i1 fun d hd => h d (.tail _ hd)
      exact ⟨s2, by simp [List.foldlM_cons, e1, e2], i2⟩
  obtain ⟨s, e, i⟩ := this ds ({}, {}) id ⟨held_empty .., rfl, rfl, fun c => rfl⟩ hd
  obtain ⟨o, ho, h1, h2, h3⟩ := flush_held env n b s.1 i.held s.2
  refine ⟨o, by simp [run, e, ho], h1.trans i.ltr, h2.trans i.rtl, fun c => ?_⟩
  rw [h3 c, i.value c]; rfl

end

/-! ### Examples -/

/-- No browser targets. -/
def noTargets : Env := ⟨⟨none, 0, 0⟩, false, fun _ => none⟩

/-- A browser that knows some prefixes, where every name stands for itself. -/
def agent (ps : List Prefix) : Agent := ⟨fun p => p ∈ ps, fun n x => n.2 = x⟩

example : ∀ d ∈ ([.transition [⟨.plain cs!"color", 1, 2, .ease⟩] Prefix.webkit.set, .duration [3] Prefix.none.set, .unparsed none cs!"var(--x)" Prefix.webkit.set] : List (Decl Nat)),
    Fits noTargets 1 (agent [.none, .webkit]) d := by
  intro d hd
  simp only [List.mem_cons, List.not_mem_nil, or_false] at hd
  rcases hd with rfl | rfl | rfl
  · refine ⟨⟨rfl, ?_, by decide, ?_⟩, .webkit, rfl, by decide⟩
    · intro q hq; simp at hq; exact .inl ⟨_, hq⟩
    · intro q hq; simp at hq; subst hq; unfold Untouched; decide +kernel
  · exact ⟨rfl, .none, rfl, by decide⟩
  · exact ⟨.webkit, rfl, by decide⟩

/-- C119 fails for a browser that does not know a prefix of the source: `-webkit-transition-duration: 1s; transition-duration: 1s; -webkit-transition-duration: 2s` becomes `2s` for both names, but the browser that only knows `transition-duration` had `1s`. -/
theorem C119_unknown_prefix_fails : ∃ (ds : List (Decl Nat)) (out : Out Nat), run noTargets ds = some out ∧
    ∀ c, (computed (agent [.none]) c ds).duration = .list [1] ∧ (computed (agent [.none]) c out.dest).duration = .list [2] :=
  ⟨[.duration [1] Prefix.webkit.set, .duration [1] Prefix.none.set, .duration [2] Prefix.webkit.set], ⟨[.duration [2] ⟨true, true, false, false, false⟩], [], []⟩,
    by decide +kernel, fun c => ⟨rfl, rfl⟩⟩

/-- C119 fails for lists of different lengths: the list of the durations is cut to the number of properties in the shorthand, and then there are more properties with another prefix: the third one had `3s` and now has `1s`. -/
theorem C119_lengths_fails : ∃ (ds : List (Decl Nat)) (out : Out Nat), run noTargets ds = some out ∧
    ∀ c, effect (agent [.none, .webkit]) (computed (agent [.none, .webkit]) c ds) cs!"c" = some (some 3, some 0, some .ease) ∧
      effect (agent [.none, .webkit]) (computed (agent [.none, .webkit]) c out.dest) cs!"c" = some (some 1, some 0, some .ease) :=
  ⟨[.property [.plain cs!"a", .plain cs!"b"] Prefix.none.set, .duration [1, 2, 3] Prefix.none.set, .delay [0] Prefix.none.set, .timing [.ease] Prefix.none.set,
      .property [.plain cs!"a", .plain cs!"b", .plain cs!"c"] Prefix.webkit.set],
    ⟨[.transition [⟨.plain cs!"a", 1, 0, .ease⟩, ⟨.plain cs!"b", 2, 0, .ease⟩] Prefix.none.set, .property [.plain cs!"a", .plain cs!"b", .plain cs!"c"] Prefix.webkit.set], [], []⟩,
    by decide +kernel, fun c => ⟨rfl, rfl⟩⟩

end Verif.Transition
