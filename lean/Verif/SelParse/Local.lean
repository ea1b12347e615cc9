import Verif.SelParse.Lists
/-!
# The pieces that are ignored are well defined
-/
namespace Verif.SelParse

mutual
/-- How deep functions are nested in a token. -/
def depth : Tok → Nat
  | .func _ args => depthL args + 1
  | _ => 0
/-- How deep functions are nested in a list of tokens. -/
def depthL : List Tok → Nat
  | [] => 0
  | t :: ts => max (depth t) (depthL ts)
end

theorem depthL_le (n : Nat) (ts : List Tok) : depthL ts ≤ n ↔ ∀ t ∈ ts, depth t ≤ n := by
  induction ts with
  | nil => simp [depthL]
  | cons t ts ih =>
    simp only [depthL, List.mem_cons, forall_eq_or_imp, ← ih]
    omega

theorem depthL_sub {a ts : List Tok} (h : ∀ t ∈ a, t ∈ ts) : depthL a ≤ depthL ts :=
  (depthL_le _ _).2 fun t ht => (depthL_le _ ts).1 (Nat.le_refl _) t (h t ht)

theorem depth_args {ts args : List Tok} {w : Str} (h : Tok.func w args ∈ ts) : depthL args < depthL ts := by
  have := (depthL_le _ ts).1 (Nat.le_refl _) _ h
  simp [depth] at this
  omega

theorem piece_depth {ps : List (List Tok)} {args : List Tok} (h : Pieces ps args) {p : List Tok} (hp : p ∈ ps) : depthL p ≤ depthL args := by
  rw [pieces_iff] at h
  subst h
  exact depthL_sub (splitRaw_mem hp)

/-- Two notions of ignored pieces agree below a depth. -/
def Agree (n : Nat) (D D' : Drop) : Prop := ∀ cx inh rel p, depthL p < n → (D cx inh rel p ↔ D' cx inh rel p)

mutual
theorem localC (d : Dialect) (v : Opts) (D D' : Drop) : ∀ (c : Comp) (cx : Cx) (before : List Comp) (a : List Tok), Agree (depthL a) D D' →
    (ReadsC d D v cx before c a ↔ ReadsC d D' v cx before c a)
  | .comb _, _, _, _, _ | .nesting, _, _, _, _ | .type _ _, _, _, _, _ | .id _, _, _, _, _ | .cls _, _, _, _, _ | .attr _, _, _, _, _
  | .pclass _, _, _, _, _ | .pclassFn _ _, _, _, _, _ | .nth _ _ _, _, _, _, _ | .pelem _, _, _, _, _ | .pelemFn _ _, _, _, _, _
  | .part _, _, _, _, _ => by simp only [ReadsC]
  | .logical f l, cx, before, a, h => by
    simp only [ReadsC]
    refine exists_congr fun w => exists_congr fun args => exists_congr fun ps => and_congr_right fun e => and_congr_right fun _ => and_congr_right fun hps => ?_
    refine localP d v D D' l (cx.inner d) before _ none ps ?_
    intro p hp cx inh rel q hq
    have := piece_depth hps hp
    have h2 : depthL args < depthL a := depth_args (w := w) (by rw [e]; simp)
    exact h cx inh rel q (by omega)
  | .has l, cx, before, a, h => by
    simp only [ReadsC]
    refine exists_congr fun w => exists_congr fun args => exists_congr fun ps => and_congr_right fun e => and_congr_right fun _ => and_congr_right fun hps => ?_
    refine localP d v D D' l (cx.has d) before _ _ ps ?_
    intro p hp cx inh rel q hq
    have := piece_depth hps hp
    have h2 : depthL args < depthL a := depth_args (w := w) (by rw [e]; simp)
    exact h cx inh rel q (by omega)
  | .nthOf t x y l, cx, before, a, h => by
    simp only [ReadsC]
    refine exists_congr fun w => exists_congr fun w₁ => exists_congr fun w₂ => exists_congr fun f => exists_congr fun args => exists_congr fun ps =>
      and_congr_right fun e => and_congr_right fun _ => and_congr_right fun _ => and_congr_right fun _ => and_congr_right fun _ =>
      and_congr_right fun _ => and_congr_right fun hps => ?_
    refine localP d v D D' l (cx.inner d) before _ _ ps ?_
    intro p hp cx inh rel q hq
    have := piece_depth hps hp
    have h2 : depthL (w₁ ++ .anb x y :: (w₂ ++ .ident f :: args)) < depthL a := depth_args (w := w) (by rw [e]; simp)
    have h3 : depthL args ≤ depthL (w₁ ++ .anb x y :: (w₂ ++ .ident f :: args)) := depthL_sub (by intro t ht; simp [ht])
    exact h cx inh rel q (by omega)
  | .hostFn s, cx, before, a, h => by
    simp only [ReadsC]
    refine exists_congr fun w => exists_congr fun x => exists_congr fun r => and_congr_right fun e => and_congr_right fun _ => and_congr_right fun _ => ?_
    refine localS d v D D' s cx.host before .no [] r ?_
    intro cx inh rel q hq
    have h2 : depthL (x ++ r) < depthL a := depth_args (w := w) (by rw [e]; simp)
    have h3 : depthL r ≤ depthL (x ++ r) := depthL_sub (by intro t ht; simp [ht])
    exact h cx inh rel q (by omega)
  | .cue region s, cx, before, a, h => by
    simp only [ReadsC]
    refine exists_congr fun w => exists_congr fun x => exists_congr fun r => and_congr_right fun e => and_congr_right fun _ => and_congr_right fun _ => ?_
    refine localS d v D D' s .top [] .no [] r ?_
    intro cx inh rel q hq
    have h2 : depthL (x ++ r) < depthL a := depth_args (w := w) (by rw [e]; simp)
    have h3 : depthL r ≤ depthL (x ++ r) := depthL_sub (by intro t ht; simp [ht])
    exact h cx inh rel q (by omega)
  | .slotted s, cx, before, a, h => by
    simp only [ReadsC]
    refine exists_congr fun w => exists_congr fun x => exists_congr fun r => and_congr_right fun e => and_congr_right fun _ => and_congr_right fun _ => ?_
    refine localS d v D D' s cx.host before .no [] r ?_
    intro cx inh rel q hq
    have h2 : depthL (x ++ r) < depthL a := depth_args (w := w) (by rw [e]; simp)
    have h3 : depthL r ≤ depthL (x ++ r) := depthL_sub (by intro t ht; simp [ht])
    exact h cx inh rel q (by omega)
theorem localS (d : Dialect) (v : Opts) (D D' : Drop) : ∀ (s : List Comp) (cx : Cx) (inh : List Comp) (i : Implied) (pre : List Comp) (ts : List Tok),
    Agree (depthL ts) D D' → (ReadsS d D v cx inh i pre s ts ↔ ReadsS d D' v cx inh i pre s ts)
  | [], cx, inh, i, pre, ts, h => by cases i <;> simp only [ReadsS]
  | c :: cs, cx, inh, i, pre, ts, h => by
    have h1 := localC d v D D' c
    have h2 := localS d v D D' cs
    cases i with
    | no =>
      simp only [ReadsS]
      refine exists_congr fun a => exists_congr fun b => and_congr_right fun e => and_congr_right fun _ => ?_
      subst e
      exact and_congr
        (h1 cx (pre ++ inh) a fun cx inh rel q hq => h cx inh rel q (Nat.lt_of_lt_of_le hq (depthL_sub (by intro t ht; simp [ht]))))
        (h2 cx inh .no (c :: pre) b fun cx inh rel q hq => h cx inh rel q (Nat.lt_of_lt_of_le hq (depthL_sub (by intro t ht; simp [ht]))))
    | scope x =>
      simp only [ReadsS]
      exact and_congr_right fun _ => h2 cx inh .comb [] ts h
    | comb =>
      simp only [ReadsS]
      refine exists_congr fun k => exists_congr fun x => exists_congr fun w => exists_congr fun r => and_congr_right fun _ => and_congr_right fun _ =>
        and_congr_right fun e => and_congr_right fun _ => ?_
      subst e
      exact h2 cx inh .no [] r fun cx inh rel q hq => h cx inh rel q (Nat.lt_of_lt_of_le hq (depthL_sub (by intro t ht; simp [ht])))
theorem localP (d : Dialect) (v : Opts) (D D' : Drop) : ∀ (l : List (List Comp)) (cx : Cx) (inh : List Comp) (f : Bool) (rel : Option Comp) (ps : List (List Tok)),
    (∀ p ∈ ps, Agree (depthL p + 1) D D') → (ReadsP d D v cx inh f rel l ps ↔ ReadsP d D' v cx inh f rel l ps)
  | [], cx, inh, f, rel, ps, h => by
    simp only [ReadsP]
    exact forall_congr' fun p => forall_congr' fun hp => and_congr_right fun _ => h p hp cx inh rel.isSome p (by omega)
  | s :: l, cx, inh, f, rel, ps, h => by
    have h1 := localS d v D D' s
    have h2 := localP d v D D' l
    simp only [ReadsP]
    refine exists_congr fun e => exists_congr fun w => exists_congr fun r => exists_congr fun q => and_congr_right fun eq => ?_
    subst eq
    have hr : Agree (depthL r) D D' := fun cx inh rel q hq => h (w ++ r) (by simp) cx inh rel q
      (Nat.lt_of_lt_of_le hq (Nat.le_trans (depthL_sub (by intro t ht; simp [ht])) (Nat.le_succ _)))
    refine and_congr (forall_congr' fun p => forall_congr' fun hp => and_congr_right fun _ => h p (by simp [hp]) cx inh rel.isSome p (by omega)) ?_
    refine and_congr_right fun _ => and_congr (or_congr (h1 cx inh .no [] r hr) (exists_congr fun c => and_congr_right fun _ => h1 cx inh (.scope c) [] r hr)) ?_
    exact h2 cx inh f rel q fun p hp => h p (by simp [hp])
end

theorem localPiece (d : Dialect) (v : Opts) (D D' : Drop) (cx : Cx) (inh : List Comp) (rel : Option Comp) (s : Sel) (p : List Tok)
    (h : Agree (depthL p) D D') : ReadsPiece d D v cx inh rel s p ↔ ReadsPiece d D' v cx inh rel s p := by
  unfold ReadsPiece
  refine exists_congr fun w => exists_congr fun r => and_congr_right fun e => and_congr_right fun _ => ?_
  subst e
  have hr : Agree (depthL r) D D' := fun cx inh rel q hq => h cx inh rel q (Nat.lt_of_lt_of_le hq (depthL_sub (by intro t ht; simp [ht])))
  exact or_congr (localS d v D D' s cx inh .no [] r hr) (exists_congr fun c => and_congr_right fun _ => localS d v D D' s cx inh (.scope c) [] r hr)

/-- The pieces that are no selectors, given which pieces in them are ignored. -/
def step (d : Dialect) (v : Opts) (D : Drop) : Drop := fun cx inh rel p =>
  ∀ s, ¬ ReadsPiece d D v cx inh (if rel then some (.pclass cs!"scope") else none) s p

theorem step_local (d : Dialect) (v : Opts) (D D' : Drop) (n : Nat) (h : Agree n D D') : Agree (n + 1) (step d v D) (step d v D') := by
  intro cx inh rel p hp
  unfold step
  refine forall_congr' fun s => not_congr (localPiece d v D D' cx inh _ s p ?_)
  intro cx inh rel q hq
  exact h cx inh rel q (by omega)

/-- Ignored pieces up to a depth. -/
def iter (d : Dialect) (v : Opts) : Nat → Drop
  | 0 => fun _ _ _ _ => False
  | n + 1 => step d v (iter d v n)

theorem iter_agree (d : Dialect) (v : Opts) (n m : Nat) : Agree n (iter d v n) (iter d v (n + m)) := by
  induction n with
  | zero => intro cx inh rel p hp; omega
  | succ n ih =>
    have e : n + 1 + m = (n + m) + 1 := by omega
    rw [e]
    exact step_local d v _ _ n ih

/-- There is a notion of ignored pieces. -/
theorem exists_forgiving (d : Dialect) (v : Opts) : ∃ D, Forgiving d v D := by
  refine ⟨fun cx inh rel p => iter d v (depthL p + 1) cx inh rel p, ?_⟩
  have key : ∀ cx inh rel p, iter d v (depthL p + 1) cx inh rel p ↔
      step d v (fun cx inh rel p => iter d v (depthL p + 1) cx inh rel p) cx inh rel p := by
    intro cx inh rel p
    refine step_local d v _ _ (depthL p) ?_ cx inh rel p (by omega)
    intro cx inh rel q hq
    have := iter_agree d v (depthL q + 1) (depthL p - (depthL q + 1)) cx inh rel q (by omega)
    rw [show depthL q + 1 + (depthL p - (depthL q + 1)) = depthL p by omega] at this
    exact this.symm
  intro cx inh p
  exact ⟨key cx inh false p, key cx inh true p⟩

/-- It is unique. -/
theorem forgiving_unique (d : Dialect) (v : Opts) {D D' : Drop} (h : Forgiving d v D) (h' : Forgiving d v D') : D = D' := by
  have key : ∀ n, Agree n D D' := by
    intro n
    induction n with
    | zero => intro cx inh rel p hp; omega
    | succ n ih =>
      intro cx inh rel p hp
      have hl : Agree (depthL p) D D' := fun cx inh rel q hq => ih cx inh rel q (by omega)
      cases rel with
      | false => rw [(h cx inh p).1, (h' cx inh p).1]; exact forall_congr' fun s => not_congr (localPiece d v D D' cx inh _ s p hl)
      | true => rw [(h cx inh p).2, (h' cx inh p).2]; exact forall_congr' fun s => not_congr (localPiece d v D D' cx inh _ s p hl)
  funext cx inh rel p
  exact propext (key (depthL p + 1) cx inh rel p (by omega))

end Verif.SelParse
