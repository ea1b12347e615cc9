import Verif.Layers.Spec
import Mathlib.Tactic.Common
/-! Lemmas for the layer theorems. -/
namespace Verif.Layers
variable {N G O : Type} [DecidableEq N] [DecidableEq G]

/-! ### First occurrences -/
section
variable {α : Type} [DecidableEq α]

theorem mem_firsts (l : List α) (x : α) : x ∈ firsts l ↔ x ∈ l := by
  induction l with
  | nil => simp [firsts]
  | cons y ys ih => simp only [firsts, List.mem_cons, List.mem_filter, ih, decide_eq_true_eq]; tauto

theorem firsts_filter (q : α → Bool) (l : List α) : firsts (l.filter q) = (firsts l).filter q := by
  induction l with
  | nil => rfl
  | cons y ys ih =>
    rw [List.filter_cons]
    by_cases hy : q y = true
    · rw [if_pos hy, firsts, firsts, List.filter_cons_of_pos (by simpa using hy), ih, List.filter_filter, List.filter_filter]
      congr 1
      exact List.filter_congr fun x _ => Bool.and_comm _ _
    · rw [if_neg hy, ih, firsts, List.filter_cons_of_neg (by simpa using hy), List.filter_filter]
      refine List.filter_congr fun x _ => ?_
      by_cases hx : x = y
      · subst hx; simp [hy]
      · simp [hx]

theorem firsts_append (a b : List α) : firsts (a ++ b) = firsts a ++ (firsts b).filter (· ∉ a) := by
  induction a with
  | nil => rw [List.nil_append, firsts, List.nil_append]; exact (List.filter_eq_self.2 (by simp)).symm
  | cons x a ih =>
    rw [List.cons_append, firsts, firsts, ih, List.filter_append, List.filter_filter, List.cons_append]
    congr 2
    refine List.filter_congr fun y _ => ?_
    simp [List.mem_cons, not_or]

theorem firsts_append_congr (a a' b b' : List α) (ha : firsts a = firsts a') (hb : firsts b = firsts b') :
    firsts (a ++ b) = firsts (a' ++ b') := by
  rw [firsts_append, firsts_append, ha, hb]
  congr 1
  refine List.filter_congr fun x _ => ?_
  have : x ∈ a ↔ x ∈ a' := by rw [← mem_firsts, ha, mem_firsts]
  simp [this]

theorem firsts_absorb (a p : List α) (h : ∀ x ∈ p, x ∈ a) : firsts (a ++ p) = firsts a := by
  rw [firsts_append]
  have : (firsts p).filter (· ∉ a) = [] := by
    rw [List.filter_eq_nil_iff]
    intro x hx
    simpa using h x ((mem_firsts _ _).1 hx)
  rw [this, List.append_nil]
end

/-! ### The same layers -/

/-- The same order of layers inside every layer. -/
def SameD (d d' : List (List (Comp N))) : Prop :=
  ∀ p, firsts (d.filter fun x => decide (x.dropLast = p)) = firsts (d'.filter fun x => decide (x.dropLast = p))

/-- The same rules in every layer. -/
def SameL (l l' : List (Leaf N G O)) : Prop :=
  ∀ p, l.filter (fun x => decide (x.layer = p)) = l'.filter fun x => decide (x.layer = p)

theorem SameD.refl (d : List (List (Comp N))) : SameD d d := fun _ => rfl
theorem SameD.symm {d d' : List (List (Comp N))} (h : SameD d d') : SameD d' d := fun p => (h p).symm
theorem SameD.trans {a b c : List (List (Comp N))} (h : SameD a b) (h' : SameD b c) : SameD a c := fun p => (h p).trans (h' p)
theorem SameD.append {a a' b b' : List (List (Comp N))} (h : SameD a a') (h' : SameD b b') : SameD (a ++ b) (a' ++ b') := by
  intro p
  rw [List.filter_append, List.filter_append]
  exact firsts_append_congr _ _ _ _ (h p) (h' p)
theorem SameD.absorb (a p : List (List (Comp N))) (h : ∀ x ∈ p, x ∈ a) : SameD (a ++ p) a := by
  intro q
  rw [List.filter_append]
  refine firsts_absorb _ _ fun x hx => ?_
  rw [List.mem_filter] at hx ⊢
  exact ⟨h x hx.1, hx.2⟩
theorem SameD.swap (b c : List (List (Comp N))) (h : ∀ x ∈ b, ∀ y ∈ c, x.dropLast ≠ y.dropLast) : SameD (b ++ c) (c ++ b) := by
  intro p
  rw [List.filter_append, List.filter_append]
  by_cases hb : b.filter (fun x => decide (x.dropLast = p)) = []
  · rw [hb]; simp
  · have : c.filter (fun x => decide (x.dropLast = p)) = [] := by
      obtain ⟨x, hx⟩ := List.exists_mem_of_ne_nil _ hb
      rw [List.mem_filter, decide_eq_true_eq] at hx
      rw [List.filter_eq_nil_iff]
      intro y hy
      rw [decide_eq_true_eq]
      intro he
      exact h x hx.1 y hy (hx.2.trans he.symm)
    rw [this]; simp
theorem SameD.mem {a b : List (List (Comp N))} (h : SameD a b) (x : List (Comp N)) : x ∈ a ↔ x ∈ b := by
  have key : ∀ l : List (List (Comp N)), x ∈ l ↔ x ∈ firsts (l.filter fun y => decide (y.dropLast = x.dropLast)) := by
    intro l; rw [mem_firsts, List.mem_filter]; simp
  rw [key a, key b, h]
theorem SameD.nil_left {a : List (List (Comp N))} (h : SameD a []) : a = [] :=
  List.eq_nil_iff_forall_not_mem.2 fun x hx => by simpa using (h.mem x).1 hx
theorem SameD.isEmpty {a b : List (List (Comp N))} (h : SameD a b) : a.isEmpty = b.isEmpty := by
  rw [Bool.eq_iff_iff, List.isEmpty_iff, List.isEmpty_iff, List.eq_nil_iff_forall_not_mem, List.eq_nil_iff_forall_not_mem]
  simp [h.mem]

omit [DecidableEq G] in
theorem SameL.refl (d : List (Leaf N G O)) : SameL d d := fun _ => rfl
omit [DecidableEq G] in
theorem SameL.symm {d d' : List (Leaf N G O)} (h : SameL d d') : SameL d' d := fun p => (h p).symm
omit [DecidableEq G] in
theorem SameL.trans {a b c : List (Leaf N G O)} (h : SameL a b) (h' : SameL b c) : SameL a c := fun p => (h p).trans (h' p)
omit [DecidableEq G] in
theorem SameL.append {a a' b b' : List (Leaf N G O)} (h : SameL a a') (h' : SameL b b') : SameL (a ++ b) (a' ++ b') := by
  intro p
  rw [List.filter_append, List.filter_append, h p, h' p]
omit [DecidableEq G] in
theorem SameL.swap (b c : List (Leaf N G O)) (h : ∀ x ∈ b, ∀ y ∈ c, x.layer ≠ y.layer) : SameL (b ++ c) (c ++ b) := by
  intro p
  rw [List.filter_append, List.filter_append]
  by_cases hb : b.filter (fun x => decide (x.layer = p)) = []
  · rw [hb]; simp
  · have : c.filter (fun x => decide (x.layer = p)) = [] := by
      obtain ⟨x, hx⟩ := List.exists_mem_of_ne_nil _ hb
      rw [List.mem_filter, decide_eq_true_eq] at hx
      rw [List.filter_eq_nil_iff]
      intro y hy
      rw [decide_eq_true_eq]
      intro he
      exact h x hx.1 y hy (hx.2.trans he.symm)
    rw [this]; simp
omit [DecidableEq G] in
theorem SameL.mem {a b : List (Leaf N G O)} (h : SameL a b) (x : Leaf N G O) : x ∈ a ↔ x ∈ b := by
  have key : ∀ l : List (Leaf N G O), x ∈ l ↔ x ∈ l.filter fun y => decide (y.layer = x.layer) := by
    intro l; rw [List.mem_filter]; simp
  rw [key a, key b, h]
omit [DecidableEq G] in
theorem SameL.nil_left {a : List (Leaf N G O)} (h : SameL a []) : a = [] :=
  List.eq_nil_iff_forall_not_mem.2 fun x hx => by simpa using (h.mem x).1 hx
omit [DecidableEq G] in
theorem SameL.isEmpty {a b : List (Leaf N G O)} (h : SameL a b) : a.isEmpty = b.isEmpty := by
  rw [Bool.eq_iff_iff, List.isEmpty_iff, List.isEmpty_iff, List.eq_nil_iff_forall_not_mem, List.eq_nil_iff_forall_not_mem]
  simp [h.mem]

/-! ### Lists of rules -/
variable (e : Env N O)

omit [DecidableEq N] [DecidableEq G] in
theorem declsL_append (pre : List (Comp N)) (a b : List (Rule N G O)) : declsL e pre (a ++ b) = declsL e pre a ++ declsL e pre b := by
  induction a with
  | nil => rfl
  | cons r a ih => rw [List.cons_append, declsL, declsL, ih, List.append_assoc]
omit [DecidableEq N] [DecidableEq G] in
theorem leavesL_append (pre : List (Comp N)) (gs : List G) (a b : List (Rule N G O)) :
    leavesL e pre gs (a ++ b) = leavesL e pre gs a ++ leavesL e pre gs b := by
  induction a with
  | nil => rfl
  | cons r a ih => rw [List.cons_append, leavesL, leavesL, ih, List.append_assoc]
omit [DecidableEq N] [DecidableEq G] in
theorem declsL_one (pre : List (Comp N)) (r : Rule N G O) : declsL e pre [r] = decls e pre r := by simp [declsL]
omit [DecidableEq N] [DecidableEq G] in
theorem leavesL_one (pre : List (Comp N)) (gs : List G) (r : Rule N G O) : leavesL e pre gs [r] = leaves e pre gs r := by
  simp [leavesL]
omit [DecidableEq N] [DecidableEq G] in
theorem mem_declsL (pre : List (Comp N)) (rs : List (Rule N G O)) (x : List (Comp N)) :
    x ∈ declsL e pre rs ↔ ∃ r ∈ rs, x ∈ decls e pre r := by
  induction rs with
  | nil => simp [declsL]
  | cons r rs ih => simp [declsL, ih]
omit [DecidableEq N] [DecidableEq G] in
theorem mem_leavesL (pre : List (Comp N)) (gs : List G) (rs : List (Rule N G O)) (x : Leaf N G O) :
    x ∈ leavesL e pre gs rs ↔ ∃ r ∈ rs, x ∈ leaves e pre gs r := by
  induction rs with
  | nil => simp [leavesL]
  | cons r rs ih => simp [leavesL, ih]

/-- Two lists of rules with the same meaning, wherever they are put. -/
structure Same (a b : List (Rule N G O)) : Prop where
  d : ∀ pre, SameD (declsL e pre a) (declsL e pre b)
  l : ∀ pre gs, SameL (leavesL e pre gs a) (leavesL e pre gs b)

variable {e}
omit [DecidableEq G] in
theorem Same.refl (a : List (Rule N G O)) : Same e a a := ⟨fun _ => .refl _, fun _ _ => .refl _⟩
omit [DecidableEq G] in
theorem Same.symm {a b : List (Rule N G O)} (h : Same e a b) : Same e b a := ⟨fun p => (h.d p).symm, fun p g => (h.l p g).symm⟩
omit [DecidableEq G] in
theorem Same.trans {a b c : List (Rule N G O)} (h : Same e a b) (h' : Same e b c) : Same e a c :=
  ⟨fun p => (h.d p).trans (h'.d p), fun p g => (h.l p g).trans (h'.l p g)⟩
omit [DecidableEq G] in
theorem Same.append {a a' b b' : List (Rule N G O)} (h : Same e a a') (h' : Same e b b') : Same e (a ++ b) (a' ++ b') := by
  refine ⟨fun p => ?_, fun p g => ?_⟩
  · rw [declsL_append, declsL_append]; exact (h.d p).append (h'.d p)
  · rw [leavesL_append, leavesL_append]; exact (h.l p g).append (h'.l p g)
omit [DecidableEq G] in
/-- Rules with equal declarations and leaves. -/
theorem Same.of_eq {a b : List (Rule N G O)} (hd : ∀ pre, declsL e pre a = declsL e pre b)
    (hl : ∀ pre gs, leavesL e pre gs a = leavesL e pre gs b) : Same e a b :=
  ⟨fun p => by rw [hd]; exact .refl _, fun p g => by rw [hl]; exact .refl _⟩
omit [DecidableEq G] in
theorem Same.ignored (a : List (Rule N G O)) : Same e (a ++ [.ignored]) a := by
  apply Same.of_eq
  · intro p; rw [declsL_append, declsL_one, decls, List.append_nil]
  · intro p g; rw [leavesL_append, leavesL_one, leaves, List.append_nil]
omit [DecidableEq G] in
theorem Same.block {rs rs' : List (Rule N G O)} (h : Same e rs rs') (n : Option (Name N)) (l : Nat) :
    Same e [.block n l rs] [.block n l rs'] := by
  refine ⟨fun p => ?_, fun p g => ?_⟩
  · rw [declsL_one, declsL_one]
    cases n with
    | some n => rw [decls, decls]; exact (SameD.refl _).append (h.d _)
    | none =>
      rw [decls, decls, (h.d _).isEmpty, (h.l _ _).isEmpty]
      split
      · exact .refl _
      · exact SameD.append (.refl [p ++ [Comp.anon l]]) (h.d _)
  · rw [leavesL_one, leavesL_one]
    cases n with
    | some n => rw [leaves, leaves]; exact h.l _ _
    | none => rw [leaves, leaves]; exact h.l _ _
omit [DecidableEq G] in
theorem Same.group {rs rs' : List (Rule N G O)} (h : Same e rs rs') (g : G) : Same e [.group g rs] [.group g rs'] := by
  refine ⟨fun p => ?_, fun p gs => ?_⟩
  · rw [declsL_one, declsL_one, decls, decls]; exact h.d _
  · rw [leavesL_one, leavesL_one, leaves, leaves]; exact h.l _ _

/-- There is no layer in these rules. -/
def Quiet (e : Env N O) (rs : List (Rule N G O)) : Prop :=
  (∀ pre, declsL e pre rs = []) ∧ ∀ pre gs, ∀ x ∈ leavesL e pre gs rs, x.layer = pre

omit [DecidableEq G] in
theorem Quiet.same {a b : List (Rule N G O)} (h : Quiet e a) (hs : Same e a b) : Quiet e b := by
  refine ⟨fun p => ?_, fun p g x hx => h.2 p g x (((hs.l p g).mem x).2 hx)⟩
  have := hs.d p
  rw [h.1 p] at this
  exact this.symm.nil_left
omit [DecidableEq N] [DecidableEq G] in
theorem Quiet.append {a b : List (Rule N G O)} (h : Quiet e a) (h' : Quiet e b) : Quiet e (a ++ b) := by
  refine ⟨fun p => by rw [declsL_append, h.1, h'.1]; rfl, fun p g x hx => ?_⟩
  rw [leavesL_append, List.mem_append] at hx
  exact hx.elim (h.2 p g x) (h'.2 p g x)

/-- A block that cannot get in the way of moving rules of layer `n` to an earlier block: neither a block of this layer, nor an import,
nor a statement. -/
def NoBlk (n : Name N) : Rule N G O → Prop
  | .block (some m) _ _ => m ≠ n
  | .imp _ _ _ => False
  | .stmt _ _ => False
  | _ => True

/-- What is needed of a class of rules to be treated properly. -/
structure Mode (e : Env N O) (M : Rule N G O → Prop) : Prop where
  block : ∀ n l rs, M (.block n l rs) → ∀ r ∈ rs, M r
  extend : ∀ n l l' a b, M (.block n l a) → M (.block n l' b) → M (.block n l (a ++ b))
  imp : ∀ l o, M (.imp none l o) → e.inside o = []
  quiet : ∀ g rs, M (.group g rs) → Quiet e rs
  quiet' : ∀ g rs, Quiet e rs → M (.group g rs)
  quietMem : ∀ rs, Quiet e rs → ∀ r ∈ rs, M r
  stmt : ∀ ns l, M (.stmt ns l) → ∀ n ∈ ns, M (.block (some n) l [])
  moveD : ∀ n l rs (B : List (Rule N G O)), M (.block (some n) l rs) → (∀ r ∈ B, M r ∧ NoBlk n r) →
    ∀ pre, ∀ x ∈ declsL e pre B, ∀ y ∈ declsL e (pre ++ n.comps) rs, x.dropLast ≠ y.dropLast
  moveL : ∀ n l rs (B : List (Rule N G O)), M (.block (some n) l rs) → (∀ r ∈ B, M r ∧ NoBlk n r) →
    ∀ pre gs gs', ∀ x ∈ leavesL e pre gs B, ∀ y ∈ leavesL e (pre ++ n.comps) gs' rs, x.layer ≠ y.layer

variable {M : Rule N G O → Prop}

omit [DecidableEq G] in
/-- Moving the contents of a block to an earlier block of the same layer. -/
theorem same_move (hM : Mode e M) (n : Name N) (l l' : Nat) (A C B rs : List (Rule N G O)) (h : M (.block (some n) l' rs))
    (hB : ∀ r ∈ B, M r ∧ NoBlk n r) :
    Same e (A ++ .block (some n) l C :: B ++ [.block (some n) l' rs]) (A ++ .block (some n) l (C ++ rs) :: B) := by
  refine ⟨fun p => ?_, fun p gs => ?_⟩
  · simp only [declsL_append, declsL, decls, List.append_nil]
    have h1 : SameD (declsL e p A ++ (prefixes p n.comps ++ declsL e (p ++ n.comps) C ++ declsL e p B) ++
          (prefixes p n.comps ++ declsL e (p ++ n.comps) rs))
        (declsL e p A ++ (prefixes p n.comps ++ declsL e (p ++ n.comps) C ++ declsL e p B) ++ declsL e (p ++ n.comps) rs) := by
      rw [← List.append_assoc _ (prefixes p n.comps) (declsL e (p ++ n.comps) rs)]
      refine SameD.append (SameD.absorb _ _ fun x hx => ?_) (.refl _)
      simp [hx]
    refine h1.trans ?_
    have h2 := SameD.swap _ _ (hM.moveD n l' rs B h hB p)
    have h3 := SameD.append (SameD.refl (declsL e p A ++ (prefixes p n.comps ++ declsL e (p ++ n.comps) C))) h2
    simpa [List.append_assoc] using h3
  · simp only [leavesL_append, leavesL, leaves, List.append_nil]
    have h2 := SameL.swap _ _ (hM.moveL n l' rs B h hB p gs gs)
    have h3 := SameL.append (SameL.refl (leavesL e p gs A ++ leavesL e (p ++ n.comps) gs C)) h2
    simpa [List.append_assoc] using h3

omit [DecidableEq N] [DecidableEq G] in
theorem extendAt_eq (rules : List (Rule N G O)) (i : Nat) (n : Option (Name N)) (l : Nat) (C new : List (Rule N G O))
    (h : rules[i]? = some (.block n l C)) : extendAt rules i new = some (rules.set i (.block n l (C ++ new))) := by
  induction rules generalizing i with
  | nil => simp at h
  | cons r rs ih =>
    cases i with
    | zero => simp at h; subst h; rfl
    | succ i =>
      simp only [List.getElem?_cons_succ] at h
      cases r <;> simp [extendAt, ih i h]

omit [DecidableEq N] [DecidableEq G] in
theorem addName_eq (rules : List (Rule N G O)) (i : Nat) (ns : List (Name N)) (l : Nat) (n : Name N)
    (h : rules[i]? = some (.stmt ns l)) : addName rules i n = some (rules.set i (.stmt (ns ++ [n]) l)) := by
  induction rules generalizing i with
  | nil => simp at h
  | cons r rs ih =>
    cases i with
    | zero => simp at h; subst h; rfl
    | succ i =>
      simp only [List.getElem?_cons_succ] at h
      cases r <;> simp [addName, ih i h]

omit [DecidableEq N] [DecidableEq G] in
theorem split_at (rules : List (Rule N G O)) (i : Nat) (r : Rule N G O) (h : rules[i]? = some r) :
    ∃ A B, rules = A ++ r :: B ∧ A.length = i ∧ (∀ r', rules.set i r' = A ++ r' :: B) ∧ ∀ x ∈ B, ∃ j > i, rules[j]? = some x := by
  obtain ⟨hi, hr⟩ := List.getElem?_eq_some_iff.1 h
  refine ⟨rules.take i, rules.drop (i + 1), ?_, by simp; omega, fun r' => ?_, fun x hx => ?_⟩
  · rw [← hr]; simp
  · exact List.set_eq_take_append_cons_drop .. |>.trans (by simp [hi])
  · obtain ⟨k, hk⟩ := List.mem_iff_getElem?.1 hx
    rw [List.getElem?_drop] at hk
    exact ⟨i + 1 + k, by omega, hk⟩

/-! ### The loop -/

/-- The invariant of the loop. -/
structure Inv (e : Env N O) (M : Rule N G O → Prop) (done : List (Rule N G O)) (st : St N G O) : Prop where
  same : Same e done st.rules
  ok : ∀ r ∈ st.rules, M r
  noStmt : ∀ r ∈ st.rules, ∀ ns l, r ≠ .stmt ns l
  keys : ∀ n i, lookup n st.layers = some i → (∃ l C, st.rules[i]? = some (.block (some n) l C)) ∧
    ∀ j > i, ∀ r, st.rules[j]? = some r → NoBlk n r

omit [DecidableEq G] in
/-- Pushing a rule that is not a layer block with this name, an import or a statement keeps what is known of a key. -/
theorem Inv.push {done : List (Rule N G O)} {st : St N G O} (h : Inv e M done st) (r : Rule N G O) (hr : M r)
    (hs : ∀ ns l, r ≠ .stmt ns l) (hn : ∀ n i, lookup n st.layers = some i → NoBlk n r) :
    Inv e M (done ++ [r]) { st with rules := st.rules ++ [r] } := by
  refine ⟨h.same.append (.refl _), ?_, ?_, fun n i hi => ?_⟩
  · intro x hx
    simp only [List.mem_append, List.mem_singleton] at hx
    rcases hx with hx | rfl
    · exact h.ok x hx
    · exact hr
  · intro x hx
    simp only [List.mem_append, List.mem_singleton] at hx
    rcases hx with hx | rfl
    · exact h.noStmt x hx
    · exact hs
  · obtain ⟨⟨l, C, h1⟩, h2⟩ := h.keys n i hi
    have hlt := (List.getElem?_eq_some_iff.1 h1).1
    refine ⟨⟨l, C, by simp only []; rw [List.getElem?_append_left hlt]; exact h1⟩, fun j hj x hx => ?_⟩
    simp only [] at hx
    by_cases hjl : j < st.rules.length
    · rw [List.getElem?_append_left hjl] at hx; exact h2 j hj x hx
    · rw [List.getElem?_append_right (by omega)] at hx
      have : x = r := by
        rcases Nat.lt_or_ge (j - st.rules.length) 1 with h0 | h0
        · have : j - st.rules.length = 0 := by omega
          rw [this] at hx; simpa using hx.symm
        · rw [List.getElem?_eq_none (by simpa using h0)] at hx; simp at hx
      subst this
      exact hn n i hi

omit [DecidableEq G] in
/-- Pushing a new block and its key. -/
theorem Inv.pushBlock {done : List (Rule N G O)} {st : St N G O} (h : Inv e M done st) (n : Name N) (l : Nat) (rs : List (Rule N G O))
    (hr : M (.block (some n) l rs)) (hn : lookup n st.layers = none) :
    Inv e M (done ++ [.block (some n) l rs])
      ⟨st.rules ++ [.block (some n) l rs], (n, st.rules.length) :: st.layers, true⟩ := by
  have hp := h.push (.block (some n) l rs) hr (by simp) (fun m i hi => by
    intro he; subst he; rw [hn] at hi; simp at hi)
  refine ⟨hp.same, hp.ok, hp.noStmt, fun m i hi => ?_⟩
  simp only [lookup] at hi
  split at hi
  · next he =>
    subst he
    simp only [Option.some.injEq] at hi
    subst hi
    refine ⟨⟨l, rs, by simp⟩, fun j hj x hx => ?_⟩
    simp only [] at hx
    rw [List.getElem?_eq_none (by simp; omega)] at hx
    simp at hx
  · exact hp.keys m i hi

omit [DecidableEq G] in
theorem inv_names (l : Nat) (names : List (Name N)) (hn : ∀ n ∈ names, M (.block (some n) l []))
    (done : List (Rule N G O)) (st : St N G O) (h : Inv e M done st) :
    Inv e M (done ++ [.stmt names l]) (names.foldl (declareName l) st) := by
  induction names generalizing done st with
  | nil =>
    refine ⟨Same.trans ?_ h.same, h.ok, h.noStmt, h.keys⟩
    apply Same.of_eq
    · intro p; simp [declsL_append, declsL, decls]
    · intro p g; simp [leavesL_append, leavesL, leaves]
  | cons n names ih =>
    have key : Inv e M (done ++ [.block (some n) l []]) (declareName l st n) := by
      unfold declareName
      split
      · next i hi =>
        obtain ⟨⟨l', C, h1⟩, h2⟩ := h.keys n i hi
        refine ⟨Same.trans ?_ h.same, h.ok, h.noStmt, h.keys⟩
        have hs := h.same
        obtain ⟨A, B, h3, -⟩ := split_at _ _ _ h1
        refine ⟨fun p => ?_, fun p g => ?_⟩
        · rw [declsL_append]
          refine SameD.absorb _ _ fun x hx => ((hs.d p).mem x).2 ?_
          simp only [declsL, decls, List.append_nil] at hx
          rw [h3]
          simp [declsL_append, declsL, decls, hx]
        · simp [leavesL_append, leavesL, leaves]; exact .refl _
      · next hnone => exact h.pushBlock n l [] (hn n (by simp)) hnone
    have := ih (fun m hm => hn m (by simp [hm])) _ _ key
    rw [List.foldl_cons]
    refine ⟨Same.trans ?_ this.same, this.ok, this.noStmt, this.keys⟩
    apply Same.of_eq
    · intro p; simp [declsL_append, declsL, decls]
    · intro p g; simp [leavesL_append, leavesL, leaves]

omit [DecidableEq G] in
/-- Rules without meaning. -/
theorem Inv.skip {done : List (Rule N G O)} {st : St N G O} (h : Inv e M done st) (r : Rule N G O) (hd : ∀ p, decls e p r = [])
    (hl : ∀ p g, leaves e p g r = []) : Inv e M (done ++ [r]) st := by
  refine ⟨Same.trans ?_ h.same, h.ok, h.noStmt, h.keys⟩
  apply Same.of_eq
  · intro p; rw [declsL_append, declsL_one, hd, List.append_nil]
  · intro p g; rw [leavesL_append, leavesL_one, hl, List.append_nil]

theorem inv_step (hM : Mode e M) (rec : List (Rule N G O) → List (Rule N G O))
    (hrec : ∀ rs, (∀ r ∈ rs, M r) → Same e rs (rec rs)) (r : Rule N G O) (hr : M r) (done : List (Rule N G O)) (st : St N G O)
    (h : Inv e M done st) : Inv e M (done ++ [r]) (step e.drop rec st r) := by
  have hgroup : ∀ g rs, Quiet e rs → Inv e M (done ++ [.group g rs])
      (if (rec rs).isEmpty then st else { st with rules := st.rules ++ [.group g (rec rs)] }) := by
    intro g rs hq
    have hs := hrec rs (hM.quietMem rs hq)
    split
    · next he =>
      rw [List.isEmpty_iff] at he
      rw [he] at hs
      apply h.skip
      · intro p; rw [decls]; exact (hs.d p).nil_left
      · intro p gs; rw [leaves]; exact (hs.l p _).nil_left
    · have hp := h.push (.group g (rec rs)) (hM.quiet' g _ (hq.same hs)) (by simp) (fun _ _ _ => trivial)
      exact ⟨(Same.append (.refl _) (hs.group g)).trans hp.same, hp.ok, hp.noStmt, hp.keys⟩
  cases r with
  | block name l rs =>
    cases name with
    | none => exact h.push _ hr (by simp) (fun _ _ _ => trivial)
    | some n =>
      simp only [step]
      cases hi : lookup n st.layers with
      | none => simp only [Option.bind_none]; exact h.pushBlock n l rs hr hi
      | some i =>
        obtain ⟨⟨l', C, h1⟩, h2⟩ := h.keys n i hi
        simp only [Option.bind_some, extendAt_eq _ _ _ _ _ rs h1]
        obtain ⟨A, B, h3, hA, hset, hB⟩ := split_at _ _ _ h1
        have hBM : ∀ r ∈ B, M r ∧ NoBlk n r := by
          intro r hr
          obtain ⟨j, hj, hjr⟩ := hB r hr
          exact ⟨h.ok r (List.mem_iff_getElem?.2 ⟨j, hjr⟩), h2 j hj r hjr⟩
        have hblk : M (.block (some n) l' (C ++ rs)) := hM.extend _ _ _ _ _ (h.ok _ (List.mem_iff_getElem?.2 ⟨i, h1⟩)) hr
        refine ⟨?_, ?_, ?_, fun m k hk => ?_⟩
        · have := same_move hM n l' l A C B rs hr hBM
          simp only [hset]
          refine Same.trans (Same.append h.same (.refl _)) ?_
          rw [h3]
          exact this
        · intro x hx
          simp only [hset, List.mem_append, List.mem_cons] at hx
          rcases hx with hx | rfl | hx
          · exact h.ok x (by rw [h3]; simp [hx])
          · exact hblk
          · exact (hBM x hx).1
        · intro x hx
          simp only [hset, List.mem_append, List.mem_cons] at hx
          rcases hx with hx | rfl | hx
          · exact h.noStmt x (by rw [h3]; simp [hx])
          · simp
          · exact h.noStmt x (by rw [h3]; simp [hx])
        · obtain ⟨⟨l2, C2, h4⟩, h5⟩ := h.keys m k hk
          simp only []
          refine ⟨?_, fun j hj x hx => ?_⟩
          · rw [List.getElem?_set]
            split
            · next he =>
              subst he
              rw [h1] at h4
              simp only [Option.some.injEq, Rule.block.injEq] at h4
              obtain ⟨rfl, -⟩ := h4
              exact ⟨l', C ++ rs, by rw [if_pos ((List.getElem?_eq_some_iff.1 h1).1)]⟩
            · exact ⟨l2, C2, h4⟩
          · rw [List.getElem?_set] at hx
            split at hx
            · next he =>
              subst he
              split at hx
              · simp only [Option.some.injEq] at hx
                subst hx
                have := h5 i hj _ h1
                exact this
              · simp at hx
            · exact h5 j hj x hx
  | stmt names l => exact inv_names l names (hM.stmt _ _ hr) done st h
  | imp ly l o =>
    simp only [step]
    have : Inv e M done { st with layers := [] } := ⟨h.same, h.ok, h.noStmt, by simp [lookup]⟩
    exact this.push (.imp ly l o) hr (by simp) (by simp [lookup])
  | group g rs =>
    have hq := hM.quiet _ _ hr
    simp only [step]
    split
    · next g' rs' hlast =>
      split
      · next hg =>
        subst hg
        obtain ⟨xs, hxs⟩ : ∃ xs, st.rules = xs ++ [.group g' rs'] := by
          rw [List.getLast?_eq_some_iff] at hlast; exact hlast
        have hq' := hM.quiet _ _ (h.ok (.group g' rs') (by rw [hxs]; simp))
        have hs := hrec (rs' ++ rs) (hM.quietMem _ (hq'.append hq))
        simp only [hxs, List.dropLast_concat]
        refine ⟨?_, ?_, ?_, fun m k hk => ?_⟩
        · refine Same.trans (Same.append h.same (.refl _)) ?_
          rw [hxs, List.append_assoc]
          refine Same.append (.refl _) (Same.trans ?_ (hs.group g'))
          apply Same.of_eq
          · intro p; simp [declsL, decls, declsL_append]
          · intro p gs; simp [leavesL, leaves, leavesL_append]
        · intro x hx
          simp only [List.mem_append, List.mem_singleton] at hx
          rcases hx with hx | rfl
          · exact h.ok x (by rw [hxs]; simp [hx])
          · exact hM.quiet' _ _ ((hq'.append hq).same hs)
        · intro x hx
          simp only [List.mem_append, List.mem_singleton] at hx
          rcases hx with hx | rfl
          · exact h.noStmt x (by rw [hxs]; simp [hx])
          · simp
        · obtain ⟨⟨l2, C2, h4⟩, h5⟩ := h.keys m k hk
          rw [hxs] at h4 h5
          have hk' : k < xs.length := by
            by_contra hge
            rw [List.getElem?_append_right (by omega)] at h4
            rcases Nat.lt_or_ge (k - xs.length) 1 with h0 | h0
            · have : k - xs.length = 0 := by omega
              rw [this] at h4; simp at h4
            · rw [List.getElem?_eq_none (by simpa using h0)] at h4; simp at h4
          refine ⟨⟨l2, C2, ?_⟩, fun j hj x hx => ?_⟩
          · simp only []
            rw [List.getElem?_append_left hk'] at h4 ⊢; exact h4
          · simp only [] at hx
            by_cases hjl : j < xs.length
            · rw [List.getElem?_append_left hjl] at hx
              exact h5 j hj x (by rw [List.getElem?_append_left hjl]; exact hx)
            · rw [List.getElem?_append_right (by omega)] at hx
              rcases Nat.lt_or_ge (j - xs.length) 1 with h0 | h0
              · have : j - xs.length = 0 := by omega
                rw [this] at hx; simp at hx; subst hx; exact trivial
              · rw [List.getElem?_eq_none (by simpa using h0)] at hx; simp at hx
      · exact hgroup g rs hq
    · exact hgroup g rs hq
  | other o =>
    simp only [step]
    split
    · next hd =>
      apply h.skip
      · intro p; rw [decls]
      · intro p gs; rw [leaves, if_pos hd]
    · exact h.push _ hr (by simp) (fun _ _ _ => trivial)
  | ignored => exact h.push _ hr (by simp) (fun _ _ _ => trivial)

/-! ### The second pass -/

/-- The invariant of the second pass. -/
structure FinInv (e : Env N O) (done : List (Rule N G O)) (st : Fin N G O) : Prop where
  same : Same e done st.rules
  declared : ∀ n ∈ st.declared, ∀ pre, ∀ x ∈ prefixes pre n.comps, x ∈ declsL e pre st.rules
  stmt : ∀ i, st.stmt = some i → (∃ ns l, st.rules[i]? = some (.stmt ns l)) ∧
    ∀ j > i, ∀ r, st.rules[j]? = some r → ∀ p, decls e p r = []

omit [DecidableEq G] in
theorem FinInv.push {done : List (Rule N G O)} {st : Fin N G O} (h : FinInv e done st) (r r' : Rule N G O) (hr : Same e [r] [r'])
    (hs : st.stmt = none ∨ ∀ p, decls e p r' = []) : FinInv e (done ++ [r]) { st with rules := st.rules ++ [r'] } := by
  refine ⟨h.same.append hr, fun n hn p x hx => ?_, fun i hi => ?_⟩
  · simp only []; rw [declsL_append, List.mem_append]; exact .inl (h.declared n hn p x hx)
  · rcases hs with hs | hs
    · simp only [] at hi; rw [hs] at hi; simp at hi
    · obtain ⟨⟨ns, l, h1⟩, h2⟩ := h.stmt i hi
      have hlt := (List.getElem?_eq_some_iff.1 h1).1
      refine ⟨⟨ns, l, by simp only []; rw [List.getElem?_append_left hlt]; exact h1⟩, fun j hj x hx => ?_⟩
      simp only [] at hx
      by_cases hjl : j < st.rules.length
      · rw [List.getElem?_append_left hjl] at hx; exact h2 j hj x hx
      · rw [List.getElem?_append_right (by omega)] at hx
        rcases Nat.lt_or_ge (j - st.rules.length) 1 with h0 | h0
        · have : j - st.rules.length = 0 := by omega
          rw [this] at hx
          simp only [List.getElem?_cons_zero, Option.some.injEq] at hx
          subst hx; exact hs
        · rw [List.getElem?_eq_none (by simpa using h0)] at hx; simp at hx

omit [DecidableEq G] in
theorem fin_step (hM : Mode e M) (rec : List (Rule N G O) → List (Rule N G O))
    (hrec : ∀ rs, (∀ r ∈ rs, M r) → Same e rs (rec rs)) (r : Rule N G O) (hr : M r) (hns : ∀ ns l, r ≠ .stmt ns l)
    (done : List (Rule N G O)) (st : Fin N G O) (h : FinInv e done st) : FinInv e (done ++ [r]) (finish rec st r) := by
  cases r with
  | block name l rs =>
    have hs := hrec rs (hM.block _ _ _ hr)
    simp only [finish]
    split
    · next he =>
      rw [List.isEmpty_iff] at he
      rw [he] at hs
      have hd : ∀ p, declsL e p rs = [] := fun p => (hs.d p).nil_left
      have hl : ∀ p g, leavesL e p g rs = [] := fun p g => (hs.l p g).nil_left
      cases name with
      | none =>
        refine h.push _ _ (Same.of_eq (fun p => ?_) fun p g => ?_) (.inr fun p => by rw [decls])
        · simp [declsL, decls, hd, hl]
        · simp [leavesL, leaves, hl]
      | some n =>
        simp only []
        split
        · next hmem =>
          have hd' := h.declared n hmem
          have hp := h.push .ignored .ignored (.refl _) (.inr fun p => by rw [decls])
          refine ⟨Same.trans ?_ hp.same, hp.declared, hp.stmt⟩
          refine ⟨fun p => ?_, fun p g => ?_⟩
          · rw [declsL_append, declsL_append, declsL_one, declsL_one, decls, decls, hd, List.append_nil, List.append_nil]
            exact SameD.absorb _ _ fun x hx => ((h.same.d p).mem x).2 (hd' p x hx)
          · simp [leavesL_append, leavesL, leaves, hl]; exact .refl _
        · cases hst : st.stmt with
          | some i =>
            obtain ⟨⟨ns, l', h1⟩, h2⟩ := h.stmt i hst
            simp only [addName_eq _ _ _ _ n h1]
            obtain ⟨A, B, h3, hA, hset, hB⟩ := split_at _ _ _ h1
            have hBd : ∀ p, declsL e p B = [] := by
              intro p
              rw [List.eq_nil_iff_forall_not_mem]
              intro x hx
              obtain ⟨r, hr, hxr⟩ := (mem_declsL _ _ _ _).1 hx
              obtain ⟨j, hj, hjr⟩ := hB r hr
              rw [h2 j hj r hjr p] at hxr
              simp at hxr
            have hlen : i < st.rules.length := (List.getElem?_eq_some_iff.1 h1).1
            refine ⟨?_, ?_, fun k hk => ?_⟩
            · refine Same.trans (Same.append h.same (.refl _)) ?_
              simp only [hset]
              rw [h3]
              apply Same.of_eq
              · intro p; simp [declsL_append, declsL, decls, hBd, hd]
              · intro p g; simp [leavesL_append, leavesL, leaves, hl]
            · intro m hm p x hx
              simp only [hset]
              simp only [List.mem_cons] at hm
              rcases hm with rfl | hm
              · simp [declsL_append, declsL, decls, hx]
              · have := h.declared m hm p x hx
                rw [h3] at this
                simp only [declsL_append, declsL, decls, List.mem_append, List.flatMap_append] at this ⊢
                tauto
            · simp only [] at hk
              rw [Option.some.injEq] at hk
              subst hk
              simp only []
              refine ⟨⟨ns ++ [n], l', ?_⟩, fun j hj x hx => ?_⟩
              · rw [List.getElem?_append_left (by simpa using hlen), List.getElem?_set_self hlen]
              · by_cases hjl : j < st.rules.length
                · rw [List.getElem?_append_left (by simpa using hjl), List.getElem?_set_ne (by omega)] at hx
                  exact h2 j hj x hx
                · rw [List.getElem?_append_right (by simp; omega)] at hx
                  have : x = .ignored := by
                    rcases Nat.lt_or_ge (j - st.rules.length) 1 with h0 | h0
                    · have : j - st.rules.length = 0 := by omega
                      simp only [List.length_set, this, List.getElem?_cons_zero, Option.some.injEq] at hx
                      exact hx.symm
                    · rw [List.getElem?_eq_none (by simpa using h0)] at hx; simp at hx
                  subst this
                  intro p; rw [decls]
          | none =>
            simp only []
            have hp := h.push (.block (some n) l rs) (.stmt [n] l) (Same.of_eq (fun p => by simp [declsL, decls, hd])
              (fun p g => by simp [leavesL, leaves, hl])) (.inl hst)
            refine ⟨hp.same, ?_, fun i hi => ?_⟩
            · intro m hm p x hx
              simp only [List.mem_cons] at hm
              rcases hm with rfl | hm
              · simp [declsL_append, declsL, decls, hx]
              · exact hp.declared m hm p x hx
            · simp only [Option.some.injEq] at hi
              subst hi
              refine ⟨⟨[n], l, by simp⟩, fun j hj x hx => ?_⟩
              simp only [] at hx
              rw [List.getElem?_eq_none (by simp; omega)] at hx
              simp at hx
    · have h' : FinInv e done { st with stmt := none } := ⟨h.same, h.declared, by simp⟩
      exact h'.push _ _ (hs.block name l) (.inl rfl)
  | stmt ns l => exact absurd rfl (hns ns l)
  | imp ly l o =>
    cases ly with
    | none =>
      simp only [finish]
      exact h.push _ _ (.refl _) (.inr fun p => by simp [decls, hM.imp l o hr])
    | some ly =>
      simp only [finish]
      have h' : FinInv e done { st with stmt := none } := ⟨h.same, h.declared, by simp⟩
      have hp := h'.push (.imp (some ly) l o) _ (.refl _) (.inl rfl)
      refine ⟨hp.same, ?_, by simp⟩
      intro n hn p x hx
      simp only [List.mem_append] at hn
      rcases hn with hn | hn
      · cases ly with
        | none => simp at hn
        | some m =>
          simp only [Option.toList, List.mem_singleton] at hn
          subst hn
          simp [declsL_append, declsL, decls, hx]
      · exact hp.declared n hn p x hx
  | group g rs =>
    simp only [finish]
    exact h.push _ _ (.refl _) (.inr fun p => by rw [decls]; exact (hM.quiet _ _ hr).1 p)
  | other o => simp only [finish]; exact h.push _ _ (.refl _) (.inr fun p => by rw [decls])
  | ignored => simp only [finish]; exact h.push _ _ (.refl _) (.inr fun p => by rw [decls])

/-- Minifying keeps the meaning of tidy rules. -/
theorem minify_same (hM : Mode e M) (fuel : Nat) (rs : List (Rule N G O)) (h : ∀ r ∈ rs, M r) : Same e rs (minify e.drop fuel rs) := by
  induction fuel generalizing rs with
  | zero => exact .refl _
  | succ fuel ih =>
    have h1 : Inv e M rs (rs.foldl (step e.drop (minify e.drop fuel)) ⟨[], [], false⟩) := by
      have : ∀ (todo done : List (Rule N G O)) (st : St N G O), (∀ r ∈ todo, M r) → Inv e M done st →
          Inv e M (done ++ todo) (todo.foldl (step e.drop (minify e.drop fuel)) st) := by
        intro todo
        induction todo with
        | nil => intro done st _ h; simpa using h
        | cons r todo ih' =>
          intro done st hM' h
          have := ih' _ _ (fun x hx => hM' x (by simp [hx])) (inv_step hM _ ih r (hM' r (by simp)) done st h)
          simpa using this
      simpa using this rs [] ⟨[], [], false⟩ h ⟨.refl _, by simp, by simp, by simp [lookup]⟩
    unfold minify
    simp only []
    split
    · refine h1.same.trans ?_
      have : ∀ (todo done : List (Rule N G O)) (st : Fin N G O), (∀ r ∈ todo, M r ∧ ∀ ns l, r ≠ .stmt ns l) → FinInv e done st →
          FinInv e (done ++ todo) (todo.foldl (finish (minify e.drop fuel)) st) := by
        intro todo
        induction todo with
        | nil => intro done st _ h; simpa using h
        | cons r todo ih' =>
          intro done st hM' h
          have := ih' _ _ (fun x hx => hM' x (by simp [hx]))
            (fin_step hM _ ih r (hM' r (by simp)).1 (hM' r (by simp)).2 done st h)
          simpa using this
      have := this _ [] ⟨[], [], none⟩ (fun r hr => ⟨h1.ok r hr, h1.noStmt r hr⟩) ⟨.refl _, by simp, by simp⟩
      simpa using this.same
    · exact h1.same
end Verif.Layers
