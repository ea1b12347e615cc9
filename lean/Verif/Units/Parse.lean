import Verif.Units.Props
/-!
# Times, angles, percentages and numbers: parsing (C45, C60)
-/
namespace Verif.Units
open Verif.MathFn (Strategy cssRound cssMod cssRem cssSign minOf maxOf cmpK sgn Homogeneous SqrtLaws)

variable {K : Type} [Field K] [LinearOrder K] [IsStrictOrderedRing K] [FloorRing K] {F : Fns K}

/-! ### `min()` and `max()` -/

/-- `same2` on results. -/
def comb (op : K → K → K) (a b : Option (Sem K)) : Option (Sem K) :=
  a.bind fun x => b.bind fun y => same2 op x y

/-- All of a list combined. -/
def fold1 (op : K → K → K) : List (Option (Sem K)) → Option (Sem K)
  | [] => none
  | [a] => a
  | a :: l => comb op a (fold1 op l)

theorem fold1_cons (op : K → K → K) (a : Option (Sem K)) (l : List (Option (Sem K))) (h : l ≠ []) :
    fold1 op (a :: l) = comb op a (fold1 op l) := by
  cases l with
  | nil => exact absurd rfl h
  | cons b l => rfl

theorem comb_comm (op : K → K → K) (hc : ∀ a b, op a b = op b a) (a b : Option (Sem K)) :
    comb op a b = comb op b a := by
  cases a <;> cases b <;> simp only [comb, Option.bind_some, Option.bind_none, same2]
  rename_i x y
  by_cases h : x.ty = y.ty
  · simp [h, hc]
  · simp [h, Ne.symm h]

theorem comb_assoc (op : K → K → K) (ha : ∀ a b c, op (op a b) c = op a (op b c)) (a b c : Option (Sem K)) :
    comb op (comb op a b) c = comb op a (comb op b c) := by
  cases a with
  | none => simp [comb]
  | some x =>
  cases b with
  | none => simp [comb]
  | some y =>
  cases c with
  | none =>
    simp only [comb, Option.bind_some, same2, Option.bind_none]
    split <;> simp
  | some z =>
    simp only [comb, Option.bind_some, same2]
    by_cases h : x.ty = y.ty <;> by_cases h' : y.ty = z.ty
    · simp [h, h', ha]
    · simp [h, h']
    · have : x.ty ≠ z.ty := h' ▸ h
      simp [h, this, if_pos h']
    · simp [h, h']

theorem comb_none (op : K → K → K) (a : Option (Sem K)) : comb op a none = none := by
  cases a <;> simp [comb]

theorem fold1_append (op : K → K → K) (ha : ∀ a b c, op (op a b) c = op a (op b c))
    (l : List (Option (Sem K))) (a : Option (Sem K)) (h : l ≠ []) :
    fold1 op (l ++ [a]) = comb op (fold1 op l) a := by
  induction l with
  | nil => exact absurd rfl h
  | cons b l ih =>
    cases l with
    | nil => rfl
    | cons c l =>
      rw [List.cons_append, fold1_cons op b _ (by simp), ih (by simp), fold1_cons op b (c :: l) (by simp),
        comb_assoc op ha]

theorem fold1_congr (op : K → K → K) (ha : ∀ a b c, op (op a b) c = op a (op b c))
    (Y : List (Option (Sem K))) : ∀ X X' : List (Option (Sem K)), X ≠ [] → X' ≠ [] →
      fold1 op X = fold1 op X' → fold1 op (X ++ Y) = fold1 op (X' ++ Y) := by
  induction Y with
  | nil => intro X X' _ _ h; simpa using h
  | cons y Y ih =>
    intro X X' hX hX' h
    have := ih (X ++ [y]) (X' ++ [y]) (by simp) (by simp)
      (by rw [fold1_append op ha _ _ hX, fold1_append op ha _ _ hX', h])
    simpa using this

/-- A comparison that selects one of two arguments. -/
def Selects (F : Fns K) (t : Kind) (op : K → K → K) (cmp : Ordering) : Prop :=
  ∀ (a b : Calc K) (o : Ordering), a.Of t → b.Of t → argCmp F a b = some o →
    semOf F (if o = cmp then a else b) = comb op (semOf F b) (semOf F a)

theorem fold1_reduceInto (t : Kind) (op : K → K → K) (ha : ∀ a b c, op (op a b) c = op a (op b c))
    (hc : ∀ a b, op a b = op b a) (cmp : Ordering) (hs : Selects F t op cmp) (arg : Calc K)
    (harg : arg.Of t) (l : List (Calc K)) (hl : ∀ c ∈ l, Calc.Of t c) (h : l ≠ []) :
    fold1 op ((reduceInto F cmp arg l).map (semOf F)) =
      comb op (fold1 op (l.map (semOf F))) (semOf F arg) := by
  induction l with
  | nil => exact absurd rfl h
  | cons b bs ih =>
    have hb := hl b (by simp)
    have hbs : ∀ c ∈ bs, Calc.Of t c := fun c hc => hl c (by simp [hc])
    simp only [reduceInto]
    split
    · rename_i o ho
      have hsel := hs arg b o harg hb ho
      have e : (if o = cmp then arg :: bs else b :: bs) = (if o = cmp then arg else b) :: bs := by
        split <;> rfl
      rw [e]
      cases hbs' : bs with
      | nil => simpa [fold1] using hsel
      | cons d ds =>
        simp only [List.map_cons]
        rw [fold1_cons op _ (semOf F d :: _) (by simp), fold1_cons op _ (semOf F d :: _) (by simp), hsel,
          comb_assoc op ha, comb_assoc op ha, comb_comm op hc (semOf F arg)]
    · cases hbs' : bs with
      | nil => simp [reduceInto, fold1]
      | cons d ds =>
        have hne : (reduceInto F cmp arg (d :: ds)).map (semOf F) ≠ [] := by
          simp only [reduceInto]; split <;> (try split) <;> simp
        rw [List.map_cons, fold1_cons op _ _ hne, List.map_cons, fold1_cons op _ _ (by simp),
          ← hbs', ih hbs (by simp [hbs']), comb_assoc op ha]

/-- Can two results not be compared? -/
def Apart (a b : Calc K) : Prop := argCmp F a b = none

/-- Which results can be compared. -/
def cls : Calc K → Option Bool
  | .value _ => some true
  | .number _ => some false
  | _ => none

theorem argCmp_none (a b : Calc K) : argCmp F a b = none ↔ cls a ≠ cls b ∨ cls a = none := by
  cases a <;> cases b <;> simp [argCmp, cls]

theorem argCmp_cls {a b : Calc K} {o : Ordering} (h : argCmp F a b = some o) : cls a = cls b := by
  cases a <;> cases b <;> simp_all [argCmp, cls]

/-- No two results of a list can be compared. -/
def Reduced (l : List (Calc K)) : Prop := l.Pairwise fun a b => cls a ≠ cls b ∨ cls a = none

theorem mem_reduceInto (cmp : Ordering) (arg : Calc K) (l : List (Calc K)) (c : Calc K)
    (h : c ∈ reduceInto F cmp arg l) : c = arg ∨ c ∈ l := by
  induction l with
  | nil => simpa [reduceInto] using h
  | cons b bs ih =>
    simp only [reduceInto] at h
    split at h
    · split at h <;> simp at h ⊢ <;> tauto
    · simp only [List.mem_cons] at h ⊢
      rcases h with h | h
      · tauto
      · have := ih h; tauto

theorem cls_reduceInto (cmp : Ordering) (arg : Calc K) (l : List (Calc K)) (c : Calc K)
    (h : c ∈ reduceInto F cmp arg l) : (c = arg ∧ ∀ d ∈ l, cls d ≠ cls arg ∨ cls d = none) ∨ ∃ d ∈ l, cls d = cls c := by
  induction l with
  | nil => left; simpa [reduceInto] using h
  | cons b bs ih =>
    simp only [reduceInto] at h
    split at h
    · rename_i o ho
      have := argCmp_cls ho
      split at h <;> simp only [List.mem_cons] at h <;> right <;> rcases h with rfl | h
      · exact ⟨b, by simp, this.symm⟩
      · exact ⟨c, by simp [h], rfl⟩
      · exact ⟨c, by simp, rfl⟩
      · exact ⟨c, by simp [h], rfl⟩
    · rename_i hn
      rw [argCmp_none] at hn
      simp only [List.mem_cons] at h
      rcases h with rfl | h
      · exact .inr ⟨c, by simp, rfl⟩
      · rcases ih h with ⟨rfl, h⟩ | ⟨d, hd, h⟩
        · left
          refine ⟨rfl, ?_⟩
          intro d hd
          simp only [List.mem_cons] at hd
          rcases hd with rfl | hd
          · rcases hn with hn | hn
            · exact .inl (Ne.symm hn)
            · by_cases hd : cls d = none
              · exact .inr hd
              · left; rw [hn]; exact hd
          · exact h d hd
        · exact .inr ⟨d, by simp [hd], h⟩

theorem reduced_reduceInto (cmp : Ordering) (arg : Calc K) (l : List (Calc K)) (h : Reduced l) :
    Reduced (reduceInto F cmp arg l) := by
  unfold Reduced at *
  induction l with
  | nil => simp [reduceInto]
  | cons b bs ih =>
    rw [List.pairwise_cons] at h
    simp only [reduceInto]
    split
    · rename_i o ho
      have := argCmp_cls ho
      split
      · rw [List.pairwise_cons]; exact ⟨fun d hd => by rw [this]; exact h.1 d hd, h.2⟩
      · rw [List.pairwise_cons]; exact h
    · rename_i hn
      rw [argCmp_none] at hn
      rw [List.pairwise_cons]
      refine ⟨?_, ih h.2⟩
      intro d hd
      rcases cls_reduceInto cmp arg bs d hd with ⟨rfl, _⟩ | ⟨e, he, hde⟩
      · rcases hn with hn | hn
        · exact .inl (Ne.symm hn)
        · by_cases hb : cls b = none
          · exact .inr hb
          · left; rw [hn]; exact hb
      · rw [← hde]; exact h.1 e he

theorem comb_apart (t : Kind) (op : K → K → K) (a b : Calc K)
    (h : cls a ≠ cls b ∨ cls a = none) : comb op (semOf F a) (semOf F b) = none := by
  have hn := kind_ne_num (K := K)
  have hn' := fun v => (kind_ne_num (K := K) v).symm
  cases a <;> cases b <;> simp_all [cls, comb, semOf_value, semOf_number, semOf_sum, semOf_func, same2]

theorem fold1_reduced (t : Kind) (op : K → K → K) (ha : ∀ a b c, op (op a b) c = op a (op b c))
    (a b : Calc K) (l : List (Calc K)) (h : Reduced (a :: b :: l)) :
    fold1 op ((a :: b :: l).map (semOf F)) = none := by
  simp only [Reduced, List.pairwise_cons, List.mem_cons, forall_eq_or_imp] at h
  have hab := comb_apart t op a b (F := F) h.1.1
  simp only [List.map_cons]
  rw [fold1_cons op _ _ (by simp)]
  cases l with
  | nil => simpa [fold1] using hab
  | cons c l =>
    rw [List.map_cons, fold1_cons op _ _ (by simp), ← comb_assoc op ha, hab]
    simp [comb]

theorem semOf_mkMinMax (t : Kind) (op : K → K → K) (ha : ∀ a b c, op (op a b) c = op a (op b c))
    (hc : ∀ a b, op a b = op b a) (cmp : Ordering) (hs : Selects F t op cmp) 
    (l : List (Calc K)) (hl : ∀ c ∈ l, Calc.Of t c) :
    semOf F (mkMinMax F cmp l) = fold1 op (l.map (semOf F)) ∧ (mkMinMax F cmp l).Of t := by
  have key : ∀ (l acc : List (Calc K)), acc ≠ [] → Reduced acc → (∀ c ∈ acc, Calc.Of t c) →
      (∀ c ∈ l, Calc.Of t c) →
      fold1 op ((l.foldl (fun r a => reduceInto F cmp a r) acc).map (semOf F)) =
        fold1 op ((acc ++ l).map (semOf F)) ∧
      Reduced (l.foldl (fun r a => reduceInto F cmp a r) acc) ∧
      ∀ c ∈ l.foldl (fun r a => reduceInto F cmp a r) acc, Calc.Of t c := by
    intro l
    induction l with
    | nil => intro acc _ hr hacc _; simpa using ⟨hr, hacc⟩
    | cons a l ih =>
      intro acc hne hr hacc hl
      have hne' : reduceInto F cmp a acc ≠ [] := by
        cases acc with
        | nil => exact absurd rfl hne
        | cons b bs => simp only [reduceInto]; split <;> (try split) <;> simp
      have ha' := hl a (by simp)
      obtain ⟨h1, h2, h3⟩ := ih (reduceInto F cmp a acc) hne' (reduced_reduceInto cmp a acc hr)
        (fun c hc => by
          rcases mem_reduceInto cmp a acc c hc with rfl | h
          · exact ha'
          · exact hacc c h) (fun c hc => hl c (by simp [hc]))
      refine ⟨?_, h2, h3⟩
      rw [List.foldl_cons, h1]
      have e : fold1 op ((reduceInto F cmp a acc).map (semOf F)) = fold1 op ((acc ++ [a]).map (semOf F)) := by
        rw [fold1_reduceInto t op ha hc cmp hs a ha' acc hacc hne, List.map_append, List.map_cons, List.map_nil,
          fold1_append op ha _ _ (by simpa using hne)]
      have e2 : acc ++ a :: l = (acc ++ [a]) ++ l := by simp
      rw [e2, List.map_append, List.map_append]
      exact fold1_congr op ha _ _ _ (by simpa using hne') (by simp) e
  cases l with
  | nil => simp [mkMinMax, fold1, semOf_func, Calc.Of]
  | cons a l =>
    obtain ⟨h1, h2, h3⟩ := key l [a] (by simp) (by simp [Reduced]) (by simpa using hl a (by simp))
      (fun c hc => hl c (by simp [hc]))
    simp only [mkMinMax, List.foldl_cons, reduceInto]
    rw [List.singleton_append] at h1
    rw [← h1]
    revert h2 h3
    generalize l.foldl (fun r a => reduceInto F cmp a r) [a] = L
    intro h2 h3
    match L with
    | [] => simp [fold1, semOf_func, Calc.Of]
    | [c] => simpa [fold1] using h3 c (by simp)
    | a :: b :: l => exact ⟨(fold1_reduced t op ha a b l h2).symm, trivial⟩

theorem cmpK_cases (a b : K) : (cmpK a b = .lt ∧ a < b) ∨ (cmpK a b = .eq ∧ a = b) ∨ (cmpK a b = .gt ∧ b < a) := by
  unfold cmpK
  rcases lt_trichotomy a b with h | h | h
  · simp [h]
  · simp [h]
  · simp [h, h.ne', not_lt.2 h.le]

theorem argCmp_sem (t : Kind) (a b : Calc K) (o : Ordering) (ha : a.Of t) (hb : b.Of t)
    (h : argCmp F a b = some o) :
    ∃ ty x y, semOf F a = some ⟨ty, x⟩ ∧ semOf F b = some ⟨ty, y⟩ ∧ o = cmpK x y := by
  cases a <;> cases b <;> simp only [argCmp, Option.some.injEq, reduceCtorEq] at h
  · rename_i v w
    simp only [Calc.Of] at ha hb
    refine ⟨v.kind, _, _, rfl, by rw [semOf_value, hb, ha], ?_⟩
    rw [← h, cmp_amount v w (ha.trans hb.symm)]
  · exact ⟨_, _, _, rfl, rfl, h.symm⟩

theorem selects_min (t : Kind) : Selects F t min .lt := by
  intro a b o ha hb h
  obtain ⟨ty, x, y, hx, hy, rfl⟩ := argCmp_sem t a b o ha hb h
  rw [hx, hy]
  simp only [comb, Option.bind_some, same2, if_true]
  rcases cmpK_cases x y with ⟨e, h⟩ | ⟨e, h⟩ | ⟨e, h⟩
  · simp [e, hx, min_eq_right h.le]
  · rw [e]; simp [hy, h]
  · simp [e, hy, min_eq_left h.le]

theorem selects_max (t : Kind) : Selects F t max .gt := by
  intro a b o ha hb h
  obtain ⟨ty, x, y, hx, hy, rfl⟩ := argCmp_sem t a b o ha hb h
  rw [hx, hy]
  simp only [comb, Option.bind_some, same2, if_true]
  rcases cmpK_cases x y with ⟨e, h⟩ | ⟨e, h⟩ | ⟨e, h⟩
  · simp [e, hy, max_eq_left h.le]
  · rw [e]; simp [hy, h]
  · simp [e, hx, max_eq_right h.le]

/-- What the results of a list of arguments stand for. -/
def semList (F : Fns K) : List (Calc K) → Option (List (Sem K))
  | [] => some []
  | c :: l => (semOf F c).bind fun a => (semList F l).bind fun l => some (a :: l)

theorem fold1_sameAll (op : K → K → K) (f : List K → K) (h1 : ∀ a, f [a] = a)
    (h2 : ∀ a b l, f (a :: b :: l) = op a (f (b :: l))) (l : List (Calc K)) :
    fold1 op (l.map (semOf F)) = (semList F l).bind (sameAll f) := by
  induction l with
  | nil => simp [fold1, semList, sameAll]
  | cons a l ih =>
    cases l with
    | nil => cases h : semOf F a <;> simp [fold1, semList, sameAll, h, h1]
    | cons b l =>
      rw [List.map_cons, fold1_cons op _ _ (by simp), ih]
      simp only [semList]
      cases ha : semOf F a with
      | none => simp [comb]
      | some x =>
        cases hb : semOf F b with
        | none => simp [comb]
        | some y =>
          cases hl : semList F l with
          | none => simp [comb]
          | some zs =>
            simp only [Option.bind_some, comb, sameAll]
            by_cases hxy : y.ty = x.ty
            · by_cases hz : ∀ b ∈ zs, b.ty = y.ty
              · have hz' : ∀ b ∈ y :: zs, b.ty = x.ty := by
                  intro b hb
                  simp only [List.mem_cons] at hb
                  rcases hb with rfl | hb
                  · exact hxy
                  · rw [hz b hb, hxy]
                rw [if_pos hz, if_pos hz']
                simp [same2, hxy, h2]
              · rw [if_neg hz, if_neg (fun h => hz fun b hb => by rw [h b (by simp [hb]), hxy])]
                simp
            · have hno : ¬ ∀ b ∈ y :: zs, b.ty = x.ty := fun h => hxy (h y (by simp))
              rw [if_neg hno]
              split
              · simp [same2, Ne.symm hxy]
              · simp

theorem semOf_mkMin (t : Kind) (l : List (Calc K)) (hl : ∀ c ∈ l, Calc.Of t c) :
    semOf F (mkMinMax F .lt l) = (semList F l).bind (sameAll minOf) ∧ (mkMinMax F .lt l).Of t := by
  rw [← fold1_sameAll min minOf (fun a => rfl) (fun a b l => rfl) l]
  exact semOf_mkMinMax t min min_assoc min_comm .lt (selects_min t) l hl

theorem semOf_mkMax (t : Kind) (l : List (Calc K)) (hl : ∀ c ∈ l, Calc.Of t c) :
    semOf F (mkMinMax F .gt l) = (semList F l).bind (sameAll maxOf) ∧ (mkMinMax F .gt l).Of t := by
  rw [← fold1_sameAll max maxOf (fun a => rfl) (fun a b l => rfl) l]
  exact semOf_mkMinMax t max max_assoc max_comm .gt (selects_max t) l hl

theorem argCmp_none_sem (a b : Calc K) (op : K → K → K) (h : argCmp F a b = none) :
    comb op (semOf F a) (semOf F b) = none := comb_apart .num op a b ((argCmp_none a b).1 h)

theorem semOf_mkClamp (t : Kind) (a b c : Calc K) (ha : a.Of t) (hb : b.Of t) (hc : c.Of t) :
    semOf F (mkClamp F a b c) = (semOf F a).bind fun a => (semOf F b).bind fun b => (semOf F c).bind fun c =>
      (same2 min b c).bind fun d => same2 max a d := by
  have rhs : ((semOf F a).bind fun a => (semOf F b).bind fun b => (semOf F c).bind fun c =>
      (same2 min b c).bind fun d => same2 max a d) = comb max (semOf F a) (comb min (semOf F b) (semOf F c)) := by
    cases semOf F a <;> cases semOf F b <;> cases semOf F c <;> simp [comb]
  rw [rhs]
  unfold mkClamp
  split
  · rename_i h
    rw [argCmp_none_sem b c min h, comb_none, semOf_func]
  · rename_i o h
    have hsel : semOf F (if o = .gt then c else b) = comb min (semOf F b) (semOf F c) := by
      obtain ⟨ty, x, y, hx, hy, rfl⟩ := argCmp_sem t b c o hb hc h
      rw [hx, hy]
      simp only [comb, Option.bind_some, same2, if_true]
      rcases cmpK_cases x y with ⟨e, h⟩ | ⟨e, h⟩ | ⟨e, h⟩
      · simp [e, hx, min_eq_left h.le]
      · rw [e]; simp [hx, h]
      · simp [e, hy, min_eq_right h.le]
    have hof : (if o = .gt then c else b : Calc K).Of t := by split <;> assumption
    rw [← hsel]
    simp only
    generalize (if o = .gt then c else b : Calc K) = d at hsel hof
    split
    · rename_i h
      rw [comb_comm max max_comm, argCmp_none_sem d a max h, semOf_func]
    · rename_i h
      obtain ⟨ty, x, y, hx, hy, e⟩ := argCmp_sem t d a _ hof ha h
      rcases cmpK_cases x y with ⟨e', h⟩ | ⟨e', h⟩ | ⟨e', h⟩
      · simp [hx, hy, comb, same2, max_eq_left h.le]
      · rw [← e] at e'; exact absurd e' (by decide)
      · rw [← e] at e'; exact absurd e' (by decide)
    · rename_i o' hno h
      obtain ⟨ty, x, y, hx, hy, e⟩ := argCmp_sem t d a _ hof ha h
      rcases cmpK_cases x y with ⟨e', h⟩ | ⟨e', h⟩ | ⟨e', h⟩
      · exact absurd (e.trans e') hno
      · simp [hx, hy, comb, same2, h]
      · simp [hx, hy, comb, same2, max_eq_right h.le]

theorem mkClamp_Of (t : Kind) (a b c : Calc K) (ha : a.Of t) (hb : b.Of t) (hc : c.Of t) :
    (mkClamp F a b c).Of t := by
  unfold mkClamp
  split
  · trivial
  · simp only
    split
    · trivial
    · exact ha
    · split <;> assumption

/-! ### `hypot()` -/

theorem foldlM_hypot (t ty : Kind) (k : K) (mk : K → Calc K)
    (H : ∀ A c, Calc.Of t c → applyOp F (fun x y => x + y * y) (mk A) c =
      (semOf F c).bind fun s => if s.ty = ty then some (mk (A + s.x / k * (s.x / k))) else none)
    (l : List (Calc K)) (hl : ∀ c ∈ l, Calc.Of t c) : ∀ A : K,
    l.foldlM (fun acc arg => applyOp F (fun x y => x + y * y) acc arg) (mk A) =
      (semList F l).bind fun xs => if ∀ s ∈ xs, s.ty = ty then
        some (mk (A + (xs.map fun s => s.x / k * (s.x / k)).sum)) else none := by
  induction l with
  | nil => intro A; simp [semList]
  | cons c l ih =>
    intro A
    rw [List.foldlM_cons, H A c (hl c (by simp))]
    have ih := ih (fun c hc => hl c (by simp [hc]))
    simp only [semList]
    cases hc : semOf F c with
    | none => simp
    | some s =>
      simp only [Option.bind_some]
      by_cases hs : s.ty = ty
      · simp only [hs, if_true, Option.bind_eq_bind, Option.bind_some, ih]
        cases semList F l with
        | none => simp
        | some xs => simp [hs, add_assoc]
      · simp only [hs, if_false, Option.bind_eq_bind, Option.bind_none]
        cases semList F l with
        | none => simp
        | some xs => simp [hs]

theorem sum_sq (k : K) (hk : k ≠ 0) (xs : List (Sem K)) :
    (xs.map fun s => s.x / k * (s.x / k)).sum * (k * k) = ((xs.map Sem.x).map fun x => x * x).sum := by
  induction xs with
  | nil => simp
  | cons s xs ih =>
    simp only [List.map_cons, List.sum_cons, add_mul, ih]
    congr 1
    field_simp

theorem hypot_many (hs : SqrtLaws F.sqrt) (t ty : Kind) (k : K) (hk : 0 < k) (mk : K → Calc K)
    (H : ∀ A c, Calc.Of t c → applyOp F (fun x y => x + y * y) (mk A) c =
      (semOf F c).bind fun s => if s.ty = ty then some (mk (A + s.x / k * (s.x / k))) else none)
    (hmap : ∀ f x, applyMap f (mk x) = some (mk (f x))) (hsem : ∀ x, semOf F (mk x) = some ⟨ty, x * k⟩)
    (x : K) (b c : Calc K) (l : List (Calc K)) (hl : ∀ d ∈ b :: c :: l, Calc.Of t d) :
    semOf F ((parseHypot F (mk x :: b :: c :: l)).getD .func) =
      (semList F (mk x :: b :: c :: l)).bind (sameAll (MathFn.cssHypot F.sqrt)) := by
  simp only [parseHypot, hmap, Option.bind_eq_bind, Option.bind_some]
  rw [foldlM_hypot t ty k mk H _ hl]
  rw [show semList F (mk x :: b :: c :: l) = (semOf F (mk x)).bind fun a =>
    (semList F (b :: c :: l)).bind fun l => some (a :: l) from rfl, hsem]
  cases semList F (b :: c :: l) with
  | none => simp [semOf_func]
  | some xs =>
    simp only [Option.bind_some, sameAll]
    by_cases h : ∀ s ∈ xs, s.ty = ty
    · rw [if_pos h, if_pos h]
      simp only [Option.bind_some, hmap, Option.getD_some, hsem, MathFn.cssHypot, List.map_cons, List.sum_cons,
        ← sum_sq k hk.ne']
      congr 2
      have e : x * k * (x * k) + (xs.map fun s => s.x / k * (s.x / k)).sum * (k * k) =
          k * k * (x * x + (xs.map fun s => s.x / k * (s.x / k)).sum) := by ring
      have hnn : 0 ≤ (xs.map fun s => s.x / k * (s.x / k)).sum := by
        have := MathFn.sum_sq_nonneg (xs.map fun s => s.x / k)
        rwa [List.map_map] at this
      rw [e, hs.scale k _ hk.le (add_nonneg (mul_self_nonneg x) hnn), mul_comm]
    · rw [if_neg h, if_neg h]
      simp [semOf_func]

theorem parseHypot_Of (t : Kind) (l : List (Calc K)) (hl : ∀ c ∈ l, Calc.Of t c) :
    ((parseHypot F l).getD .func).Of t := by
  have hop : ∀ f a b c, Calc.Of t a → Calc.Of t b → applyOp F f a b = some c → Calc.Of t c := by
    intro f a b c ha hb h
    have := applyOp_Of (F := F) t f a b ha hb
    rw [h] at this; exact this
  have hmap : ∀ f a c, Calc.Of t a → applyMap f a = some c → Calc.Of (K := K) t c := by
    intro f a c ha h
    have := applyMap_Of t f a ha
    rw [h] at this; exact this
  have hfold : ∀ (l : List (Calc K)) (acc c : Calc K), (∀ c ∈ l, Calc.Of t c) → acc.Of t →
      l.foldlM (fun acc arg => applyOp F (fun x y => x + y * y) acc arg) acc = some c → c.Of t := by
    intro l
    induction l with
    | nil => intro acc c _ ha h; simp at h; exact h ▸ ha
    | cons b l ih =>
      intro acc c hl ha h
      simp only [List.foldlM_cons, Option.bind_eq_bind, Option.bind_eq_some_iff] at h
      obtain ⟨d, hd, h⟩ := h
      exact ih d c (fun c hc => hl c (by simp [hc])) (hop _ _ _ _ ha (hl b (by simp)) hd) h
  match l with
  | [] => trivial
  | [a] => exact hl a (by simp)
  | [a, b] => exact applyOp_Of t _ a b (hl a (by simp)) (hl b (by simp))
  | a :: b :: c :: l =>
    cases h : parseHypot F (a :: b :: c :: l) with
    | none => trivial
    | some r =>
      simp only [parseHypot, Option.bind_eq_bind, Option.bind_eq_some_iff] at h
      obtain ⟨d, hd, e, he, h⟩ := h
      exact hmap _ _ _ (hfold _ _ _ (fun c hc => hl c (by simp only [List.mem_cons] at hc ⊢; tauto))
        (hmap _ _ _ (hl a (by simp)) hd) he) h

/-- The square root of a square. -/
theorem sqrt_sq (hs : SqrtLaws F.sqrt) (x : K) (hx : 0 ≤ x) : F.sqrt (x * x) = x := by
  have := hs.scale x 1 hx zero_le_one
  rwa [hs.one, mul_one, mul_one] at this

theorem semOf_hypot (hpi : 0 < F.pi) (hs : SqrtLaws F.sqrt) (t : Kind) (l : List (Calc K))
    (hl : ∀ c ∈ l, Calc.Of t c)
    (hfine : l.length = 2 ∨ (∃ a, l = [a] ∧ ∀ s, semOf F a = some s → 0 ≤ s.x) ∨
      (3 ≤ l.length ∧ (t = .time ∨ t = .num ∨ (t = .angle ∧ ∃ x l', l = .value (.deg x) :: l')))) :
    semOf F ((parseHypot F l).getD .func) = (semList F l).bind (sameAll (MathFn.cssHypot F.sqrt)) := by
  rcases hfine with h | ⟨a, rfl, h⟩ | ⟨h3, h⟩
  · match l, h with
    | [a, b], _ =>
      rw [parseHypot, semOf_applyOp hpi t _ (MathFn.hypot_homogeneous F.sqrt hs) a b (hl a (by simp))
        (hl b (by simp))]
      simp only [semList]
      cases semOf F a with
      | none => simp
      | some x =>
        cases semOf F b with
        | none => simp
        | some y =>
          simp only [Option.bind_some, same2, sameAll, MathFn.cssHypot, List.mem_singleton, forall_eq,
            List.map_cons, List.map_nil, List.sum_cons, List.sum_nil, add_zero]
          by_cases e : x.ty = y.ty
          · simp [e]
          · simp [e, Ne.symm e]
  · simp only [parseHypot, Option.getD_some, semList]
    cases h' : semOf F a with
    | none => simp
    | some x =>
      simp [sameAll, MathFn.cssHypot, sqrt_sq hs x.x (h x h')]
  · match l, h3 with
    | a :: b :: c :: l, _ =>
      have hn := kind_ne_num (K := K)
      have hl' : ∀ d ∈ b :: c :: l, Calc.Of t d := fun d hd =>
        hl d (by simp only [List.mem_cons] at hd ⊢; tauto)
      cases a with
      | sum => simp [parseHypot, applyMap, semList, semOf_sum, semOf_func]
      | func => simp [parseHypot, applyMap, semList, semOf_func]
      | number x =>
        apply hypot_many hs t .num 1 one_pos .number
        · intro A d hd
          cases d <;> simp [applyOp, semOf_value, semOf_number, semOf_sum, semOf_func, hn]
        · intro f x; rfl
        · intro x; simp [semOf_number]
        · exact hl'
      | value v =>
        have hv : v.kind = t := hl (.value v) (by simp)
        rcases h with rfl | rfl | ⟨rfl, y, l', h⟩
        · cases v <;> simp only [Val.kind, reduceCtorEq] at hv
          · apply hypot_many hs .time .time 1000 (by norm_num) (fun x => .value (.sec x))
            · intro A d hd
              cases d with
              | value w =>
                simp only [Calc.Of] at hd
                cases w <;> simp only [Val.kind, reduceCtorEq] at hd <;>
                  simp [applyOp, Val.op, semOf_value, Val.kind, amount]
              | number x => simp [applyOp, semOf_number]
              | sum => simp [applyOp, semOf_sum]
              | func => simp [applyOp, semOf_func]
            · intro f x; rfl
            · intro x; simp [semOf_value, Val.kind, amount]
            · exact hl'
          · apply hypot_many hs .time .time 1 (by norm_num) (fun x => .value (.ms x))
            · intro A d hd
              cases d with
              | value w =>
                simp only [Calc.Of] at hd
                cases w <;> simp only [Val.kind, reduceCtorEq] at hd <;>
                  simp [applyOp, Val.op, semOf_value, Val.kind, amount]
              | number x => simp [applyOp, semOf_number]
              | sum => simp [applyOp, semOf_sum]
              | func => simp [applyOp, semOf_func]
            · intro f x; rfl
            · intro x; simp [semOf_value, Val.kind, amount]
            · exact hl'
        · exact absurd hv (hn v)
        · simp only [List.cons.injEq, Calc.value.injEq] at h
          obtain ⟨rfl, _⟩ := h
          apply hypot_many hs .angle .angle 1 (by norm_num) (fun x => .value (.deg x))
          · intro A d hd
            cases d with
            | value w =>
              simp only [Calc.Of] at hd
              have := toDegrees_amount (F := F) w hd
              cases w <;> simp only [Val.kind, reduceCtorEq] at hd <;>
                simp only [applyOp, Val.op, semOf_value, Val.kind, Option.bind_some, if_true, ← this, toDegrees,
                  div_one]
            | number x => simp [applyOp, semOf_number]
            | sum => simp [applyOp, semOf_sum]
            | func => simp [applyOp, semOf_func]
          · intro f x; rfl
          · intro x; simp [semOf_value, Val.kind, amount]
          · exact hl'

/-! ### Parsing -/

theorem bind1 {pa : Option (Calc K)} {sa : Option (Sem K)} (ha : pa.bind (semOf F) = sa)
    (g : Calc K → Option (Calc K)) (h : Sem K → Option (Sem K))
    (H : ∀ a, pa = some a → (g a).bind (semOf F) = (semOf F a).bind h) :
    (pa.bind g).bind (semOf F) = sa.bind h := by
  subst ha
  cases pa with
  | none => rfl
  | some a => simpa using H a rfl

theorem bind2 {pa pb : Option (Calc K)} {sa sb : Option (Sem K)} (ha : pa.bind (semOf F) = sa)
    (hb : pb.bind (semOf F) = sb) (g : Calc K → Calc K → Option (Calc K))
    (h : Sem K → Sem K → Option (Sem K))
    (H : ∀ a b, pa = some a → pb = some b → (g a b).bind (semOf F) =
      (semOf F a).bind fun x => (semOf F b).bind fun y => h x y) :
    (pa.bind fun a => pb.bind fun b => g a b).bind (semOf F) = sa.bind fun x => sb.bind fun y => h x y := by
  subst ha hb
  cases pa with
  | none => rfl
  | some a =>
    cases pb with
    | none => cases h : semOf F a <;> simp [h]
    | some b => simpa using H a b rfl rfl

theorem of_bind {pa : Option (Calc K)} {g : Calc K → Option (Calc K)} {t t' : Kind} {r : Calc K}
    (ha : ∀ a, pa = some a → a.Of t') (H : ∀ a c, a.Of t' → g a = some c → c.Of t)
    (h : pa.bind g = some r) : r.Of t := by
  cases pa with
  | none => simp at h
  | some a => exact H a r (ha a rfl) (by simpa using h)

theorem asNumber_bind (c : Calc K) (h : K → Option (Sem K)) :
    (asNumber c).bind h = (semOf F c).bind fun s => if s.ty = .num then h s.x else none := by
  have hn := kind_ne_num (K := K)
  cases c <;> simp [asNumber, semOf_value, semOf_number, semOf_sum, semOf_func, hn]

mutual
theorem parse_Of (t : Kind) : ∀ (s : Src K) (c : Calc K), s.parse F t = some c → c.Of t
  | .num x, c, h => by simp only [Src.parse, Option.some.injEq] at h; subst h; trivial
  | .lit v, c, h => by
    simp only [Src.parse] at h
    split at h
    · simp only [Option.some.injEq] at h; subst h; assumption
    · simp at h
  | .add a b, c, h => by
    simp only [Src.parse, Option.bind_eq_some_iff] at h
    obtain ⟨x, hx, y, hy, h⟩ := h
    exact add_Of t x y c (parse_Of t a x hx) (parse_Of t b y hy) h
  | .sub a b, c, h => by
    simp only [Src.parse, Option.bind_eq_some_iff] at h
    obtain ⟨x, hx, y, hy, h⟩ := h
    exact add_Of t x _ c (parse_Of t a x hx) (mul_Of t _ y (parse_Of t b y hy)) h
  | .mul a b, c, h => by
    simp only [Src.parse, Option.bind_eq_some_iff] at h
    obtain ⟨x, hx, y, hy, h⟩ := h
    exact mkMul_Of t x y c (parse_Of t a x hx) (parse_Of t b y hy) h
  | .div a b, c, h => by
    simp only [Src.parse, Option.bind_eq_some_iff] at h
    obtain ⟨x, hx, y, hy, h⟩ := h
    exact mkDiv_Of t x y c (parse_Of t a x hx) h
  | .calc a, c, h => by rw [Src.parse] at h; exact parse_Of t a c h
  | .min l, c, h => by
    simp only [Src.parse, Option.bind_eq_some_iff, Option.some.injEq] at h
    obtain ⟨x, hx, rfl⟩ := h
    exact (semOf_mkMin t x (parseArgs_Of t l x hx)).2
  | .max l, c, h => by
    simp only [Src.parse, Option.bind_eq_some_iff, Option.some.injEq] at h
    obtain ⟨x, hx, rfl⟩ := h
    exact (semOf_mkMax t x (parseArgs_Of t l x hx)).2
  | .clamp a b d, c, h => by
    simp only [Src.parse, Option.bind_eq_some_iff, Option.some.injEq] at h
    obtain ⟨x, hx, y, hy, z, hz, rfl⟩ := h
    exact mkClamp_Of t x y z (parse_Of t a x hx) (parse_Of t b y hy) (parse_Of t d z hz)
  | .round s a b, c, h => by
    simp only [Src.parse, Option.bind_eq_some_iff, Option.some.injEq] at h
    obtain ⟨x, hx, y, hy, rfl⟩ := h
    exact applyOp_Of t _ x y (parse_Of t a x hx) (parse_Of t b y hy)
  | .rem a b, c, h => by
    simp only [Src.parse, Option.bind_eq_some_iff, Option.some.injEq] at h
    obtain ⟨x, hx, y, hy, rfl⟩ := h
    exact applyOp_Of t _ x y (parse_Of t a x hx) (parse_Of t b y hy)
  | .mod a b, c, h => by
    simp only [Src.parse, Option.bind_eq_some_iff, Option.some.injEq] at h
    obtain ⟨x, hx, y, hy, rfl⟩ := h
    exact applyOp_Of t _ x y (parse_Of t a x hx) (parse_Of t b y hy)
  | .abs a, c, h => by
    simp only [Src.parse, Option.bind_eq_some_iff, Option.some.injEq] at h
    obtain ⟨x, hx, rfl⟩ := h
    exact applyMap_Of t _ x (parse_Of t a x hx)
  | .sign a, c, h => by
    simp only [Src.parse, Option.bind_eq_some_iff, Option.some.injEq] at h
    obtain ⟨x, hx, rfl⟩ := h
    exact mkSign_Of t x
  | .hypot l, c, h => by
    simp only [Src.parse, Option.bind_eq_some_iff, Option.some.injEq] at h
    obtain ⟨x, hx, rfl⟩ := h
    exact parseHypot_Of t x (parseArgs_Of t l x hx)
  | .trig f a, c, h => by
    simp only [Src.parse, Option.bind_eq_some_iff] at h
    obtain ⟨x, hx, h⟩ := h
    cases x <;> simp only [mkTrig, Option.some.injEq, reduceCtorEq] at h <;> subst h <;> trivial
  | .arc f a, c, h => by
    simp only [Src.parse, Option.bind_eq_some_iff, mkArc] at h
    obtain ⟨x, hx, y, hy, h⟩ := h
    split at h
    · rename_i e
      simp only [Option.some.injEq] at h; subst h; exact e.symm
    · simp at h
  | .fn1 f a, c, h => by
    simp only [Src.parse, Option.bind_eq_some_iff, Option.some.injEq] at h
    obtain ⟨x, hx, y, hy, rfl⟩ := h
    trivial
  | .fn2 f a b, c, h => by
    simp only [Src.parse, Option.bind_eq_some_iff, Option.some.injEq] at h
    obtain ⟨x, hx, y, hy, z, hz, w, hw, rfl⟩ := h
    trivial
theorem parseArgs_Of (t : Kind) : ∀ (l : List (Src K)) (x : List (Calc K)), parseArgs F t l = some x →
    ∀ c ∈ x, Calc.Of t c
  | [], x, h => by simp only [parseArgs, Option.some.injEq] at h; subst h; simp
  | a :: l, x, h => by
    simp only [parseArgs, Option.bind_eq_some_iff, Option.some.injEq] at h
    obtain ⟨y, hy, z, hz, rfl⟩ := h
    intro c hc
    simp only [List.mem_cons] at hc
    rcases hc with rfl | hc
    · exact parse_Of t a _ hy
    · exact parseArgs_Of t l z hz c hc
end

theorem parseArgs_length (t : Kind) (l : List (Src K)) (x : List (Calc K)) (h : parseArgs F t l = some x) :
    x.length = l.length := by
  induction l generalizing x with
  | nil => simp only [parseArgs, Option.some.injEq] at h; subst h; rfl
  | cons a l ih =>
    simp only [parseArgs, Option.bind_eq_some_iff, Option.some.injEq] at h
    obtain ⟨y, hy, z, hz, rfl⟩ := h
    simp [ih z hz]

end Verif.Units
