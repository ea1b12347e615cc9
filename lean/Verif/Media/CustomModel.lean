import Verif.Media.LogicLemmas
/-! Model of custom media expansion, src/media_query.rs:318-337 and 1758-1892, and its specification. -/
namespace Verif.Media

/-- src/error.rs `MinifyErrorKind`, the three errors of custom media expansion. -/
inductive CmErr where
  | circular (name : Str)
  | notDefined (name : Str)
  | unsupported
deriving DecidableEq, Repr

/-- The definitions: src/rules/custom_media.rs `CustomMediaRule`, in a map by name (src/rules/mod.rs:528). -/
abbrev CmEnv := List (Str × List Query)

/-- `custom_media.get(name)`. -/
def CmEnv.get (env : CmEnv) (n : Str) : Option (List Query) := (env.find? fun p => p.1 == n).map (·.2)

/-- The mutable media type and qualifier threaded through `process_condition`. -/
structure CmState where
  type : MediaType
  qual : Option Qualifier
deriving DecidableEq, Repr

/-- Names of the environment that are not being expanded; the termination measure. -/
def unseen (env : CmEnv) (seen : List Str) : Nat := (env.filter fun p => !(seen.contains p.1)).length

theorem unseen_lt {env : CmEnv} {seen : List Str} {n : Str} {qs : List Query} (hn : ¬ seen.contains n = true)
    (hg : env.get n = some qs) : unseen env (n :: seen) < unseen env seen := by
  unfold unseen
  unfold CmEnv.get at hg
  induction env with
  | nil => simp at hg
  | cons p env ih =>
    by_cases hp : p.1 = n
    · subst hp
      have h1 : (env.filter fun q => !((p.1 :: seen).contains q.1)).length ≤
          (env.filter fun q => !(seen.contains q.1)).length := by
        rw [← List.countP_eq_length_filter, ← List.countP_eq_length_filter]
        apply List.countP_mono_left
        intro x _ hx
        simp only [List.contains_cons, Bool.not_or, Bool.and_eq_true] at hx
        exact hx.2
      have h2 : seen.contains p.1 = false := by simpa using hn
      rw [List.filter_cons, List.filter_cons]
      simp only [List.contains_cons, beq_self_eq_true, Bool.true_or, Bool.not_true, Bool.false_eq_true, if_false, h2,
        Bool.not_false, if_true, List.length_cons]
      simp only [List.contains_cons] at h1
      omega
    · have hf : (env.find? fun p => p.1 == n).map (·.2) = some qs := by
        rw [List.find?_cons] at hg
        have : (p.1 == n) = false := by simp [hp]
        simpa [this] using hg
      have := ih hf
      have hpn : (p.1 == n) = false := by simp [hp]
      simp only [List.filter_cons, List.contains_cons, hpn, Bool.false_or] at this ⊢
      split <;> simp_all

mutual
/-- src/media_query.rs:1758-1892 `process_condition`. Returns the result (`Ok(used)` or the error) together with the
mutated media type/qualifier and condition. `seen` is restored by the code before it returns (insert/remove), so
it is only passed down. The function is total: the recursion into a definition adds its name to `seen`. -/
def process (env : CmEnv) (seen : List Str) (st : CmState) (c : Cond) : Except CmErr Bool × CmState × Cond :=
  match c with
  | .not c =>
    match process env seen st c with
    | (.error e, st, c) => (.error e, st, .not c)
    | (.ok false, st, c) =>
      (.ok false, { st with qual := if st.qual = some .not then none else some .not }, .not c)
    | (.ok true, st, c) => (.ok true, st, match c with | .not inner => inner | c => .not c)
  | .op o cs =>
    match processOps env seen st (.ok true) cs with
    | (res, st, cs) => (res, st, .op o cs)
  | .feature (.boolean (.custom n)) =>
    if _h : seen.contains n = true then (.error (.circular n), st, c)
    else match _hg : env.get n with
      | none => (.error (.notDefined n), st, c)
      | some qs =>
        match processQueries env (n :: seen) st (.ok true) qs with
        | (.error e, st, _) => (.error e, st, c)
        | (.ok _, st, []) => (.ok false, st, c)
        | (.ok _, st, [c']) => (.ok true, st, c')
        | (.ok _, st, cs) => (.ok true, st, .op .or cs)
  | c => (.ok true, st, c)
termination_by (unseen env seen, sizeOf c)
decreasing_by
  · exact Prod.Lex.right _ (by simp)
  · exact Prod.Lex.right _ (by simp; omega)
  · exact Prod.Lex.left _ _ (unseen_lt _h _hg)
/-- src/media_query.rs:1787-1799, `conditions.retain_mut(..)` with the captured `res`. -/
def processOps (env : CmEnv) (seen : List Str) (st : CmState) (res : Except CmErr Bool) (cs : List Cond) :
    Except CmErr Bool × CmState × List Cond :=
  match cs with
  | [] => (res, st, [])
  | c :: cs =>
    match process env seen st c with
    | (.ok true, st, c) =>
      match processOps env seen st res cs with
      | (res, st, cs) => (res, st, c :: cs)
    | (.ok false, st, _) => processOps env seen st res cs
    | (.error e, st, _) => processOps env seen st (.error e) cs
termination_by (unseen env seen, sizeOf cs)
decreasing_by
  all_goals exact Prod.Lex.right _ (by simp; omega)
/-- src/media_query.rs:1824-1867, the `filter_map` over the queries of a definition with the captured `res`. -/
def processQueries (env : CmEnv) (seen : List Str) (st : CmState) (res : Except CmErr Bool) (qs : List Query) :
    Except CmErr Bool × CmState × List Cond :=
  match qs with
  | [] => (res, st, [])
  | q :: qs =>
    if q.type ≠ .all ∨ q.qualifier ≠ none then
      if st.type = .all then
        if st.qual = some .not then processQueries env seen st (.ok false) qs
        else processQuery env seen ⟨q.type, q.qualifier⟩ res q qs
      else if q.type ≠ st.type ∨ q.qualifier ≠ st.qual then processQueries env seen st (.error .unsupported) qs
      else processQuery env seen st res q qs
    else processQuery env seen st res q qs
termination_by (unseen env seen, sizeOf qs + 1)
decreasing_by
  all_goals exact Prod.Lex.right _ (by simp; try omega)
/-- src/media_query.rs:1852-1866, the part of the closure after the media type check. An error in the nested condition
is recorded, the condition is kept. -/
def processQuery (env : CmEnv) (seen : List Str) (st : CmState) (res : Except CmErr Bool) (q : Query)
    (qs : List Query) : Except CmErr Bool × CmState × List Cond :=
  match q with
  | ⟨_, _, none⟩ => processQueries env seen st res qs
  | ⟨_, _, some c⟩ =>
    match process env seen st c with
    | (r, st, c) =>
      match processQueries env seen st (match r with | .error e => .error e | .ok _ => res) qs with
      | (res, st, cs) => (res, st, c :: cs)
termination_by (unseen env seen, sizeOf q + sizeOf qs + 1)
decreasing_by
  all_goals exact Prod.Lex.right _ (by simp; try omega)
end

/-- src/media_query.rs:318-337 `MediaQuery::transform_custom_media`. -/
def Query.transformCustomMedia (env : CmEnv) (q : Query) : Except CmErr Query :=
  match q.cond with
  | none => .ok q
  | some c =>
    match process env [] ⟨q.type, q.qualifier⟩ c with
    | (.error e, _, _) => .error e
    | (.ok used, st, c) => .ok ⟨st.qual, st.type, if used then some c else none⟩

/-- src/media_query.rs:84-93 `MediaList::transform_custom_media`. -/
def transformList (env : CmEnv) : List Query → Except CmErr (List Query)
  | [] => .ok []
  | q :: qs =>
    match q.transformCustomMedia env with
    | .error e => .error e
    | .ok q =>
      match transformList env qs with
      | .error e => .error e
      | .ok qs => .ok (q :: qs)

/-! ### Specification -/

mutual
/-- The condition with every reference replaced by the disjunction of its definition's conditions, to nesting depth `k`.
`none` when a reference is undefined or nested deeper than `k`. Only meaningful for definitions without media
types (`Plain` below). -/
def expand (env : CmEnv) (k : Nat) (c : Cond) : Option Cond :=
  match c with
  | .not c => (expand env k c).map .not
  | .op o cs => (expandAll env k cs).map (.op o)
  | .feature (.boolean (.custom n)) =>
    match k with
    | 0 => none
    | k + 1 =>
      match env.get n with
      | none => none
      | some qs => (expandAll env k (qs.filterMap (·.cond))).map (.op .or)
  | c => some c
termination_by (k, sizeOf c)
decreasing_by
  · exact Prod.Lex.right _ (by simp)
  · exact Prod.Lex.right _ (by simp; omega)
  · exact Prod.Lex.left _ _ (by omega)
/-- All conditions of a list. -/
def expandAll (env : CmEnv) (k : Nat) (cs : List Cond) : Option (List Cond) :=
  match cs with
  | [] => some []
  | c :: cs =>
    match expand env k c, expandAll env k cs with
    | some c, some cs => some (c :: cs)
    | _, _ => none
termination_by (k, sizeOf cs)
decreasing_by
  all_goals exact Prod.Lex.right _ (by simp; omega)
end

/-- Every definition is a non-empty list of plain conditions: no media types, no qualifiers. -/
def Plain (env : CmEnv) : Prop :=
  ∀ n qs, env.get n = some qs → qs ≠ [] ∧ ∀ q ∈ qs, q.type = .all ∧ q.qualifier = none ∧ q.cond ≠ none

mutual
/-- The custom media names mentioned in a condition. -/
def Cond.names : Cond → List Str
  | .feature (.boolean (.custom n)) => [n]
  | .feature _ => []
  | .not c => c.names
  | .op _ cs => Cond.namesAll cs
  | .unknown _ => []
/-- The custom media names mentioned in a list of conditions. -/
def Cond.namesAll : List Cond → List Str
  | [] => []
  | c :: cs => c.names ++ Cond.namesAll cs
end

/-- The definition of `n` mentions `m`. -/
def Refers (env : CmEnv) (n m : Str) : Prop :=
  ∃ qs, env.get n = some qs ∧ ∃ q ∈ qs, ∃ c, q.cond = some c ∧ m ∈ c.names

/-- `m` can be reached from `n` through one or more definitions. -/
inductive RefersPlus (env : CmEnv) : Str → Str → Prop where
  | one {n m} : Refers env n m → RefersPlus env n m
  | step {n m k} : Refers env n m → RefersPlus env m k → RefersPlus env n k

/-- Condition `c` mentions, directly or through definitions, a name that is undefined or defined in terms of
itself. -/
def BadReference (env : CmEnv) (c : Cond) : Prop :=
  ∃ r ∈ c.names, ∃ n, (r = n ∨ RefersPlus env r n) ∧ (env.get n = none ∨ RefersPlus env n n)

end Verif.Media
