import Verif.Named.Model
/-! What name defining at-rules mean, without reference to the minifier. -/

namespace Verif.Named

/-- The name defining rules that apply when the conditions `env` hold, in order (css-conditional: the rules of a group apply
where they stand). -/
def active {D S : Type} (env : Nat → Bool) : List (Rule D S) → List (Item D)
  | [] => []
  | .item i :: rs => i :: active env rs
  | .group g is :: rs => (if env g then is else []) ++ active env rs
  | _ :: rs => active env rs

/-- css-properties-values-api, "determining the registration": the last valid `@property` rule for the name. -/
def registered {D : Type} (valid : D → Bool) (n : Nat) : List (Item D) → Option D
  | [] => none
  | .property m d :: is =>
    match registered valid n is with
    | some x => some x
    | none => if m = n ∧ valid d = true then some d else none
  | .ffv _ _ :: is => registered valid n is

/-- The last declaration of `k` in a list of declarations. -/
def lastOf {ν : Type} (k : Nat) : List (Nat × ν) → Option ν
  | [] => none
  | (k', v) :: m =>
    match lastOf k m with
    | some x => some x
    | none => if k' = k then some v else none

/-- The last value of the name `nm` in the blocks of type `t`, in order. -/
def inBody (t nm : Nat) : List (Nat × List (Nat × List Int)) → Option (List Int)
  | [] => none
  | (t', ds) :: b =>
    match inBody t nm b with
    | some x => some x
    | none => if t' = t then lastOf nm ds else none

/-- css-fonts, `@font-feature-values`: "if multiple rules are defined for a given family, the resulting values definitions are the
union of the definitions contained within these rules", and the last definition of a name wins. -/
def featureValue {D : Type} (fam t nm : Nat) : List (Item D) → Option (List Int)
  | [] => none
  | .ffv fs b :: is =>
    match featureValue fam t nm is with
    | some x => some x
    | none => if fam ∈ fs then inBody t nm b else none
  | .property _ _ :: is => featureValue fam t nm is

/-- css-fonts: the value of a feature value declaration is one or more integers. -/
def validInts : List Tok → Option (List Int)
  | [] => none
  | [.int i] => some [i]
  | .int i :: ts => (validInts ts).map (i :: ·)
  | .bad :: _ => none

/-- Blocks with the invalid declarations dropped, as css-syntax says. -/
def validBlocks (blocks : List (Nat × List (Nat × List Tok))) : List (Nat × List (Nat × List Int)) :=
  blocks.map (fun b => (b.1, b.2.filterMap (fun d => (validInts d.2).map (fun v => (d.1, v)))))

end Verif.Named
