import Verif.Common.Chars
/-! Substitution of variables in unparsed values (src/properties/custom.rs:1126-1172). -/
namespace Verif.Vars

/-- src/properties/custom.rs:219-247 `TokenOrValue`. A `leaf` is a token or value without token lists inside; `wrap` is a function, an
`env()` with a fallback or a color with unresolved alpha (1334-1339, 1428-1437, 1460-1484), with everything but its token list in the label;
`two` is `light-dark()` (1487-1492). -/
inductive Val where
  | leaf (s : Str)
  | var (name : Str) (fallback : Option (List Val))
  | wrap (label : Str) (args : List Val)
  | two (label : Str) (a b : List Val)
deriving Repr

/-- The `HashMap<&str, TokenList>` of values. -/
abbrev Vars := Str → Option (List Val)

mutual
/-- src/properties/custom.rs:1149-1171 `VarInliner::visit_token_list`. The list is the part of the tokens from position `i` on, `seen` the set.
The loop need not end, so it runs with fuel; `none` says that the fuel was used up. -/
def inlineList (vars : Vars) : Nat → List Str → List Val → Option (List Val)
  | 0, _, _ => none
  | _ + 1, _, [] => some []
  | n + 1, seen, t :: rest =>
    match inlineToken vars n t with
    | none => none
    | some (.var name fallback) =>
      match vars name, fallback with
      | some value, _ =>
        if name ∈ seen then (inlineList vars n [] rest).map (.var name fallback :: ·)
        else inlineList vars n (name :: seen) (value ++ rest)
      | none, some f =>
        if name ∈ seen then (inlineList vars n [] rest).map (.var name fallback :: ·)
        else inlineList vars n (name :: seen) (f ++ rest)
      | none, none => (inlineList vars n [] rest).map (.var name fallback :: ·)
    | some t' => (inlineList vars n [] rest).map (t' :: ·)

/-- src/properties/custom.rs:1154 `token.visit(self)`: the token lists inside of a token are visited, with a new set each (derive/src/visit.rs:117, 155). -/
def inlineToken (vars : Vars) : Nat → Val → Option Val
  | 0, _ => none
  | _ + 1, .leaf s => some (.leaf s)
  | _ + 1, .var name none => some (.var name none)
  | n + 1, .var name (some f) => (inlineList vars n [] f).map fun f' => .var name (some f')
  | n + 1, .wrap label args => (inlineList vars n [] args).map (.wrap label)
  | n + 1, .two label a b =>
    match inlineList vars n [] a, inlineList vars n [] b with
    | some a', some b' => some (.two label a' b')
    | _, _ => none
end

/-- src/properties/custom.rs:1132-1134 `TokenList::substitute_variables`, with fuel. -/
def substituteVariables (vars : Vars) (fuel : Nat) (tokens : List Val) : Option (List Val) := inlineList vars fuel [] tokens

end Verif.Vars
