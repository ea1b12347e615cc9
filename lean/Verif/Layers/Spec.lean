import Verif.Layers.Model
/-! What cascade layers mean: which layers a style sheet declares, in which order, and which rules are in which layer.
(CSS Cascading and Inheritance Level 5, §6.4.) -/
namespace Verif.Layers
variable {N G O : Type}

/-- A component of the full name of a layer: an identifier, or an anonymous layer, known by its place in the source. -/
inductive Comp (N : Type)
  | named (n : N)
  | anon (loc : Nat)
deriving DecidableEq, Repr

/-- The components of a name. -/
def Name.comps (n : Name N) : List (Comp N) := .named n.head :: n.tail.map .named

/-- The full names of the layers that are declared by a dotted name below `pre`: `a.b` declares `a` and then `a.b`. -/
def prefixes (pre : List (Comp N)) : List (Comp N) → List (List (Comp N))
  | [] => []
  | c :: cs => (pre ++ [c]) :: prefixes (pre ++ [c]) cs

/-- A style rule (or other rule with an effect) with the full name of its layer and the conditions it is in. -/
structure Leaf (N G O : Type) where
  layer : List (Comp N)
  conds : List G
  rule : O
deriving DecidableEq, Repr

/-- The environment: which rules have no effect, and the layers that an imported style sheet declares. -/
structure Env (N O : Type) where
  drop : O → Bool
  inside : O → List (List (Comp N))

mutual
/-- The rules in effect, with their layers. -/
def leaves (e : Env N O) (pre : List (Comp N)) (gs : List G) : Rule N G O → List (Leaf N G O)
  | .block (some n) _ rs => leavesL e (pre ++ n.comps) gs rs
  | .block none loc rs => leavesL e (pre ++ [.anon loc]) gs rs
  | .stmt _ _ => []
  | .imp none _ o => [⟨pre, gs, o⟩]
  | .imp (some none) loc o => [⟨pre ++ [.anon loc], gs, o⟩]
  | .imp (some (some n)) _ o => [⟨pre ++ n.comps, gs, o⟩]
  | .group g rs => leavesL e pre (g :: gs) rs
  | .other o => if e.drop o then [] else [⟨pre, gs, o⟩]
  | .ignored => []
def leavesL (e : Env N O) (pre : List (Comp N)) (gs : List G) : List (Rule N G O) → List (Leaf N G O)
  | [] => []
  | r :: rs => leaves e pre gs r ++ leavesL e pre gs rs
end

mutual
/-- The full names of the layers declared, in the order in which they are (first or again) declared. An anonymous layer in which
there is nothing is left out, since nothing can be added to it. -/
def decls (e : Env N O) (pre : List (Comp N)) : Rule N G O → List (List (Comp N))
  | .block (some n) _ rs => prefixes pre n.comps ++ declsL e (pre ++ n.comps) rs
  | .block none loc rs =>
    if (declsL e (pre ++ [.anon loc]) rs).isEmpty && (leavesL e (pre ++ [.anon loc]) [] rs).isEmpty then []
    else (pre ++ [.anon loc]) :: declsL e (pre ++ [.anon loc]) rs
  | .stmt names _ => names.flatMap fun n => prefixes pre n.comps
  | .imp none _ o => (e.inside o).map (pre ++ ·)
  | .imp (some none) loc o => (pre ++ [.anon loc]) :: (e.inside o).map (pre ++ [.anon loc] ++ ·)
  | .imp (some (some n)) _ o => prefixes pre n.comps ++ (e.inside o).map (pre ++ n.comps ++ ·)
  | .group _ rs => declsL e pre rs
  | .other _ => []
  | .ignored => []
def declsL (e : Env N O) (pre : List (Comp N)) : List (Rule N G O) → List (List (Comp N))
  | [] => []
  | r :: rs => decls e pre r ++ declsL e pre rs
end

/-- The first occurrences of the elements of a list. -/
def firsts {α : Type} [DecidableEq α] : List α → List α
  | [] => []
  | x :: xs => x :: (firsts xs).filter (· ≠ x)

/-- The layers directly inside layer `p` (`[]` is the style sheet), in the order of their first declarations, which is the order of
the cascade. -/
def layerOrder [DecidableEq N] (e : Env N O) (p : List (Comp N)) (rs : List (Rule N G O)) : List (List (Comp N)) :=
  firsts ((declsL e [] rs).filter fun x => decide (x ≠ [] ∧ x.dropLast = p))

/-- The rules in the layer `p`, in order. -/
def rulesIn [DecidableEq N] (e : Env N O) (p : List (Comp N)) (rs : List (Rule N G O)) : List (Leaf N G O) :=
  (leavesL e [] [] rs).filter fun x => decide (x.layer = p)
end Verif.Layers
