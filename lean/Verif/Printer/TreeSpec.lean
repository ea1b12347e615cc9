import Verif.Printer.Tree
/-!
Specification: how a browser reads the printed tokens back, and what a list of rules means: a sequence of declarations, each with the
at-rules it is in and the chain of selectors it is nested in.
-/
namespace Verif.Printer

/-- What a block contains. -/
inductive Item
  | decl (d : Nat) (important : Bool)
  | block (p : Prelude) (body : List Item)
  | stmt (n : Nat)
deriving Repr

/-- The state of the reader: the open blocks with what precedes them, the contents of the current block, and whether a declaration has not
been ended yet (then only a semicolon or the end of the block may follow). -/
structure Reader where
  stack : List (Prelude × List Item) := []
  cur : List Item := []
  pending : Bool := false

/-- CSS Syntax 3, "consume a block's contents": one token; `none` if a declaration runs into the next rule or declaration, or a block is
closed that is not open. -/
def Reader.step (r : Reader) : Tok → Option Reader
  | .decl d i => if r.pending then none else some { r with cur := r.cur ++ [.decl d i], pending := true }
  | .semi => some { r with pending := false }
  | .open p => if r.pending then none else some { stack := (p, r.cur) :: r.stack, cur := [], pending := false }
  | .close =>
    match r.stack with
    | [] => none
    | (p, prev) :: st => some { stack := st, cur := prev ++ [.block p r.cur], pending := false }
  | .stmt n => if r.pending then none else some { r with cur := r.cur ++ [.stmt n] }

def Reader.run (r : Reader) : List Tok → Option Reader
  | [] => some r
  | t :: ts => (r.step t).bind (·.run ts)

/-- Reading a whole style sheet: every block must be closed. -/
def read (ts : List Tok) : Option (List Item) :=
  match Reader.run {} ts with
  | some r => if r.stack.isEmpty then some r.cur else none
  | none => none

/-- An enclosing at-rule; `@scope` is given together with the selectors its limits are relative to. -/
inductive At
  | at (n : Nat)
  | scope (n : Nat) (chain : List Nat)
deriving DecidableEq, Repr

/-- One effect of a style sheet: a declaration with the at-rules and the selectors it is under (outermost first) and the vendor prefix
the selectors are written with, or a statement. -/
inductive Effect
  | decl (ats : List At) (chain : List Nat) (vp : Nat) (d : Nat) (important : Bool)
  | stmt (ats : List At) (n : Nat)
deriving DecidableEq, Repr

/-- The effect of a declaration; without a selector there is nothing to write with a vendor prefix. -/
def declEffect (ats : List At) (chain : List Nat) (vp : Nat) (d : Nat) (important : Bool) : Effect :=
  .decl ats chain (if chain.isEmpty then 0 else vp) d important

mutual
/-- The effects of what was read, in order. A selector printed with its context `ctx` says the same as `ctx` nested outside it. A block
with a query that always matches is no condition. -/
def itemEffects (ats : List At) (chain : List Nat) (vp : Nat) : Item → List Effect
  | .decl d i => [declEffect ats chain vp d i]
  | .stmt n => [.stmt ats n]
  | .block (.sel ctx s v) body => itemsEffects ats (chain ++ (ctx ++ [s])) v body
  | .block (.at n) body => itemsEffects (ats ++ [.at n]) chain vp body
  | .block .all body => itemsEffects ats chain vp body
  | .block (.scope n ctx) body => itemsEffects (ats ++ [.scope n (chain ++ ctx)]) [] vp body
  | .block (.leaf n) body => itemsEffects (ats ++ [.at n]) [] 0 body
def itemsEffects (ats : List At) (chain : List Nat) (vp : Nat) : List Item → List Effect
  | [] => []
  | i :: is => itemEffects ats chain vp i ++ itemsEffects ats chain vp is
end

/-- The declarations of a block as effects. -/
def declEffects (ats : List At) (chain : List Nat) (vp : Nat) (ds : Decls) : List Effect :=
  ds.filterMap fun (d, i) => d.map fun d => declEffect ats chain vp d i

mutual
/-- The effects of a rule, in order: a style rule's own declarations come before its nested rules (CSS Nesting 1, 3), it is repeated for
each of its vendor prefixes, and its nested rules are under its selector. -/
def ruleEffects (removeImports : Bool) (ats : List At) (chain : List Nat) (vp : Nat) : Rule → List Effect
  | .style s vps ds rs =>
    (if vps.isEmpty then [vp] else vps).flatMap fun v =>
      declEffects ats (chain ++ [s]) v ds ++ rulesEffects removeImports ats (chain ++ [s]) v rs
  | .nested ds => declEffects ats chain vp ds
  | .block n rs => rulesEffects removeImports (ats ++ [.at n]) chain vp rs
  | .mediaAll rs => rulesEffects removeImports ats chain vp rs
  | .scope n rs => rulesEffects removeImports (ats ++ [.scope n chain]) [] vp rs
  | .stmt n _ => [.stmt ats n]
  | .importRule n => if removeImports then [] else [.stmt ats n]
  | .font n ps => ps.map fun d => .decl (ats ++ [.at n]) [] 0 d false
  | .declBlock n ds => declEffects (ats ++ [.at n]) [] 0 ds
  | .page n ds ms =>
    ds.map (fun d => .decl (ats ++ [.at n]) [] 0 d.1 d.2) ++ ms.flatMap fun m => declEffects (ats ++ [.at n, .at m.1]) [] 0 m.2
  | .keyframes names frames => names.flatMap fun n => frames.flatMap fun f => declEffects (ats ++ [.at n, .at f.1]) [] 0 f.2
  | .ignored => []
def rulesEffects (removeImports : Bool) (ats : List At) (chain : List Nat) (vp : Nat) : List Rule → List Effect
  | [] => []
  | r :: rs => ruleEffects removeImports ats chain vp r ++ rulesEffects removeImports ats chain vp rs
end

mutual
/-- The deepest nesting of blocks in a rule. -/
def depth : Rule → Nat
  | .style _ _ _ rs => depths rs + 1
  | .nested _ => 1
  | .block _ rs => depths rs + 1
  | .mediaAll rs => depths rs + 1
  | .scope _ rs => depths rs + 1
  | .stmt _ _ => 0
  | .importRule _ => 0
  | .font _ _ => 1
  | .declBlock _ _ => 1
  | .page _ _ _ => 2
  | .keyframes _ _ => 2
  | .ignored => 0
def depths : List Rule → Nat
  | [] => 0
  | r :: rs => max (depth r) (depths rs)
end

/-! ### The trees for which the output is right -/

mutual
/-- No style rule has vendor prefixes. -/
def noVp : Rule → Bool
  | .style _ vps _ rs => vps.isEmpty && noVps rs
  | .block _ rs => noVps rs
  | .mediaAll rs => noVps rs
  | .scope _ rs => noVps rs
  | _ => true
def noVps : List Rule → Bool
  | [] => true
  | r :: rs => noVp r && noVps rs
end

mutual
/-- Style rules with vendor prefixes are not nested in each other. -/
def vpOk : Rule → Bool
  | .style _ vps _ rs => if vps.isEmpty then vpOks rs else noVps rs
  | .block _ rs => vpOks rs
  | .mediaAll rs => vpOks rs
  | .scope _ rs => vpOks rs
  | _ => true
def vpOks : List Rule → Bool
  | [] => true
  | r :: rs => vpOk r && vpOks rs
end

mutual
/-- No rule is a `@media` rule that always matches. -/
def noAll : Rule → Bool
  | .style _ _ _ rs => noAlls rs
  | .block _ rs => noAlls rs
  | .mediaAll _ => false
  | .scope _ rs => noAlls rs
  | _ => true
def noAlls : List Rule → Bool
  | [] => true
  | r :: rs => noAll r && noAlls rs
end

mutual
/-- Declarations are in a style rule (possibly through conditional rules), not only in a `@scope`. -/
def inStyle (inside : Bool) : Rule → Bool
  | .style _ _ _ rs => inStyles true rs
  | .nested _ => inside
  | .block _ rs => inStyles inside rs
  | .mediaAll rs => inStyles inside rs
  | .scope _ rs => inStyles false rs
  | _ => true
def inStyles (inside : Bool) : List Rule → Bool
  | [] => true
  | r :: rs => inStyle inside r && inStyles inside rs
end

end Verif.Printer
