import Verif.Container.Model
import Verif.Media.Spec
/-! Specification of container conditions, from the grammar of CSS conditional rules level 5 (`<container-condition>`,
`<style-query>`, `<scroll-state-query>`), with the three-valued logic of media queries. -/

namespace Verif.Container
open Verif.Media (K3)

/-- The three operations of a condition. -/
def Op.eval : Op → K3 → K3 → K3
  | .and => K3.and
  | .or => K3.or

mutual
/-- The value of a query of `style()` or `scroll-state()`, when the features have the values `v`. -/
def Sub.eval (v : Nat → K3) : Sub → K3
  | .leaf n => v n
  | .not q => (q.eval v).not
  | .op o qs => Sub.evalOp v o qs
/-- The value of queries joined by an operator. -/
def Sub.evalOp (v : Nat → K3) (o : Op) : List Sub → K3
  | [] => .u
  | [q] => q.eval v
  | q :: qs => o.eval (q.eval v) (Sub.evalOp v o qs)
end

mutual
/-- The value of a container condition. -/
def Con.eval (v : Nat → K3) : Con → K3
  | .feature n => v n
  | .not c => (c.eval v).not
  | .op o cs => Con.evalOp v o cs
  | .style q => q.eval v
  | .scroll q => q.eval v
/-- The value of conditions joined by an operator. -/
def Con.evalOp (v : Nat → K3) (o : Op) : List Con → K3
  | [] => .u
  | [c] => c.eval v
  | c :: cs => o.eval (c.eval v) (Con.evalOp v o cs)
end

/-- Where a condition stands: in the prelude of `@container` (or parentheses there), or in `style()` or `scroll-state()`. -/
inductive Place where
  | container | sub
  deriving DecidableEq

mutual
/-- The text is a condition of this place, with this value. -/
inductive Means (v : Nat → K3) : Place → List Tok → K3 → Prop where
  /-- `not <query-in-parens>` -/
  | not {k t m} : InParens v k t m → Means v k [.not, t] m.not
  /-- `<query-in-parens> [ and <query-in-parens> ]*`, and the same with `or` -/
  | ops {k o ts m} : Joined v o k ts m → Means v k ts m
/-- One or more `<query-in-parens>` with the same operator between them. -/
inductive Joined (v : Nat → K3) : Op → Place → List Tok → K3 → Prop where
  | one {o k t m} : InParens v k t m → Joined v o k [t] m
  | more {o k t m ts n} : InParens v k t m → Joined v o k ts n → Joined v o k (t :: .op o :: ts) (o.eval m n)
/-- `<query-in-parens>`. -/
inductive InParens (v : Nat → K3) : Place → Tok → K3 → Prop where
  | cond {k ts m} : Means v k ts m → InParens v k (.paren ts) m
  | feature {k n} : InParens v k (.paren [.atom n]) (v n)
  | style {ts m} : Means v .sub ts m → InParens v .container (.style ts) m
  | style1 {n} : InParens v .container (.style [.atom n]) (v n)
  | scroll {ts m} : Means v .sub ts m → InParens v .container (.scroll ts) m
  | scroll1 {n} : InParens v .container (.scroll [.atom n]) (v n)
end

mutual
/-- Operations have operands (the parser makes them with two or more, src/media_query.rs:751-766). -/
def Sub.WF : Sub → Prop
  | .leaf _ => True
  | .not q => q.WF
  | .op _ qs => qs ≠ [] ∧ Sub.WFs qs
/-- All of them. -/
def Sub.WFs : List Sub → Prop
  | [] => True
  | q :: qs => q.WF ∧ Sub.WFs qs
end

mutual
@[inherit_doc Sub.WF]
def Con.WF : Con → Prop
  | .feature _ => True
  | .not c => c.WF
  | .op _ cs => cs ≠ [] ∧ Con.WFs cs
  | .style q => q.WF
  | .scroll q => q.WF
/-- All of them. -/
def Con.WFs : List Con → Prop
  | [] => True
  | c :: cs => c.WF ∧ Con.WFs cs
end

end Verif.Container
