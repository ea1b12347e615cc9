import Verif.Fallback.Spec
import Verif.Fallback.TokenModel
/-!
# What browsers do with token lists and `@supports` rules
-/
namespace Verif.Fallback
open Verif.Targets

mutual
/-- A browser understands the colors of a token. -/
def Tok.Understood {V : Type} (b : Browser) (v : Nat) : Tok V → Prop
  | .color c => Understands b v c
  | .func _ args => TokUnderstood b v args
  | .var _ fb => TokUnderstood b v fb
  | .env _ fb => TokUnderstood b v fb
  | .unresolved l d => TokUnderstood b v l ∧ TokUnderstood b v d
  | .other _ => True
/-- A browser understands all colors of a token list, at any depth. -/
def TokUnderstood {V : Type} (b : Browser) (v : Nat) : List (Tok V) → Prop
  | [] => True
  | x :: xs => x.Understood b v ∧ TokUnderstood b v xs
end

mutual
/-- No token is an unresolved color. -/
def Tok.Resolved {V : Type} : Tok V → Prop
  | .color _ => True
  | .func _ args => TokResolved args
  | .var _ fb => TokResolved fb
  | .env _ fb => TokResolved fb
  | .unresolved _ _ => False
  | .other _ => True
/-- No unresolved color occurs at any depth. -/
def TokResolved {V : Type} : List (Tok V) → Prop
  | [] => True
  | x :: xs => x.Resolved ∧ TokResolved xs
end

mutual
/-- The color values of a token have no keywords. -/
def Tok.Concrete {V : Type} : Tok V → Prop
  | .color c => c.Concrete
  | .func _ args => TokConcrete args
  | .var _ fb => TokConcrete fb
  | .env _ fb => TokConcrete fb
  | .unresolved _ _ => True
  | .other _ => True
/-- The color values of a token list have no keywords. (A color keyword such as `currentColor` on its own is a plain token; it occurs in a color value only within `light-dark()`.) -/
def TokConcrete {V : Type} : List (Tok V) → Prop
  | [] => True
  | x :: xs => x.Concrete ∧ TokConcrete xs
end

mutual
/-- `R` holds for the colors at the same places of two tokens, which are equal otherwise. -/
def Tok.Rel {V : Type} (R : Color V → Color V → Prop) : Tok V → Tok V → Prop
  | .color c, .color c' => R c c'
  | .func n args, .func n' args' => n = n' ∧ TokRel R args args'
  | .var n fb, .var n' fb' => n = n' ∧ TokRel R fb fb'
  | .env n fb, .env n' fb' => n = n' ∧ TokRel R fb fb'
  | .unresolved l d, .unresolved l' d' => l = l' ∧ d = d'
  | .other s, .other s' => s = s'
  | _, _ => False
/-- The same for token lists. -/
def TokRel {V : Type} (R : Color V → Color V → Prop) : List (Tok V) → List (Tok V) → Prop
  | [], [] => True
  | x :: xs, y :: ys => x.Rel R y ∧ TokRel R xs ys
  | _, _ => False
end

mutual
/-- All color spaces of a token satisfy `P`. -/
def Tok.AllSpaces {V : Type} (P : Space → Prop) : Tok V → Prop
  | .color c => c.AllSpaces P
  | .func _ args => TokAllSpaces P args
  | .var _ fb => TokAllSpaces P fb
  | .env _ fb => TokAllSpaces P fb
  | .unresolved _ _ => True
  | .other _ => True
/-- All color spaces of a token list satisfy `P`. -/
def TokAllSpaces {V : Type} (P : Space → Prop) : List (Tok V) → Prop
  | [] => True
  | x :: xs => x.AllSpaces P ∧ TokAllSpaces P xs
/-- All color spaces of a color satisfy `P`. -/
def Color.AllSpaces {V : Type} (P : Space → Prop) : Color V → Prop
  | .keyword _ => True
  | .leaf s _ => P s
  | .lightDark l d => l.AllSpaces P ∧ d.AllSpaces P
end

/-- The condition `(color: color(display-p3 0 0 0))` or `(color: lab(0% 0 0))` of an `@supports` rule holds in a browser. -/
def Holds (b : Browser) (v : Nat) : Kind → Prop
  | .rgb => True
  | .p3 => Supports b v .p3Colors
  | .lab => Supports b v .labColors

/-- The value that a browser uses: the one of the last `@supports` rule whose condition holds, else the one of the plain declaration, which comes first. -/
inductive Used {α : Type} (b : Browser) (v : Nat) (base : α) : List (Kind × α) → α → Prop
  | base : Used b v base [] base
  | yes {k : Kind} {x : α} {rules : List (Kind × α)} : Holds b v k → Used b v base (rules ++ [(k, x)]) x
  | no {k : Kind} {x y : α} {rules : List (Kind × α)} : ¬ Holds b v k → Used b v base rules y → Used b v base (rules ++ [(k, x)]) y

/-- A color that is not changed, or converted to a color space that has room for it: Lab for any color, Display P3 for colors of the sRGB and P3 gamuts. -/
inductive Exact {V : Type} (conv : Kind → Space → V → V) : Color V → Color V → Prop
  | same {c : Color V} : Exact conv c c
  | lab {s : Space} {v : V} : Exact conv (.leaf s v) (.leaf .lab (conv .lab s v))
  | p3 {s : Space} {v : V} : s = .rgba ∨ s = .float ∨ s = .p3 → Exact conv (.leaf s v) (.leaf .p3 (conv .p3 s v))
  | lightDark {l d l' d' : Color V} : Exact conv l l' → Exact conv d d' → Exact conv (.lightDark l d) (.lightDark l' d')

end Verif.Fallback
