import Verif.Downlevel.Model
/-!
# Downlevelling: the meaning of selectors (specification)

The meaning uses only the type of selectors. A vendor prefix does not change what a pseudo means: it changes which
browsers understand it.
-/
namespace Verif.Downlevel.Spec
open Verif.Targets Verif.Downlevel

/-- A document: what combinators relate (an element to the elements on their left), which elements simple selectors,
pseudos, languages and directions hold of, and what functions such as `:nth-child(… of S)`, `::slotted(S)` or `:has(S)`
make of the meaning of their argument. The anchor is the element `:scope` stands for. -/
structure Doc (E : Type) where
  rel : Str → E → E → Prop
  atom : Str → E → E → Prop
  pseudo : Pseudo → E → Prop
  lang : Str → E → Prop
  rtl : E → Prop
  fn : Str → (E → E → Prop) → E → E → Prop
  has : (E → E → Prop) → E → E → Prop

variable {E : Type}

mutual
/-- Selectors 4: does the element `e` satisfy a simple selector? `:lang(a, b)` holds for one of the languages;
`:is()`, `:where()` and the prefixed `:-webkit-any()`/`:-moz-any()` for one of the arguments; `:not()` for none. -/
def Holds (d : Doc E) (a : E) : Comp → E → Prop
  | .ns s, e | .typ s, e | .other s, e => d.atom s a e
  | .pre k _, e => d.pseudo k e
  | .lang ls, e => ∃ l ∈ ls, d.lang l e
  | .dir rtl, e => if rtl then d.rtl e else ¬ d.rtl e
  | .is l, e | .wher l, e | .any _ l, e => AnyOf d a l e
  | .neg l, e => ¬ AnyOf d a l e
  | .has l, e => d.has (fun a x => AnyOf d a l x) a e
  | .fn s l, e => d.fn s (fun a x => AnyOf d a l x) a e
  | .comb _ _, _ => True
/-- A complex selector, in match order. -/
def Matches (d : Doc E) (a : E) : List Comp → E → Prop
  | [], _ => True
  | .comb _ k :: rest, e => ∃ x, d.rel k e x ∧ Matches d a rest x
  | c :: rest, e => Holds d a c e ∧ Matches d a rest e
/-- A selector list. -/
def AnyOf (d : Doc E) (a : E) : List (List Comp) → E → Prop
  | [], _ => False
  | s :: ss, e => Matches d a s e ∨ AnyOf d a ss e
end

/-- A specificity: ids, classes, types. -/
abbrev Weight := Nat × Nat × Nat

/-- Comparison of specificities, left to right. -/
def Weight.le (x y : Weight) : Bool :=
  x.1 < y.1 || (x.1 == y.1 && (x.2.1 < y.2.1 || (x.2.1 == y.2.1 && x.2.2 ≤ y.2.2)))

/-- The greater of two specificities. -/
def Weight.max (x y : Weight) : Weight := if Weight.le x y then y else x

/-- Sum of specificities. -/
def Weight.add (x y : Weight) : Weight := (x.1 + y.1, x.2.1 + y.2.1, x.2.2 + y.2.2)

/-- The specificity of the simple selectors without selector arguments. -/
structure Weights where
  atom : Str → Weight
  pseudo : Pseudo → Weight
  fn : Str → Weight → Weight

mutual
/-- Selectors 4, section 17: the specificity of a simple selector. -/
def weight (w : Weights) : Comp → Weight
  | .ns s | .typ s | .other s => w.atom s
  | .pre k _ => w.pseudo k
  | .lang _ | .dir _ => (0, 1, 0)
  | .is l | .any _ l | .neg l | .has l => weightMax w l
  | .wher _ => (0, 0, 0)
  | .fn s l => w.fn s (weightMax w l)
  | .comb _ _ => (0, 0, 0)
/-- The specificity of a complex selector. -/
def weightSel (w : Weights) : List Comp → Weight
  | [] => (0, 0, 0)
  | c :: cs => (weight w c).add (weightSel w cs)
/-- The greatest specificity in a selector list. -/
def weightMax (w : Weights) : List (List Comp) → Weight
  | [] => (0, 0, 0)
  | s :: ss => (weightSel w s).max (weightMax w ss)
end

/-- The direction of every element follows from its language, as `:dir()` is approximated: an element is right-to-left
if it is in one of the languages written from right to left. -/
def DirByLang (d : Doc E) : Prop := ∀ e, d.rtl e ↔ ∃ l ∈ rtlLangs, d.lang l e

mutual
/-- `:dir()` is used in the component, outside of functions like `::slotted()`. -/
def UsesDir : Comp → Prop
  | .dir _ => True
  | .is l | .neg l | .wher l | .any _ l | .has l => UsesDirList l
  | _ => False
/-- … in the selector. -/
def UsesDirSel : List Comp → Prop
  | [] => False
  | c :: cs => UsesDir c ∨ UsesDirSel cs
/-- … in the selector list. -/
def UsesDirList : List (List Comp) → Prop
  | [] => False
  | s :: ss => UsesDirSel s ∨ UsesDirList ss
end

mutual
/-- A pseudo `k` with the single prefix `p` is written somewhere in the component. -/
def Writes (k : Pseudo) (p : Prefix) : Comp → Prop
  | .pre k' q => k' = k ∧ q = p.set
  | .is l | .neg l | .wher l | .any _ l | .has l | .fn _ l => WritesList k p l
  | _ => False
/-- … in the selector. -/
def WritesSel (k : Pseudo) (p : Prefix) : List Comp → Prop
  | [] => False
  | c :: cs => Writes k p c ∨ WritesSel k p cs
/-- … in the selector list. -/
def WritesList (k : Pseudo) (p : Prefix) : List (List Comp) → Prop
  | [] => False
  | s :: ss => WritesSel k p s ∨ WritesList k p ss
end

mutual
/-- The pseudo `k` occurs in the component, outside of functions like `::slotted()`. -/
def Occurs (k : Pseudo) : Comp → Prop
  | .pre k' _ => k' = k
  | .is l | .neg l | .wher l | .any _ l | .has l => OccursList k l
  | _ => False
/-- … in the selector. -/
def OccursSel (k : Pseudo) : List Comp → Prop
  | [] => False
  | c :: cs => Occurs k c ∨ OccursSel k cs
/-- … in the selector list. -/
def OccursList (k : Pseudo) : List (List Comp) → Prop
  | [] => False
  | s :: ss => OccursSel k s ∨ OccursList k ss
end

/-- No vendor prefix. -/
def Std (q : PrefixSet) : Prop := q = Prefix.none.set

/-- A component without function arguments, whose prefix (if it is a prefixable pseudo) is a single one in `P`. -/
def Plain (P : Prefix → Prop) : Comp → Prop
  | .comb _ _ | .ns _ | .typ _ | .other _ => True
  | .pre _ q => ∃ p, P p ∧ q = p.set
  | _ => False

/-- The component with the prefix `p`. -/
def named (p : Prefix) : Comp → Comp
  | .pre k _ => .pre k p.set
  | c => c

mutual
/-- Every pseudo and every `:any()` of the component satisfies `P` (its prefix set is an argument). -/
def AllPre (P : PrefixSet → Prop) : Comp → Prop
  | .pre _ q => P q
  | .any q l => P q ∧ AllPreList P l
  | .is l | .neg l | .wher l | .has l | .fn _ l => AllPreList P l
  | _ => True
/-- … of the selector. -/
def AllPreSel (P : PrefixSet → Prop) : List Comp → Prop
  | [] => True
  | c :: cs => AllPre P c ∧ AllPreSel P cs
/-- … of the selector list. -/
def AllPreList (P : PrefixSet → Prop) : List (List Comp) → Prop
  | [] => True
  | s :: ss => AllPreSel P s ∧ AllPreList P ss
end

/-- A compound selector: no combinator like ` `, `>`, `+`, `~`. -/
def Compound (s : Sel) : Prop := ∀ k, Comp.comb true k ∉ s

mutual
/-- The arguments of every `:-webkit-any()` and `:-moz-any()` are compound selectors (browsers reject others). -/
def AnyValid : Comp → Prop
  | .any _ l => (∀ s ∈ l, Compound s) ∧ AnyValidList l
  | .is l | .neg l | .wher l | .has l | .fn _ l => AnyValidList l
  | _ => True
/-- … in the selector. -/
def AnyValidSel : List Comp → Prop
  | [] => True
  | c :: cs => AnyValid c ∧ AnyValidSel cs
/-- … in the selector list. -/
def AnyValidList : List (List Comp) → Prop
  | [] => True
  | s :: ss => AnyValidSel s ∧ AnyValidList ss
end

mutual
/-- The arguments of every `:is()`, `:not()` and `:any()` are compound selectors. -/
def ArgsCompound : Comp → Prop
  | .any _ l | .is l | .neg l => (∀ s ∈ l, Compound s) ∧ ArgsCompoundList l
  | .wher l | .has l | .fn _ l => ArgsCompoundList l
  | _ => True
/-- … in the selector. -/
def ArgsCompoundSel : List Comp → Prop
  | [] => True
  | c :: cs => ArgsCompound c ∧ ArgsCompoundSel cs
/-- … in the selector list. -/
def ArgsCompoundList : List (List Comp) → Prop
  | [] => True
  | s :: ss => ArgsCompoundSel s ∧ ArgsCompoundList ss
end

/-- A type selector stands at the start of its compound selector (after namespaces). -/
def TypeFirst (start : Bool) : Sel → Prop
  | [] => True
  | .comb _ _ :: rest => TypeFirst true rest
  | .typ _ :: rest => start = true ∧ TypeFirst false rest
  | .ns _ :: rest => TypeFirst start rest
  | _ :: rest => TypeFirst false rest

mutual
/-- In all arguments of the component, type selectors come first. -/
def TypesFirst : Comp → Prop
  | .any _ l | .is l | .neg l | .wher l | .has l | .fn _ l => TypesFirstList l
  | _ => True
/-- In all arguments in the selector. -/
def TypesFirstArgs : List Comp → Prop
  | [] => True
  | c :: cs => TypesFirst c ∧ TypesFirstArgs cs
/-- In the selectors of the list and in all their arguments. -/
def TypesFirstList : List (List Comp) → Prop
  | [] => True
  | s :: ss => (TypeFirst true s ∧ TypesFirstArgs s) ∧ TypesFirstList ss
end

mutual
/-- No argument of `:is()` starts with two namespaces. -/
def OneNs : Comp → Prop
  | .any _ l | .is l | .neg l | .wher l | .has l | .fn _ l => OneNsList l
  | _ => True
/-- … in the selector. -/
def OneNsSel : List Comp → Prop
  | [] => True
  | c :: cs => OneNs c ∧ OneNsSel cs
/-- … in the selector list. -/
def OneNsList : List (List Comp) → Prop
  | [] => True
  | s :: ss => ((∀ a b r, s ≠ .ns a :: .ns b :: r) ∧ OneNsSel s) ∧ OneNsList ss
end

end Verif.Downlevel.Spec
