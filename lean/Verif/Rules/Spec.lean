import Verif.Rules.Model
import Mathlib.Data.Prod.Lex
import Mathlib.Order.BooleanAlgebra.Defs
/-! The cascade: for one element and one longhand property, every rule that matches gives a candidate value with its importance
and specificity; the greatest wins, and among equals the last. -/
namespace Verif.Rules

/-- A candidate: importance and specificity (ordered lexicographically), and the value. -/
structure Cand (R : Type) where
  imp : Bool
  spec : Nat
  val : R
deriving DecidableEq, Repr

/-- `a` has no higher precedence than `b`, order of appearance aside. -/
def Cand.le {R : Type} (a b : Cand R) : Bool :=
  match a.imp, b.imp with
  | false, true => true
  | true, false => false
  | _, _ => decide (a.spec ≤ b.spec)

/-- The winner of what comes first and what comes later. -/
def pick {R : Type} : Option (Cand R) → Option (Cand R) → Option (Cand R)
  | none, b => b
  | a, none => a
  | some a, some b => if a.le b then some b else some a

/-- A browser looking at one element and one longhand in one document. -/
structure Env (S I V G O R : Type) where
  /-- The specificity of a selector, if it matches the element; the selector lists of the enclosing style rules are given,
  innermost first. -/
  one : List (List S) → S → Option Nat
  /-- Does the declaration of this property set the longhand? -/
  covers : I → Bool
  /-- The value it gives the longhand. -/
  val : I → V → R
  /-- Is the condition of a group rule true? -/
  holds : G → Bool
  /-- The candidate of a rule the model does not look into. -/
  other : List (List S) → O → Option (Cand R)

variable {S I V G O E R : Type}

/-- The greatest of two specificities. -/
def maxSpec : Option Nat → Option Nat → Option Nat
  | none, b => b
  | a, none => a
  | some a, some b => some (max a b)

/-- The specificity with which a selector list matches: that of the most specific selector that matches. -/
def specOf (e : Env S I V G O R) (path : List (List S)) : List S → Option Nat
  | [] => none
  | s :: ss => maxSpec (e.one path s) (specOf e path ss)

/-- The last value given to the longhand. -/
def lastVal (e : Env S I V G O R) (ds : List (I × V)) : Option R :=
  (ds.reverse.find? fun d => e.covers d.1).map fun d => e.val d.1 d.2

/-- The value a block gives to the longhand, and whether it is important. -/
def blockVal (e : Env S I V G O R) (b : Block I V) : Option (Bool × R) :=
  match lastVal e b.imps with
  | some v => some (true, v)
  | none => (lastVal e b.decls).map (false, ·)

/-- The candidate of declarations that apply with a specificity. -/
def candOf (spec : Option Nat) (v : Option (Bool × R)) : Option (Cand R) :=
  match spec, v with
  | some n, some (i, v) => some ⟨i, n, v⟩
  | _, _ => none

/-- The specificity of nested declarations: that of the enclosing rule. -/
def pathSpec (e : Env S I V G O R) : List (List S) → Option Nat
  | [] => none
  | ss :: path => specOf e path ss

mutual
/-- The winning candidate of a rule. -/
def mean (e : Env S I V G O R) (path : List (List S)) : Rule S I V G O → Option (Cand R)
  | .style sels b rules _ => pick (candOf (specOf e path sels) (blockVal e b)) (meanList e (sels :: path) rules)
  | .group g rules => if e.holds g then meanList e path rules else none
  | .decls b => candOf (pathSpec e path) (blockVal e b)
  | .other o => e.other path o
  | .ignored => none
/-- The winning candidate of a list of rules. -/
def meanList (e : Env S I V G O R) (path : List (List S)) : List (Rule S I V G O) → Option (Cand R)
  | [] => none
  | r :: rs => pick (mean e path r) (meanList e path rs)
end

/-- What is assumed of the parts that are not modelled here. -/
structure Laws (c : Cfg S I V G O E) (e : Env S I V G O R) : Prop where
  /-- The declaration minifier keeps the value of the longhand; what it takes out of the block is in the additional rules, which are
  placed after it. (Proved for the modelled handlers when nothing is taken out: `Verif.Handler.C21_winner_partial`.) -/
  minB : ∀ path sels b, pick (candOf (specOf e path sels) (blockVal e (c.minB b).1))
      (pick (meanList e path (c.logical sels (c.minB b).2)) (meanList e path (c.supports sels (c.minB b).2))) =
    candOf (specOf e path sels) (blockVal e b)
  /-- So does minifying a merged block. -/
  minM : ∀ b, blockVal e (c.minM b) = blockVal e b
  /-- An empty selector list matches nothing, and neither do the rules nested in it. -/
  noSel : ∀ path rules, meanList e ([] :: path) rules = none
  /-- No entries, no rules. -/
  logicalNil : ∀ sels, c.logical sels [] = []
  supportsNil : ∀ sels, c.supports sels [] = []
  /-- `:is()` of selectors with the same specificity and without pseudo-elements is the same as the list. -/
  isSel : ∀ path sels, c.wrapOk sels = true → e.one path (c.isSel sels) = specOf e path sels
  /-- Also for the rules nested in it. -/
  isSelNested : ∀ path sels rules, c.wrapOk sels = true →
    meanList e ([c.isSel sels] :: path) rules = meanList e (sels :: path) rules
  /-- The transformations of conditions keep their meaning (`Verif.Media`, `Verif.Supports`). -/
  trans : ∀ g, e.holds (c.trans g) = e.holds g
  never : ∀ g, c.never g = true → e.holds g = false
  /-- A `HashMap` finds an entry that matches, if there is one. -/
  choose : ∀ ks k, c.choose ks = some k → k ∈ ks
end Verif.Rules
