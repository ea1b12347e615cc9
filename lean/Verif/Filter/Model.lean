import Mathlib.Data.List.Basic
/-!
# Filters (`FilterList`, `/repo/src/properties/effects.rs`)

A component value between the brackets of a function is opaque, with the ways to read it as a length, an angle, a number or percentage, or a colour.
-/
namespace Verif.Filters

/-- The names of the functions; `other` is any other name. -/
inductive Fn
  | blur | brightness | contrast | grayscale | hueRotate | invert | opacity | saturate | sepia | dropShadow | other
deriving DecidableEq

/-- A component value of `filter`. -/
inductive Comp (T U : Type)
  | fn (f : Fn) (args : List T)
  | url (u : U)
  | none
  | other

/-- `DropShadow` (src/properties/effects.rs:229-238). -/
structure Shadow (L C : Type) where
  color : C
  x : L
  y : L
  blur : L

/-- `Filter` (src/properties/effects.rs:25-49): numbers `N`, lengths `L`, angles `A`, colours `C`, URLs `U`. -/
inductive Filter (N L A C U : Type)
  | blur (l : L)
  | brightness (n : N)
  | contrast (n : N)
  | grayscale (n : N)
  | hueRotate (a : A)
  | invert (n : N)
  | opacity (n : N)
  | saturate (n : N)
  | sepia (n : N)
  | dropShadow (s : Shadow L C)
  | url (u : U)

/-- `FilterList` (src/properties/effects.rs:323-329). -/
inductive FList (N L A C U : Type)
  | none
  | filters (fs : List (Filter N L A C U))

/-- Readers and printers of values: `Length::parse`, `NumberOrPercentage::parse`, `Angle::parse_with_unitless_zero` and `CssColor::parse` on one
component value, and the tests that the printer makes. -/
structure Env (T N L A C : Type) where
  len : T → Option L
  num : T → Option N
  ang : T → Option A
  col : T → Option C
  printLen : L → T
  printNum : N → T
  printAng : A → T
  printCol : C → T
  zeroLen : L
  one : N
  zeroAng : A
  current : C
  isZeroLen : L → Bool
  isOne : N → Bool
  isZeroAng : A → Bool
  isCurrent : C → Bool

variable {T N L A C U : Type}

/-- `try_parse(…).unwrap_or(d)` and then the end of the function. -/
def optional {X : Type} (read : T → Option X) (d : X) : List T → Option X
  | [] => some d
  | [t] => read t
  | _ => none

/-- The lengths of a shadow (src/properties/effects.rs:247-252). -/
def parseLengths (env : Env T N L A C) : List T → Option ((L × L × L) × List T)
  | a :: b :: r => match env.len a, env.len b with
    | some x, some y => match r with
      | c :: r' => match env.len c with
        | some z => some ((x, y, z), r')
        | none => some ((x, y, env.zeroLen), c :: r')
      | [] => some ((x, y, env.zeroLen), [])
    | _, _ => none
  | _ => none

/-- `CssColor::parse` at the front. -/
def parseColor (env : Env T N L A C) : List T → Option (C × List T)
  | t :: r => match env.col t with
    | some c => some (c, r)
    | none => none
  | [] => none

/-- The loop of `DropShadow::parse` (src/properties/effects.rs:245-268). A round that reads something fills one of the two variables, so that three
rounds are enough; the argument counts them down. -/
def shadowLoop (env : Env T N L A C) : Nat → Option C → Option (L × L × L) → List T → Option C × Option (L × L × L) × List T
  | 0, c, l, ts => (c, l, ts)
  | n + 1, c, l, ts =>
    match (if l.isNone then parseLengths env ts else none) with
    | some (v, r) => shadowLoop env n c (some v) r
    | none => match (if c.isNone then parseColor env ts else none) with
      | some (v, r) => shadowLoop env n (some v) l r
      | none => (c, l, ts)

/-- `DropShadow::parse` (src/properties/effects.rs:240-278), to the end of the function. -/
def parseShadow (env : Env T N L A C) (ts : List T) : Option (Shadow L C) :=
  match shadowLoop env 3 none none ts with
  | (c, some (x, y, b), []) => some ⟨c.getD env.current, x, y, b⟩
  | _ => none

/-- `Filter::parse` (src/properties/effects.rs:51-116). -/
def parseFilter (env : Env T N L A C) : Comp T U → Option (Filter N L A C U)
  | .url u => some (.url u)
  | .fn .blur ts => (optional env.len env.zeroLen ts).map .blur
  | .fn .brightness ts => (optional env.num env.one ts).map .brightness
  | .fn .contrast ts => (optional env.num env.one ts).map .contrast
  | .fn .grayscale ts => (optional env.num env.one ts).map .grayscale
  | .fn .hueRotate ts => (optional env.ang env.zeroAng ts).map .hueRotate
  | .fn .invert ts => (optional env.num env.one ts).map .invert
  | .fn .opacity ts => (optional env.num env.one ts).map .opacity
  | .fn .saturate ts => (optional env.num env.one ts).map .saturate
  | .fn .sepia ts => (optional env.num env.one ts).map .sepia
  | .fn .dropShadow ts => (parseShadow env ts).map .dropShadow
  | _ => none

/-- The loop of `FilterList::parse` (src/properties/effects.rs:337-340): filters at the front, and what is left. -/
def parseFilters (env : Env T N L A C) : List (Comp T U) → List (Filter N L A C U) × List (Comp T U)
  | [] => ([], [])
  | c :: r => match parseFilter env c with
    | some f => let x := parseFilters env r; (f :: x.1, x.2)
    | none => ([], c :: r)

/-- `FilterList::parse` (src/properties/effects.rs:331-344), to the end of the declaration. -/
def parse (env : Env T N L A C) : List (Comp T U) → Option (FList N L A C U)
  | .none :: r => match r with
    | [] => some .none
    | _ => none
  | cs => match parseFilters env cs with
    | (fs, []) => some (.filters fs)
    | _ => none

/-- `DropShadow::to_css` (src/properties/effects.rs:280-301). -/
def printShadow (env : Env T N L A C) (s : Shadow L C) : List T :=
  env.printLen s.x :: env.printLen s.y ::
    ((if env.isZeroLen s.blur then [] else [env.printLen s.blur]) ++ (if env.isCurrent s.color then [] else [env.printCol s.color]))

/-- An argument unless it is the default. -/
def optArg {X : Type} (print : X → T) (isDefault : X → Bool) (x : X) : List T := if isDefault x then [] else [print x]

/-- `Filter::to_css` (src/properties/effects.rs:118-202). -/
def printFilter (env : Env T N L A C) : Filter N L A C U → Comp T U
  | .blur l => .fn .blur (optArg env.printLen env.isZeroLen l)
  | .brightness n => .fn .brightness (optArg env.printNum env.isOne n)
  | .contrast n => .fn .contrast (optArg env.printNum env.isOne n)
  | .grayscale n => .fn .grayscale (optArg env.printNum env.isOne n)
  | .hueRotate a => .fn .hueRotate (optArg env.printAng env.isZeroAng a)
  | .invert n => .fn .invert (optArg env.printNum env.isOne n)
  | .opacity n => .fn .opacity (optArg env.printNum env.isOne n)
  | .saturate n => .fn .saturate (optArg env.printNum env.isOne n)
  | .sepia n => .fn .sepia (optArg env.printNum env.isOne n)
  | .dropShadow s => .fn .dropShadow (printShadow env s)
  | .url u => .url u

/-- `FilterList::to_css` (src/properties/effects.rs:346-367). -/
def print (env : Env T N L A C) : FList N L A C U → List (Comp T U)
  | .none => [.none]
  | .filters fs => fs.map (printFilter env)

end Verif.Filters
