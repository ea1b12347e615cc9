import Verif.SelParse.Names
/-!
# What selectors are (Selectors 4, CSS Nesting, CSS Scoping, CSS Pseudo-elements), written without the parser

`ReadsC`, `ReadsS` and `ReadsP` say how a component, a complex selector and a list of selectors are written, and `Allowed` where a component
may stand, given the components before it. `Dialect` has the points in which the code differs from CSS.
-/
namespace Verif.SelParse

/-- The points in which the parser of the code differs from CSS. -/
structure Dialect where
  /-- pseudo-elements are allowed in `:has()` -/
  elemInHas : Bool
  /-- `:has()` is allowed in `:has()` -/
  hasInHas : Bool
  /-- combinators are allowed in `:is()` and other functions in the argument of `:host()` and `::slotted()` -/
  combInHost : Bool
  /-- `:nth-child(An+B of …)` ignores invalid selectors -/
  nthForgiving : Bool
  /-- `:has()` ignores invalid selectors -/
  hasForgiving : Bool
  /-- `&` may be followed by the beginning of a qualified name at the end of a selector, as in `&a|` -/
  cutName : Bool
  /-- `::-ms-input-placeholder` is `::-moz-placeholder` -/
  msIsMoz : Bool
  /-- `&` and `:has()` are allowed after pseudo-elements -/
  afterElem : Bool

/-- CSS. -/
def css : Dialect := ⟨false, false, true, false, false, false, false, false⟩
/-- The parser of the code. -/
def code : Dialect := ⟨true, true, false, true, true, true, true, true⟩

/-- Where a selector stands. -/
structure Cx where
  /-- pseudo-elements are allowed -/
  elems : Bool
  /-- combinators are allowed -/
  combs : Bool
  /-- in `:has()` -/
  inHas : Bool

/-- A selector that is not in another one. -/
def Cx.top : Cx := ⟨true, true, false⟩

/-- In a function with selectors as argument: no pseudo-elements. -/
def Cx.inner (d : Dialect) (cx : Cx) : Cx := ⟨false, cx.combs || d.combInHost, cx.inHas⟩
/-- In `:has()`. -/
def Cx.has (d : Dialect) (cx : Cx) : Cx := ⟨cx.elems && d.elemInHas, cx.combs || d.combInHost, true⟩
/-- In `:host()` and `::slotted()`: one compound selector. -/
def Cx.host (cx : Cx) : Cx := ⟨false, false, cx.inHas⟩

/-- Only white space. -/
def AllWs (ts : List Tok) : Prop := ∀ t ∈ ts, t = .ws

/-- A pseudo-element whose name is known. -/
def Comp.isElem : Comp → Bool
  | .pelem n => knownElems.contains n
  | .pelemFn n _ => knownElemFns.contains n
  | .cue _ _ => true
  | _ => false
/-- `::part()`. -/
def Comp.isPart : Comp → Bool
  | .part _ => true
  | _ => false
/-- `::slotted()`. -/
def Comp.isSlotted : Comp → Bool
  | .slotted _ => true
  | _ => false
/-- A part of a scroll bar. -/
def Comp.isScrollbar : Comp → Bool
  | .pelem n => scrollbarElems.contains n
  | _ => false
/-- A pseudo-element of a view transition with a name. -/
def Comp.isViewTransition : Comp → Bool
  | .pelemFn n _ => viewTransitionFns.contains n
  | _ => false
/-- A combinator. -/
def Comp.isComb : Comp → Bool
  | .comb _ => true
  | _ => false

/-- No pseudo-element of a known name. -/
def NoElem (before : List Comp) : Prop := ∀ c ∈ before, c.isElem = false
/-- No `::slotted()`. -/
def NoSlotted (before : List Comp) : Prop := ∀ c ∈ before, c.isSlotted = false
/-- Nothing that stands for something other than an element of the tree. -/
def NoPseudo (before : List Comp) : Prop := NoElem before ∧ NoSlotted before ∧ ∀ c ∈ before, c.isPart = false

/-- A type selector is the first of its compound selector, or the second after `&`. The components before are given from right to left. -/
def TypePlace : List Comp → Prop
  | [] => True
  | .comb _ :: _ => True
  | [.nesting] => True
  | .nesting :: .comb _ :: _ => True
  | _ => False

/-- A pseudo-class `n` may stand after `before`: not after `::slotted()`; after a part of a scroll bar one of those that describe it; after
another pseudo-element a user action, or `:only-child` for a view transition; elsewhere, any that does not describe a scroll bar. -/
def ClassPlace (before : List Comp) (n : Str) : Prop :=
  NoSlotted before ∧
    ((∃ c ∈ before, c.isViewTransition = true) ∧ n = cs!"only-child" ∨
     (∃ c ∈ before, c.isScrollbar = true) ∧ n ∈ afterScrollbar ∨
     (∀ c ∈ before, c.isScrollbar = false) ∧ (∃ c ∈ before, c.isElem = true) ∧ n ∈ userAction ∨
     (∀ c ∈ before, c.isScrollbar = false) ∧ NoElem before ∧ n ∉ scrollbarClasses)

/-- A component may stand after the components `pre` of its selector (from right to left) and `before` (those of `pre`, then those before the
function around the selector). -/
def Allowed (d : Dialect) (cx : Cx) (before pre : List Comp) : Comp → Prop
  | .comb _ => cx.combs = true ∧ NoPseudo before ∧ ∃ c p, pre = c :: p ∧ c.isComb = false
  | .nesting => d.afterElem = true ∨ NoPseudo before
  | .type _ _ => NoPseudo before ∧ TypePlace pre
  | .id _ | .cls _ | .attr _ | .pclassFn _ _ | .nth _ _ _ | .nthOf _ _ _ _ | .hostFn _ => NoPseudo before
  | .pclass n => ClassPlace before n
  | .logical _ _ => True
  | .has _ => (d.hasInHas = true ∨ cx.inHas = false) ∧ (d.afterElem = true ∨ NoPseudo before)
  | .pelem n => cx.elems = true ∧ NoElem before ∧ (n ∈ treeAbiding ∨ NoSlotted before)
  | .pelemFn _ _ | .cue _ _ => cx.elems = true ∧ NoElem before ∧ NoSlotted before
  | .part _ | .slotted _ => cx.elems = true ∧ NoPseudo before

/-- How a namespace is written. -/
def Ns.toks : Ns → List Tok
  | .implicit => []
  | .empty => [.delim '|']
  | .any => [.delim '*', .delim '|']
  | .named s => [.ident s, .delim '|']

/-- How the name of a type selector is written. -/
def nameTok : Option Str → Tok
  | none => .delim '*'
  | some s => .ident s

/-- How the namespace of an attribute is written. -/
def ANs.Written : ANs → List Tok → Prop
  | .none, ts => ts = [] ∨ ts = [.delim '|']
  | .any, ts => ts = [.delim '*', .delim '|']
  | .named s, ts => ts = [.ident s, .delim '|']

/-- How the operator of an attribute selector is written. -/
def AttrOp.tok : AttrOp → Tok → Prop
  | .equal, t => t = .delim '=' ∨ t = .op .equal
  | o, t => t = .op o

/-- How the flag of an attribute selector is written. -/
def Flag.Written : Flag → List Tok → Prop
  | .dflt, ts => AllWs ts
  | .i, ts => ∃ w n w', ts = w ++ .ident n :: w' ∧ AllWs w ∧ AllWs w' ∧ lower n = cs!"i"
  | .s, ts => ∃ w n w', ts = w ++ .ident n :: w' ∧ AllWs w ∧ AllWs w' ∧ lower n = cs!"s"

/-- `[ ns? name ]` and `[ ns? name op value flag? ]`, with white space between. -/
def Attr.Written (a : Attr) (ts : List Tok) : Prop :=
  ∃ w n r, ts = w ++ n ++ .ident a.name :: r ∧ AllWs w ∧ a.ns.Written n ∧
    match a.test with
    | none => AllWs r
    | some (o, v, f) => ∃ w₁ t w₂ u r', r = w₁ ++ t :: (w₂ ++ u :: r') ∧ AllWs w₁ ∧ AllWs w₂ ∧ o.tok t ∧ (u = .ident v ∨ u = .str v) ∧ f.Written r'

/-- The four pseudo-elements that may be written with one colon. -/
def Css2 (n : Str) : Prop := lower n ∈ [cs!"before", cs!"after", cs!"first-line", cs!"first-letter"]

/-- The colons before the name of a pseudo-element. -/
def Colons (n : Str) (ts : List Tok) : Prop := ts = [.colon, .colon] ∨ ts = [.colon] ∧ Css2 n

/-- The name of a function with a list of selectors. -/
def Logical.name : Logical → Str
  | .is => cs!"is"
  | .where => cs!"where"
  | .not => cs!"not"
  | .webkitAny => cs!"-webkit-any"
  | .mozAny => cs!"-moz-any"

/-- The name of a function of An+B. -/
def NthTy.name : NthTy → Str
  | .child => cs!"nth-child"
  | .lastChild => cs!"nth-last-child"
  | .ofType => cs!"nth-of-type"
  | .lastOfType => cs!"nth-last-of-type"
  | .col => cs!"nth-col"
  | .lastCol => cs!"nth-last-col"

/-- The functional pseudo-classes with their own components. -/
def classFnNames : List Str :=
  [cs!"is", cs!"where", cs!"not", cs!"-webkit-any", cs!"-moz-any", cs!"has", cs!"host", cs!"nth-child", cs!"nth-last-child",
   cs!"nth-of-type", cs!"nth-last-of-type", cs!"nth-col", cs!"nth-last-col"]
/-- The functional pseudo-elements with their own components. -/
def elemFnNames : List Str := [cs!"part", cs!"slotted", cs!"cue", cs!"cue-region"]

/-- The character of a combinator that is not white space. -/
def Comb.char : Comb → Option Char
  | .child => some '>'
  | .next => some '+'
  | .later => some '~'
  | .descendant => none

/-- How a combinator is written. -/
def Comb.Written (k : Comb) (ts : List Tok) : Prop :=
  match k.char with
  | none => ts ≠ [] ∧ AllWs ts
  | some c => ∃ a b, ts = a ++ .delim c :: b ∧ AllWs a ∧ AllWs b

/-- How names of parts are written. -/
inductive PartNames : List Str → List Tok → Prop
  | nil : PartNames [] []
  | ws {l : List Str} {ts : List Tok} : PartNames l ts → PartNames l (.ws :: ts)
  | name {s : Str} {l : List Str} {ts : List Tok} : PartNames l ts → PartNames (s :: l) (.ident s :: ts)

/-- The pieces of a list between its commas. -/
def Pieces (ps : List (List Tok)) (ts : List Tok) : Prop :=
  ps ≠ [] ∧ (∀ p ∈ ps, Tok.comma ∉ p) ∧ ts = [Tok.comma].intercalate ps

/-- The beginning of a qualified name. -/
def CutName (ts : List Tok) : Prop := ts = [.delim '|'] ∨ ts = [.delim '*', .delim '|'] ∨ ∃ s, ts = [.ident s, .delim '|']

/-- `&` at the beginning of a compound selector. -/
def LoneNesting : List Comp → Prop
  | [.nesting] => True
  | .nesting :: .comb _ :: _ => True
  | _ => False

/-- Which pieces of a list are ignored where CSS ignores invalid selectors: given the place, the components before, and whether the selectors
are relative. -/
abbrev Drop := Cx → List Comp → Bool → List Tok → Prop

/-- The part of a relative selector that is not written: nothing; `:scope`; `:scope`, with the combinator next. -/
inductive Implied
  | no | scope (c : Comp) | comb

mutual
/-- How a component is written. -/
def ReadsC (d : Dialect) (D : Drop) (v : Opts) (cx : Cx) (before : List Comp) : Comp → List Tok → Prop
  | .comb k, ts => k.Written ts
  | .nesting, ts => ts = [.delim '&']
  | .type ns n, ts => ts = ns.toks ++ [nameTok n]
  | .id s, ts => ts = [.idHash s]
  | .cls s, ts => ts = [.delim '.', .ident s]
  | .attr a, ts => ∃ b, ts = [.bracket b] ∧ a.Written b
  | .pclass n, ts => ∃ w, ts = [.colon, .ident w] ∧ lower w = n ∧ ¬ Css2 w
  | .pclassFn n args, ts => ∃ w, ts = [.colon, .func w args] ∧ lower w = n ∧ ¬ Css2 w ∧ n ∉ classFnNames ∧ v.classArgs n args = true
  | .logical f l, ts => ∃ w args ps, ts = [.colon, .func w args] ∧ lower w = f.name ∧ Pieces ps args ∧
      ReadsP d D v (cx.inner d) before (f != .not) none l ps
  | .has l, ts => ∃ w args ps, ts = [.colon, .func w args] ∧ lower w = cs!"has" ∧ Pieces ps args ∧
      ReadsP d D v (cx.has d) before d.hasForgiving (some (.pclass cs!"scope")) l ps
  | .nth t a b, ts => ∃ w w₁ w₂, ts = [.colon, .func w (w₁ ++ .anb a b :: w₂)] ∧ lower w = t.name ∧ AllWs w₁ ∧ AllWs w₂
  | .nthOf t a b l, ts => ∃ w w₁ w₂ f args ps, ts = [.colon, .func w (w₁ ++ .anb a b :: (w₂ ++ .ident f :: args))] ∧ lower w = t.name ∧
      (t = .child ∨ t = .lastChild) ∧ AllWs w₁ ∧ AllWs w₂ ∧ lower f = cs!"of" ∧ Pieces ps args ∧
      ReadsP d D v (cx.inner d) before d.nthForgiving none l ps
  | .hostFn s, ts => ∃ w a r, ts = [.colon, .func w (a ++ r)] ∧ lower w = cs!"host" ∧ AllWs a ∧ ReadsS d D v cx.host before .no [] s r
  | .pelem n, ts => ∃ w c, ts = c ++ [.ident w] ∧ Colons w c ∧
      n = if lower w = cs!"-ms-input-placeholder" ∧ d.msIsMoz = true then cs!"-moz-placeholder" else lower w
  | .pelemFn n args, ts => ∃ w c, ts = c ++ [.func w args] ∧ Colons w c ∧ lower w = n ∧ n ∉ elemFnNames ∧ v.elemArgs n args = true
  | .cue region s, ts => ∃ w a r, ts = [.colon, .colon, .func w (a ++ r)] ∧ lower w = (if region then cs!"cue-region" else cs!"cue") ∧
      AllWs a ∧ ReadsS d D v .top [] .no [] s r
  | .part l, ts => ∃ w args, ts = [.colon, .colon, .func w args] ∧ lower w = cs!"part" ∧ l ≠ [] ∧ PartNames l args
  | .slotted s, ts => ∃ w a r, ts = [.colon, .colon, .func w (a ++ r)] ∧ lower w = cs!"slotted" ∧ AllWs a ∧
      ReadsS d D v cx.host before .no [] s r
termination_by structural c => c
/-- How the rest of a complex selector is written, after `pre` in it (from right to left) and `inh` before the function around it. -/
def ReadsS (d : Dialect) (D : Drop) (v : Opts) (cx : Cx) (inh : List Comp) : Implied → List Comp → List Comp → List Tok → Prop
  | i, pre, [], ts =>
    match i with
    | .no => (AllWs ts ∧ ∃ c p, pre = c :: p ∧ c.isComb = false) ∨ (d.cutName = true ∧ LoneNesting pre ∧ CutName ts)
    | _ => False
  | i, pre, c :: cs, ts =>
    match i with
    | .no => ∃ a b, ts = a ++ b ∧ Allowed d cx (pre ++ inh) pre c ∧ ReadsC d D v cx (pre ++ inh) c a ∧ ReadsS d D v cx inh .no (c :: pre) cs b
    | .scope x => c = x ∧ ReadsS d D v cx inh .comb [] cs ts
    | .comb => ∃ k x w r, c = .comb k ∧ k.char = some x ∧ ts = .delim x :: (w ++ r) ∧ AllWs w ∧ ReadsS d D v cx inh .no [] cs r
termination_by structural _ _ s => s
/-- How a list of selectors is written, given its pieces; if `forgiving`, some pieces are ignored; if `rel` is `some c`, selectors may begin
with a combinator and then `c` is implied. -/
def ReadsP (d : Dialect) (D : Drop) (v : Opts) (cx : Cx) (inh : List Comp) (forgiving : Bool) (rel : Option Comp) :
    List (List Comp) → List (List Tok) → Prop
  | [], ps => ∀ p ∈ ps, forgiving = true ∧ D cx inh rel.isSome p
  | s :: l, ps => ∃ e w r q, ps = e ++ (w ++ r) :: q ∧ (∀ p ∈ e, forgiving = true ∧ D cx inh rel.isSome p) ∧ AllWs w ∧
      (ReadsS d D v cx inh .no [] s r ∨ ∃ c, rel = some c ∧ ReadsS d D v cx inh (.scope c) [] s r) ∧
      ReadsP d D v cx inh forgiving rel l q
termination_by structural l => l
end

/-- A piece is one selector. -/
def ReadsPiece (d : Dialect) (D : Drop) (v : Opts) (cx : Cx) (inh : List Comp) (rel : Option Comp) (s : Sel) (p : List Tok) : Prop :=
  ∃ w r, p = w ++ r ∧ AllWs w ∧ (ReadsS d D v cx inh .no [] s r ∨ ∃ c, rel = some c ∧ ReadsS d D v cx inh (.scope c) [] s r)

/-- The pieces that are ignored are those that are no selectors. -/
def Forgiving (d : Dialect) (v : Opts) (D : Drop) : Prop :=
  ∀ cx inh p, (D cx inh false p ↔ ∀ s, ¬ ReadsPiece d D v cx inh none s p) ∧
    (D cx inh true p ↔ ∀ s, ¬ ReadsPiece d D v cx inh (some (.pclass cs!"scope")) s p)

mutual
/-- `&` is in a component, not counting `:nth-child(An+B of …)` and `::cue()`. -/
def Comp.amp : Comp → Bool
  | .nesting => true
  | .logical _ l => ampLL l
  | .has l => ampLL l
  | .hostFn s => ampL s
  | .slotted s => ampL s
  | _ => false
/-- The same for a selector. -/
def ampL : List Comp → Bool
  | [] => false
  | c :: cs => c.amp || ampL cs
/-- The same for selectors. -/
def ampLL : List (List Comp) → Bool
  | [] => false
  | s :: l => ampL s || ampLL l
end

mutual
/-- `&` is among the tokens of a token. -/
def Tok.amp : Tok → Bool
  | .delim c => c = '&'
  | .func _ args => toksAmp args
  | _ => false
/-- `&` is among the tokens. -/
def toksAmp : List Tok → Bool
  | [] => false
  | t :: ts => t.amp || toksAmp ts
end

mutual
/-- A token without `|`, `&`, `::-ms-input-placeholder`, `:has()`, `:host()`, `::slotted()` and `of` in the arguments of a function: none of
the points of `Dialect`. -/
def Plain : Tok → Prop
  | .delim c => c ≠ '|' ∧ c ≠ '&'
  | .ident w => lower w ≠ cs!"-ms-input-placeholder"
  | .func w args => lower w ≠ cs!"has" ∧ lower w ≠ cs!"host" ∧ lower w ≠ cs!"slotted" ∧ PlainArgs args
  | _ => True
/-- The same for the arguments of a function. -/
def PlainArgs : List Tok → Prop
  | [] => True
  | t :: ts => Plain t ∧ (∀ w, t = .ident w → lower w ≠ cs!"of") ∧ PlainArgs ts
end

/-- A selector list that is not in another one. -/
def ReadsList (d : Dialect) (D : Drop) (v : Opts) (l : List Sel) (ts : List Tok) : Prop :=
  ∃ ps, Pieces ps ts ∧ ReadsP d D v .top [] false none l ps

/-- A selector of a nested style rule (CSS Nesting): relative, with `&` for the implied subject; or complete, if `&` is in it; or else relative with
a descendant combinator. -/
def NestedSel (d : Dialect) (D : Drop) (v : Opts) (s : Sel) (p : List Tok) : Prop :=
  (∃ w r, p = w ++ r ∧ AllWs w ∧ ReadsS d D v .top [] (.scope .nesting) [] s r) ∨
  (ReadsPiece d D v .top [] none s p ∧ toksAmp p = true) ∨
  (∃ s', s = .nesting :: .comb .descendant :: s' ∧ ReadsPiece d D v .top [] none s' p ∧ ampL s' = false)

end Verif.SelParse
