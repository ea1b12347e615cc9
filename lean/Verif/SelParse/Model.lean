import Verif.SelParse.Names
/-!
# The selector parser (`/repo/selectors/parser.rs:441-545, 2114-3125`, with `SelectorParser` of `/repo/src/selector.rs:88-382`)

The argument of a function is parsed where it occurs, in the state of the parser at that point: `lift` replaces each function token by the
token and what the entry points of the parser do with its argument (`Entries`). So the recursion of the parser is on the nesting of the
tokens. Loops are bounded by the number of tokens (each round consumes one).

`is_nesting_allowed` is true, as in style sheets (src/parser.rs:960-963).
-/
namespace Verif.SelParse

/-- `SelectorParsingState` (selectors/parser.rs:94-140). `SKIP_DEFAULT_NAMESPACE` is left out (there is no default namespace), and
`AFTER_NON_STATEFUL_PSEUDO_ELEMENT`, which is never set (src/selector.rs:1281-1284). -/
structure St where
  slotted : Bool := false
  part : Bool := false
  elem : Bool := false
  noComb : Bool := false
  noPseudo : Bool := false
  nesting : Bool := false
  scrollbar : Bool := false
  viewTransition : Bool := false
deriving DecidableEq

/-- `AFTER_PSEUDO` (selectors/parser.rs:126). -/
def St.pseudo (s : St) : Bool := s.part || s.slotted || s.elem
/-- `allows_pseudos` (selectors/parser.rs:145-148). -/
def St.allowsPseudos (s : St) : Bool := !(s.elem || s.noPseudo)
/-- `allows_slotted`, `allows_part` (selectors/parser.rs:151-158). -/
def St.allowsPart (s : St) : Bool := !(s.pseudo || s.noPseudo)

/-- What a parser returns: a value, or an error with the flag `AFTER_NESTING` at that point. -/
abbrev Out (α : Type) := Except Bool α

/-- What the entry points of the parser do with the tokens of an argument. -/
structure Entries where
  /-- `SelectorList::parse_with_state`; the flag says if invalid selectors are ignored -/
  list : St → Bool → Out (List Sel × Bool)
  /-- `SelectorList::parse_relative_with_state`, ignoring invalid selectors -/
  relative : St → Out (List Sel × Bool)
  /-- `parse_selector` on the whole argument -/
  inner : St → Out (Sel × Bool)
  /-- the part of `parse_nth_pseudo_class` after the check of the state -/
  nth : St → Bool → Option (Int × Int × Option (List Sel))

/-- A token with what can be done with the argument of a function. -/
inductive LTok
  | tok (t : Tok)
  | func (name : Str) (args : List Tok) (e : Entries)

/-- `input.skip_whitespace()`. -/
def skipWs : List LTok → List LTok
  | .tok .ws :: ts => skipWs ts
  | ts => ts

/-- `input.skip_whitespace()` on raw tokens. -/
def skipRaw : List Tok → List Tok
  | .ws :: ts => skipRaw ts
  | ts => ts

/-! ### Attribute selectors -/

/-- `parse_qualified_name` with `in_attr_selector` (selectors/parser.rs:2390-2478) after white space. -/
def attrName : List Tok → Option (ANs × Str × List Tok)
  | .ident v :: .delim '|' :: r => match r with
    | .ident n :: r => some (.named v, n, r)
    | _ => none
  | .ident v :: r => some (.none, v, r)
  | .delim '*' :: .delim '|' :: .ident n :: r => some (.any, n, r)
  | .delim '|' :: .ident n :: r => some (.none, n, r)
  | _ => none

/-- `parse_attribute_flags` (selectors/parser.rs:2638-2661), and the end of the block. -/
def attrFlag (ts : List Tok) : Option Flag :=
  match skipRaw ts with
  | [] => some .dflt
  | .ident f :: r =>
    if (skipRaw r).isEmpty then
      if lower f = cs!"i" then some .i else if lower f = cs!"s" then some .s else none
    else none
  | _ => none

/-- The operator and the value (selectors/parser.rs:2533-2568). -/
def attrTest (o : AttrOp) (ts : List Tok) : Option (AttrOp × Str × Flag) :=
  match skipRaw ts with
  | .ident v :: r => (attrFlag r).map fun f => (o, v, f)
  | .str v :: r => (attrFlag r).map fun f => (o, v, f)
  | _ => none

/-- `parse_attribute_selector` (selectors/parser.rs:2481-2607). -/
def parseAttr (ts : List Tok) : Option Attr :=
  match attrName (skipRaw ts) with
  | none => none
  | some (ns, n, r) =>
    match skipRaw r with
    | [] => some ⟨ns, n, none⟩
    | .delim '=' :: r => (attrTest .equal r).map fun t => ⟨ns, n, some t⟩
    | .op o :: r => (attrTest o r).map fun t => ⟨ns, n, some t⟩
    | _ => none

/-! ### Names -/

/-- `is_css2_pseudo_element` (selectors/parser.rs:2946-2953). -/
def isCss2 (n : Str) : Bool :=
  lower n ∈ [cs!"before", cs!"after", cs!"first-line", cs!"first-letter"]

/-- `SelectorParser::parse_pseudo_element` (src/selector.rs:263-312): the name. -/
def elemName (n : Str) : Str :=
  if lower n = cs!"-ms-input-placeholder" then cs!"-moz-placeholder" else lower n

/-- The name of a function with a list of selectors (selectors/parser.rs:2873-2890, 2892-2894). -/
def logicalOf (n : Str) : Option Logical :=
  if n = cs!"is" then some .is else if n = cs!"where" then some .where else if n = cs!"not" then some .not
  else if n = cs!"-webkit-any" then some .webkitAny else if n = cs!"-moz-any" then some .mozAny else none

/-- The names of the functions of An+B (selectors/parser.rs:2866-2871). -/
def nthOfName (n : Str) : Option NthTy :=
  if n = cs!"nth-child" then some .child else if n = cs!"nth-of-type" then some .ofType
  else if n = cs!"nth-last-child" then some .lastChild else if n = cs!"nth-last-of-type" then some .lastOfType
  else if n = cs!"nth-col" then some .col else if n = cs!"nth-last-col" then some .lastCol else none

/-- `allows_of_selector` (selectors/parser.rs:1239-1241). -/
def NthTy.allowsOf (t : NthTy) : Bool := t = .child || t = .lastChild

/-- Names of parts, `::part()` (selectors/parser.rs:3030-3037). -/
def partNames : List Tok → Option (List Str)
  | [] => some []
  | .ws :: ts => partNames ts
  | .ident s :: ts => (partNames ts).map (s :: ·)
  | _ => none

/-! ### Simple selectors -/

/-- `parse_one_simple_selector` returns an error, nothing, or a component with the new state and the rest of the input. -/
inductive Res
  | err
  | stop
  | ok (c : Comp) (st : St) (r : List LTok)

/-- The state after a pseudo-element without argument (selectors/parser.rs:2777-2795). -/
def St.afterElem (st : St) (n : Str) : St :=
  { st with elem := st.elem || knownElems.contains n, scrollbar := st.scrollbar || scrollbarElems.contains n }

/-- The state after a functional pseudo-element that holds no selector (selectors/parser.rs:2777-2795). -/
def St.afterElemFn (st : St) (n : Str) : St :=
  { st with elem := st.elem || knownElemFns.contains n, viewTransition := st.viewTransition || viewTransitionFns.contains n }

/-- A pseudo-element without argument (selectors/parser.rs:3016-3019, 3051-3058). -/
def pseudoElem (st : St) (n : Str) (r : List LTok) : Res :=
  if !st.allowsPseudos then .err
  else if st.slotted && !treeAbiding.contains (elemName n) then .err
  else .ok (.pelem (elemName n)) (st.afterElem (elemName n)) r

/-- A pseudo-element with argument (selectors/parser.rs:3016-3058, src/selector.rs:314-341). -/
def pseudoElemFn (o : Opts) (st : St) (n : Str) (args : List Tok) (e : Entries) (r : List LTok) : Res :=
  if !st.allowsPseudos then .err
  else if lower n = cs!"part" then
    if !st.allowsPart then .err
    else match partNames args with
      | some (s :: l) => .ok (.part (s :: l)) { st with part := true } r
      | _ => .err
  else if lower n = cs!"slotted" then
    if !st.allowsPart then .err
    else match e.inner { st with noPseudo := true, noComb := true } with
      | .ok (s, b) => .ok (.slotted s) { st with slotted := true, nesting := st.nesting || b } r
      | .error _ => .err
  else if lower n = cs!"cue" ∨ lower n = cs!"cue-region" then
    match e.inner {} with
    | .ok (s, _) => if st.slotted then .err else .ok (.cue (lower n = cs!"cue-region") s) { st with elem := true } r
    | .error _ => .err
  else if !o.elemArgs (lower n) args then .err
  else if st.slotted then .err
  else .ok (.pelemFn (lower n) args) (st.afterElemFn (lower n)) r

/-- `parse_simple_pseudo_class` (selectors/parser.rs:3085-3133); tree-structural pseudo-classes are not kept apart, and they are the ones that
the first `match` accepts. -/
def pseudoClass (st : St) (n : Str) (r : List LTok) : Res :=
  if st.slotted then .err
  else if st.viewTransition && decide (n = cs!"only-child") then .ok (.pclass n) st r
  else if st.scrollbar then if afterScrollbar.contains n then .ok (.pclass n) st r else .err
  else if st.elem then if userAction.contains n then .ok (.pclass n) st r else .err
  else if scrollbarClasses.contains n then .err
  else .ok (.pclass n) st r

/-- `parse_functional_pseudo_class` (selectors/parser.rs:2855-2895). -/
def pseudoClassFn (o : Opts) (st : St) (n : Str) (args : List Tok) (e : Entries) (r : List LTok) : Res :=
  match nthOfName n with
  | some t =>
    if st.pseudo then .err
    else match e.nth st t.allowsOf with
      | some (a, b, none) => .ok (.nth t a b) st r
      | some (a, b, some l) => .ok (.nthOf t a b l) st r
      | none => .err
  | none =>
  match logicalOf n with
  | some f =>
    match e.list { st with noPseudo := true } (f != .not) with
    | .ok (l, b) => .ok (.logical f l) { st with nesting := st.nesting || b } r
    | .error _ => .err
  | none =>
  if n = cs!"has" then
    match e.relative st with
    | .ok (l, b) => .ok (.has l) { st with nesting := st.nesting || b } r
    | .error _ => .err
  else if n = cs!"host" then
    if st.pseudo then .err
    else match e.inner { st with noPseudo := true, noComb := true } with
      | .ok (s, b) => .ok (.hostFn s) { st with nesting := st.nesting || b } r
      | .error _ => .err
  else if st.pseudo then .err
  else if !o.classArgs n args then .err
  else .ok (.pclassFn n args) st r

/-- `parse_one_simple_selector` (selectors/parser.rs:2959-3083). -/
def simple (o : Opts) (st : St) : List LTok → Res
  | .tok (.idHash s) :: r => if st.pseudo then .err else .ok (.id s) st r
  | .tok (.delim '.') :: r =>
    if st.pseudo then .err
    else match r with
      | .tok (.ident c) :: r => .ok (.cls c) st r
      | _ => .err
  | .tok (.bracket a) :: r =>
    if st.pseudo then .err
    else match parseAttr a with
      | some a => .ok (.attr a) st r
      | none => .err
  | .tok .colon :: r =>
    match r with
    | .tok .colon :: r =>
      match r with
      | .tok (.ident n) :: r => pseudoElem st n r
      | .func n args e :: r => pseudoElemFn o st n args e r
      | _ => .err
    | .tok (.ident n) :: r => if isCss2 n then pseudoElem st n r else pseudoClass st (lower n) r
    | .func n args e :: r => if isCss2 n then pseudoElemFn o st n args e r else pseudoClassFn o st (lower n) args e r
    | _ => .err
  | .tok (.delim '&') :: r => .ok .nesting { st with nesting := true } r
  | _ => .stop

/-! ### Compound and complex selectors -/

/-- `parse_type_selector` (selectors/parser.rs:2302-2352): an error, no type selector, the end of the input within a qualified name (which the
code takes for no type selector, but what was read of it is lost, 2313-2317), or a type selector. -/
inductive QRes
  | err
  | stop
  | eof
  | ok (c : Comp) (r : List LTok)

/-- The closure `explicit_namespace` (selectors/parser.rs:2406-2419). -/
def localPart (ns : Ns) : List LTok → QRes
  | [] => .eof
  | .tok (.delim '*') :: r => .ok (.type ns none) r
  | .tok (.ident n) :: r => .ok (.type ns (some n)) r
  | _ => .err

/-- `parse_qualified_name` without `in_attr_selector` (selectors/parser.rs:2390-2478). -/
def qname : List LTok → QRes
  | .tok (.ident v) :: r => match r with
    | .tok (.delim '|') :: r => localPart (.named v) r
    | r => .ok (.type .implicit (some v)) r
  | .tok (.delim '*') :: r => match r with
    | .tok (.delim '|') :: r => localPart .any r
    | r => .ok (.type .implicit none) r
  | .tok (.delim '|') :: r => localPart .empty r
  | _ => .stop

/-- The loop of `parse_compound_selector` (selectors/parser.rs:2721-2797), at most `n` rounds. -/
def simples (o : Opts) : Nat → St → List LTok → Out (List Comp × St × List LTok)
  | 0, st, _ => .error st.nesting
  | n + 1, st, ts =>
    match simple o st ts with
    | .err => .error st.nesting
    | .stop => .ok ([], st, ts)
    | .ok c st r => (simples o n st r).map fun x => (c :: x.1, x.2)

/-- `parse_compound_selector` from the type selector on (selectors/parser.rs:2717-2798). -/
def afterNesting (o : Opts) (st : St) (ts : List LTok) : Out (List Comp × St × List LTok) :=
  match qname ts with
  | .err => .error st.nesting
  | .stop => simples o (ts.length + 1) st ts
  | .eof => .ok ([], st, [])
  | .ok c r =>
    if st.pseudo then .error st.nesting
    else (simples o (r.length + 1) st r).map fun x => (c :: x.1, x.2)

/-- `parse_compound_selector` (selectors/parser.rs:2696-2799); the list is empty for `Ok(true)`. -/
def compound (o : Opts) (st : St) (ts : List LTok) : Out (List Comp × St × List LTok) :=
  match skipWs ts with
  | .tok (.delim '&') :: r => (afterNesting o { st with nesting := true } r).map fun x => (.nesting :: x.1, x.2)
  | ts => afterNesting o st ts

/-- What follows a compound selector: the end, a combinator, or something else (selectors/parser.rs:2150-2213). -/
inductive Next
  | done
  | bad
  | comb (k : Comb) (r : List LTok)

/-- The loop that reads a combinator (selectors/parser.rs:2150-2213); the flag is `any_whitespace`. -/
def nextComb (w : Bool) : List LTok → Next
  | [] => .done
  | .tok .ws :: r => nextComb true r
  | .tok (.delim '>') :: r => .comb .child r
  | .tok (.delim '+') :: r => .comb .next r
  | .tok (.delim '~') :: r => .comb .later r
  | ts => if w then .comb .descendant ts else .bad

/-- The loop of `parse_selector` (selectors/parser.rs:2133-2219) and the check that nothing is left, at most `n` rounds. -/
def complex (o : Opts) : Nat → St → List LTok → Out (Sel × St)
  | 0, st, _ => .error st.nesting
  | n + 1, st, ts =>
    match compound o st ts with
    | .error b => .error b
    | .ok ([], st, _) => .error st.nesting
    | .ok (c :: cs, st, r) =>
      if st.pseudo then
        if (skipWs r).isEmpty then .ok (c :: cs, st) else .error st.nesting
      else
        match nextComb false r with
        | .done => .ok (c :: cs, st)
        | .bad => .error st.nesting
        | .comb k r => if st.noComb then .error st.nesting else (complex o n st r).map fun x => (c :: cs ++ .comb k :: x.1, x.2)

/-- `NestingRequirement` (selectors/parser.rs:402-412). -/
inductive Req
  | none | prefixed | contained | implicit
deriving DecidableEq

/-- `parse_selector` (selectors/parser.rs:2114-2237). An error at the end has the same flag. -/
def selector (o : Opts) (req : Req) (st : St) (ts : List LTok) : Out (Sel × Bool) :=
  match req, skipWs ts with
  | .prefixed, .tok (.delim '&') :: _ | .none, _ | .contained, _ | .implicit, _ =>
    match complex o (ts.length + 1) st ts with
    | .error b => .error b
    | .ok (cs, st) =>
      if st.nesting then .ok (cs, true)
      else match req with
        | .none => .ok (cs, false)
        | .implicit => .ok (.nesting :: .comb .descendant :: cs, false)
        | .contained | .prefixed => .error false
  | .prefixed, _ => .error st.nesting

/-- `parse_relative_selector` (selectors/parser.rs:2257-2297). -/
def relative (o : Opts) (req : Req) (st : St) (ts : List LTok) : Out (Sel × Bool) :=
  let scope : Comp := if req = .implicit then .nesting else .pclass cs!"scope"
  match skipWs ts with
  | [] => .error st.nesting
  | .tok (.delim '>') :: r => (selector o .none st r).map fun x => (scope :: .comb .child :: x.1, x.2)
  | .tok (.delim '+') :: r => (selector o .none st r).map fun x => (scope :: .comb .next :: x.1, x.2)
  | .tok (.delim '~') :: r => (selector o .none st r).map fun x => (scope :: .comb .later :: x.1, x.2)
  | ts => selector o req st ts

/-- The pieces between the commas. -/
def splitComma : List LTok → List (List LTok)
  | [] => [[]]
  | .tok .comma :: ts => [] :: splitComma ts
  | t :: ts =>
    match splitComma ts with
    | [] => [[t]]
    | p :: ps => (t :: p) :: ps

/-- The loops of `parse_with_state` and `parse_relative_with_state` (selectors/parser.rs:441-482, 503-544) over the pieces; `p` parses one. -/
def listLoop (forgiving : Bool) (p : List LTok → Out (Sel × Bool)) : List (List LTok) → Bool → Out (List Sel × Bool)
  | [], b => .ok ([], b)
  | x :: xs, b =>
    match p x with
    | .ok (s, b') => (listLoop forgiving p xs (b || b')).map fun y => (s :: y.1, y.2)
    | .error b' => if forgiving then listLoop forgiving p xs (b || b') else .error (b || b')

/-- `SelectorList::parse_with_state`. -/
def list (o : Opts) (forgiving : Bool) (req : Req) (st : St) (ts : List LTok) : Out (List Sel × Bool) :=
  listLoop forgiving (selector o req st) (splitComma ts) st.nesting

/-- `SelectorList::parse_relative_with_state`. -/
def relativeList (o : Opts) (forgiving : Bool) (req : Req) (st : St) (ts : List LTok) : Out (List Sel × Bool) :=
  listLoop forgiving (relative o req st) (splitComma ts) st.nesting

/-- `parse_nth_pseudo_class` after the check of the state (selectors/parser.rs:2912-2942). -/
def nth (o : Opts) (st : St) (allowsOf : Bool) (ts : List LTok) : Option (Int × Int × Option (List Sel)) :=
  match skipWs ts with
  | .tok (.anb a b) :: r =>
    match skipWs r with
    | [] => some (a, b, none)
    | .tok (.ident s) :: r =>
      if allowsOf && decide (lower s = cs!"of") then
        match list o true .none { st with noPseudo := true } r with
        | .ok (l, _) => some (a, b, some l)
        | .error _ => none
      else none
    | _ => none
  | _ => none

/-- The entry points on the tokens of an argument. -/
def entries (o : Opts) (ts : List LTok) : Entries where
  list st forgiving := list o forgiving .none st ts
  relative st := relativeList o true .none st ts
  inner st := selector o .none st ts
  nth st allowsOf := nth o st allowsOf ts

mutual
/-- A token with what the parser does with its argument (`input.parse_nested_block`). -/
def lift (o : Opts) : Tok → LTok
  | .func n args => .func n args (entries o (liftL o args))
  | t => .tok t
/-- The same for all tokens. -/
def liftL (o : Opts) : List Tok → List LTok
  | [] => []
  | t :: ts => lift o t :: liftL o ts
end

/-- `SelectorList::parse` (selectors/parser.rs:422-438) with `DiscardList`: the selectors of a style rule that is not nested
(src/parser.rs:972-978). -/
def parse (o : Opts) (ts : List Tok) : Option (List Sel) :=
  match list o false .none {} (liftL o ts) with
  | .ok (l, _) => some l
  | .error _ => none

/-- `SelectorList::parse_relative` (selectors/parser.rs:484-500) with `DiscardList` and `Implicit`: the selectors of a nested style rule
(src/parser.rs:965-971). -/
def parseNested (o : Opts) (ts : List Tok) : Option (List Sel) :=
  match relativeList o false .implicit {} (liftL o ts) with
  | .ok (l, _) => some l
  | .error _ => none

end Verif.SelParse
