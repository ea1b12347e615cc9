import Verif.Media.FeatureId
/-
Model of src/media_query.rs: media query data types, their logical combination, serialisation to token trees
and parsing from token trees.

Simplifications (also in DESIGN.md):
* text is modelled at the level of cssparser token trees (`Tok`): a `(...)` block is one `Tok.paren` holding
  its tokens, whitespace is dropped (the printer always writes a space around `and`/`or`/`not`).
* a non-identifier feature value (length, number, ...) is one opaque token `Tok.val` carrying its type and an
  opaque identity; printing and re-parsing of such values is assumed exact (src/media_query.rs:1630-1720).
-/
namespace Verif.Media

/-- src/media_query.rs:186-194 `Qualifier`. -/
inductive Qualifier where
  | only | not
deriving DecidableEq, Repr

/-- src/media_query.rs:205-217 `MediaType`. -/
inductive MediaType where
  | all | print | screen
  | custom (name : Str)
deriving DecidableEq, Repr

/-- src/media_query.rs:502-510 `Operator`. -/
inductive Operator where
  | and | or
deriving DecidableEq, Repr

/-- src/media_query.rs:889-901 `MediaFeatureComparison`. -/
inductive Cmp where
  | eq | gt | ge | lt | le
deriving DecidableEq, Repr

/-- src/media_query.rs:931-940 `MediaFeatureComparison::opposite`. -/
def Cmp.opposite : Cmp → Cmp
  | .gt => .lt
  | .ge => .le
  | .lt => .gt
  | .le => .ge
  | .eq => .eq

/-- src/media_query.rs:942-950 `MediaFeatureComparison::negate`. -/
def Cmp.negate : Cmp → Cmp
  | .gt => .le
  | .ge => .lt
  | .lt => .ge
  | .le => .gt
  | .eq => .eq

/-- src/media_query.rs:1229-1237 `MediaFeatureName`. -/
inductive Name where
  | standard (id : FeatureId)
  | custom (s : Str)
  | unknown (s : Str)
deriving DecidableEq, Repr

/-- src/media_query.rs:1295-1302 `ValueType for MediaFeatureName`. -/
def Name.ftype : Name → FType
  | .standard id => id.ftype
  | _ => .unknown

/-- src/media_query.rs:1587-1605 `MediaFeatureValue`. Identifier values print as identifiers; every other
value (including `env()`, whose type is `unknown`) is an opaque typed token. -/
inductive Val where
  | ident (s : Str)
  | other (ty : FType) (code : Nat)
deriving DecidableEq, Repr

/-- src/media_query.rs:1608-1620 `MediaFeatureValue::value_type`. -/
def Val.ftype : Val → FType
  | .ident _ => .ident
  | .other ty _ => ty

/-- src/media_query.rs:1622-1627 `MediaFeatureValue::check_type`. -/
def Val.checkType (v : Val) (expected : FType) : Bool :=
  match expected, v.ftype with
  | _, .unknown => true
  | .unknown, _ => true
  | a, b => a == b

/-- src/media_query.rs:967-1008 `QueryFeature`. -/
inductive Feature where
  | plain (name : Name) (value : Val)
  | boolean (name : Name)
  | range (name : Name) (op : Cmp) (value : Val)
  | interval (name : Name) (start : Val) (startOp : Cmp) (stop : Val) (endOp : Cmp)
deriving DecidableEq, Repr

/-- Token trees (cssparser tokens; see the file comment). -/
inductive Tok where
  | ident (s : Str)
  | delim (c : Char)
  | colon
  | comma
  | val (ty : FType) (code : Nat)
  | paren (ts : List Tok)
deriving Repr

/-- src/media_query.rs:523-543 `MediaCondition`. `unknown` keeps its raw tokens. -/
inductive Cond where
  | feature (f : Feature)
  | not (c : Cond)
  | op (o : Operator) (cs : List Cond)
  | unknown (ts : List Tok)
deriving Repr

/-- src/media_query.rs:264-274 `MediaQuery`. -/
structure Query where
  qualifier : Option Qualifier
  type : MediaType
  cond : Option Cond
deriving Repr

/-! ### Structural equality (`#[derive(PartialEq)]`) -/

mutual
/-- Derived equality of tokens (`TokenList: PartialEq`). -/
def Tok.beq : Tok → Tok → Bool
  | .ident a, .ident b => a == b
  | .delim a, .delim b => a == b
  | .colon, .colon => true
  | .comma, .comma => true
  | .val t n, .val t' n' => t == t' && n == n'
  | .paren a, .paren b => Tok.beqList a b
  | _, _ => false
/-- Derived equality of token lists. -/
def Tok.beqList : List Tok → List Tok → Bool
  | [], [] => true
  | a :: as, b :: bs => Tok.beq a b && Tok.beqList as bs
  | _, _ => false
end

mutual
/-- src/media_query.rs:513 `#[derive(PartialEq)]` on `MediaCondition`. -/
def Cond.beq : Cond → Cond → Bool
  | .feature a, .feature b => a == b
  | .not a, .not b => Cond.beq a b
  | .op o as, .op o' bs => o == o' && Cond.beqList as bs
  | .unknown a, .unknown b => Tok.beqList a b
  | _, _ => false
/-- Derived equality of condition lists. -/
def Cond.beqList : List Cond → List Cond → Bool
  | [], [] => true
  | a :: as, b :: bs => Cond.beq a b && Cond.beqList as bs
  | _, _ => false
end

instance : BEq Cond := ⟨Cond.beq⟩

/-- src/media_query.rs:257 `#[derive(PartialEq)]` on `MediaQuery`. -/
def Query.beq (a b : Query) : Bool :=
  a.qualifier == b.qualifier && a.type == b.type &&
  (match a.cond, b.cond with
   | none, none => true
   | some x, some y => Cond.beq x y
   | _, _ => false)

instance : BEq Query := ⟨Query.beq⟩

/-! ### Logical combination -/

/-- src/media_query.rs:354-356 `MediaQuery::always_matches`. -/
def Query.alwaysMatches (q : Query) : Bool :=
  q.qualifier == none && q.type == .all && q.cond.isNone

/-- src/media_query.rs:359-361 `MediaQuery::never_matches`. -/
def Query.neverMatches (q : Query) : Bool :=
  q.qualifier == some .not && q.type == .all && q.cond.isNone

/-- src/media_query.rs:118-121 `MediaList::always_matches`. A media list is a `List Query`. -/
def listAlwaysMatches (l : List Query) : Bool :=
  l.isEmpty || l.all Query.alwaysMatches

/-- src/media_query.rs:124-126 `MediaList::never_matches`. -/
def listNeverMatches (l : List Query) : Bool :=
  !l.isEmpty && l.all Query.neverMatches

/-- src/media_query.rs:370-398, the `match (at, bt)` computing the new qualifier and media type.
`none` is the `Err(())` result. The arms are in the order of the Rust match; the or-patterns are expanded
left to right. -/
def andQualifierType (at_ bt : Option Qualifier × MediaType) : Option (Option Qualifier × MediaType) :=
  match at_, bt with
  | (some .not, .all), _ => some (some .not, .all)
  | _, (some .not, .all) => some (some .not, .all)
  | (some .not, a), (some .not, b) => if a = b then some (some .not, a) else none
  | (_, .all), (q, t) => some (q, t)
  | (q, t), (_, .all) => some (q, t)
  | (some .not, _), (q, t) => some (q, t)
  | (q, t), (some .not, _) => some (q, t)
  | (_, a), (_, b) => if a ≠ b then some (some .not, .all) else some (none, a)

/-- src/media_query.rs:403-415, combination of the conditions. -/
def andCond (a b : Option Cond) : Option Cond :=
  match b with
  | none => a
  | some cond =>
    match a with
    | some condition => if !(condition == cond) then some (.op .and [condition, cond]) else some condition
    | none => some cond

/-- src/media_query.rs:367-418 `MediaQuery::and`. `none` is `Err(())`. -/
def Query.and (a b : Query) : Option Query :=
  match andQualifierType (a.qualifier, a.type) (b.qualifier, b.type) with
  | none => none
  | some (q, t) => some { qualifier := q, type := t, cond := andCond a.cond b.cond }

/-- src/media_query.rs:143-145, the inner loop `for a in &mut self.media_queries { a.and(&b)? }`. -/
def andEach : List Query → Query → Option (List Query)
  | [], _ => some []
  | a :: as, b =>
    match a.and b with
    | none => none
    | some a' => match andEach as b with
      | none => none
      | some as' => some (a' :: as')

/-- src/media_query.rs:138-146, the outer loop of `MediaList::and`. -/
def andLoop (self : List Query) : List Query → Option (List Query)
  | [] => some self
  | b :: bs =>
    if self.contains b then andLoop self bs
    else match andEach self b with
      | none => none
      | some self' => andLoop self' bs

/-- src/media_query.rs:132-149 `MediaList::and`. -/
def listAnd (a b : List Query) : Option (List Query) :=
  if a.isEmpty then some b else andLoop a b

/-- src/media_query.rs:153-159 `MediaList::or`. -/
def listOr (a : List Query) : List Query → List Query
  | [] => a
  | mq :: rest => if !(a.contains mq) then listOr (a ++ [mq]) rest else listOr a rest

/-! ### Serialisation -/

/-- The two compile-target decisions used by the printer: `should_compile!(.., MediaRangeSyntax)` and
`should_compile!(.., MediaIntervalSyntax)` (src/targets.rs:317-324). -/
structure PTargets where
  lowerRange : Bool
  lowerInterval : Bool
deriving DecidableEq, Repr

/-- src/media_query.rs:1304-1315 `ToCss for MediaFeatureName`. -/
def Name.print : Name → Str
  | .standard id => id.name
  | .custom s => s
  | .unknown s => s

/-- src/media_query.rs:1317-1334 and 1502-1519 `to_css_with_prefix`. -/
def Name.printPrefixed (pre : Str) : Name → Str
  | .standard .webKitDevicePixelRatio => cs!"-webkit-" ++ pre ++ cs!"device-pixel-ratio"
  | .standard id => pre ++ id.name
  | .custom s => pre ++ s
  | .unknown s => pre ++ s

/-- src/media_query.rs:1696-1720 `ToCss for MediaFeatureValue`. -/
def Val.print : Val → Tok
  | .ident s => .ident s
  | .other ty n => .val ty n

/-- src/media_query.rs:903-928 `ToCss for MediaFeatureComparison`. -/
def Cmp.print : Cmp → List Tok
  | .eq => [.delim '=']
  | .gt => [.delim '>']
  | .ge => [.delim '>', .delim '=']
  | .lt => [.delim '<']
  | .le => [.delim '<', .delim '=']

/-- The keyword tokens written by the printer. -/
def kwNot : Tok := .ident cs!"not"
/-- The keyword token `and`. -/
def kwAnd : Tok := .ident cs!"and"
/-- The keyword token `or`. -/
def kwOr : Tok := .ident cs!"or"

/-- src/media_query.rs:1522-1577 `write_min_max`. -/
def writeMinMax (op : Cmp) (name : Name) (value : Val) (isRange : Bool) : List Tok :=
  let inner (pre : Option Str) : Tok :=
    .paren [.ident (match pre with | some p => name.printPrefixed p | none => name.print), .colon, value.print]
  match op with
  | .gt => if isRange then [.paren [kwNot, inner (some cs!"max-")]] else [kwNot, inner (some cs!"max-")]
  | .ge => [inner (some cs!"min-")]
  | .lt => if isRange then [.paren [kwNot, inner (some cs!"min-")]] else [kwNot, inner (some cs!"min-")]
  | .le => [inner (some cs!"max-")]
  | .eq => [inner none]

/-- src/media_query.rs:1170-1221 `ToCss for QueryFeature`. -/
def Feature.print (t : PTargets) : Feature → List Tok
  | .boolean name => [.paren [.ident name.print]]
  | .plain name value => [.paren [.ident name.print, .colon, value.print]]
  | .range name op value =>
    if t.lowerRange then writeMinMax op name value false
    else [.paren ([.ident name.print] ++ op.print ++ [value.print])]
  | .interval name start startOp stop endOp =>
    if t.lowerInterval then
      writeMinMax startOp.opposite name start true ++ [kwAnd] ++ writeMinMax endOp name stop true
    else [.paren ([start.print] ++ startOp.print ++ [.ident name.print] ++ endOp.print ++ [stop.print])]

/-- src/media_query.rs:1142-1156 `QueryFeature::needs_parens`. -/
def Feature.needsParens (t : PTargets) (parent : Option Operator) : Feature → Bool
  | .interval .. => t.lowerInterval && parent != some .and
  | .range _ op _ => t.lowerRange && (op == .gt || op == .lt)
  | _ => false

/-- src/media_query.rs:592-599 `needs_parens for MediaCondition`. -/
def Cond.needsParens (t : PTargets) (parent : Option Operator) : Cond → Bool
  | .not _ => true
  | .op o _ => some o != parent
  | .feature f => f.needsParens t parent
  | .unknown _ => false

/-- src/media_query.rs:1158-1167 `QueryFeature::negate`. -/
def Feature.negate : Feature → Option Feature
  | .range name op value => some (.range name op.negate value)
  | _ => none

/-- src/media_query.rs:850-858 `MediaCondition::negate`. -/
def Cond.negate : Cond → Option Cond
  | .not c => some c
  | .feature f => f.negate.map .feature
  | _ => none

/-- src/media_query.rs:811-826 `to_css_with_parens_if_needed`. -/
def parensIf (b : Bool) (ts : List Tok) : List Tok := if b then [.paren ts] else ts

/-- The keyword text of an operator (`Operator::as_str`, `enum_property!`, src/media_query.rs:502-510). -/
def Operator.word : Operator → Str
  | .and => cs!"and"
  | .or => cs!"or"

/-- The keyword of an operator. -/
def Operator.kw : Operator → Tok
  | .and => kwAnd
  | .or => kwOr

mutual
/-- src/media_query.rs:860-884 `ToCss for MediaCondition`. The branch `.not c` inlines `c.negate()`: a negated
range prints as the complementary range, a double negation prints the inner condition (see `print_not` in
Lemmas.lean for the literal form). An empty operation panics in the code (`iter.next().unwrap()`); here it
prints nothing, and every theorem about printing excludes it. -/
def Cond.print (t : PTargets) : Cond → List Tok
  | .feature f => f.print t
  | .not (.not c) => Cond.print t c
  | .not (.feature f) =>
    match f.negate with
    | some f' => f'.print t
    | none => kwNot :: parensIf ((Cond.feature f).needsParens t none) (f.print t)
  | .not (.op o cs) => kwNot :: parensIf ((Cond.op o cs).needsParens t none) (Cond.printOp t o cs)
  | .not (.unknown ts) => kwNot :: parensIf ((Cond.unknown ts).needsParens t none) ts
  | .op o cs => Cond.printOp t o cs
  | .unknown ts => ts
/-- src/media_query.rs:828-847 `operation_to_css`. -/
def Cond.printOp (t : PTargets) (o : Operator) : List Cond → List Tok
  | [] => []
  | c :: cs => parensIf (c.needsParens t (some o)) (Cond.print t c) ++ Cond.printRest t o cs
/-- src/media_query.rs:839-844, the loop over the remaining operands. -/
def Cond.printRest (t : PTargets) (o : Operator) : List Cond → List Tok
  | [] => []
  | c :: cs =>
    o.kw :: parensIf (c.needsParens t (some o)) (Cond.print t c) ++ Cond.printRest t o cs
end

/-- Printing of media types (src/media_query.rs:430-446). -/
def MediaType.text : MediaType → Str
  | .all => cs!"all"
  | .print => cs!"print"
  | .screen => cs!"screen"
  | .custom s => s

/-- Printing of qualifiers (`enum_property!`). -/
def Qualifier.print : Qualifier → Str
  | .only => cs!"only"
  | .not => cs!"not"

/-- src/media_query.rs:453-455 `matches!(condition, Operation { operator, .. } if *operator != And)`. -/
def Cond.isNonAndOp : Cond → Bool
  | .op o _ => o != .and
  | _ => false

/-- src/media_query.rs:420-461 `ToCss for MediaQuery`. -/
def Query.print (t : PTargets) (q : Query) : List Tok :=
  let qual := match q.qualifier with
    | some x => [Tok.ident x.print]
    | none => []
  let ty := match q.type with
    | .all => if q.qualifier.isSome || q.cond.isNone then [Tok.ident cs!"all"] else []
    | m => [Tok.ident m.text]
  match q.cond with
  | none => qual ++ ty
  | some c =>
    if q.type ≠ .all || q.qualifier.isSome then
      qual ++ ty ++ [kwAnd] ++ parensIf c.isNonAndOp (c.print t)
    else qual ++ ty ++ c.print t

/-- src/media_query.rs:162-182 `ToCss for MediaList`. -/
def printList (t : PTargets) : List Query → List Tok
  | [] => [.ident cs!"not", .ident cs!"all"]
  | [q] => q.print t
  | q :: qs => q.print t ++ [.comma] ++ printList t qs

/-! ### Parsing -/

/-- `starts_with_ignore_ascii_case`, src/parser.rs:1161-1163. -/
def startsWithIC (s pre : Str) : Bool := (lowerAscii s).take pre.length == pre

/-- `FeatureId::parse_string` (src/macros.rs:58-72): case-insensitive table lookup. -/
def FeatureId.parse (s : Str) : Option FeatureId :=
  FeatureId.all.find? fun id => id.name == lowerAscii s

/-- src/media_query.rs:1239-1281 `MediaFeatureName::parse`, after `expect_ident`. -/
def Name.parse (ident : Str) : Name × Option Cmp :=
  if ident.take 2 == cs!"--" then (.custom ident, none)
  else
    let isWebkit := startsWithIC ident cs!"-webkit-"
    let name := if isWebkit then ident.drop 8 else ident
    let (name, cmp) :=
      if startsWithIC name cs!"min-" then (name.drop 4, some Cmp.ge)
      else if startsWithIC name cs!"max-" then (name.drop 4, some Cmp.le)
      else (name, none)
    let name := if isWebkit then cs!"-webkit-" ++ name else name
    match FeatureId.parse name with
    | some id => (.standard id, cmp)
    | none => (.unknown ident, none)

/-- Result of a parser: a value and the remaining tokens, an ordinary error, or the custom
`ParserError::InvalidMediaQuery` error, which `QueryFeature::parse_with_options` treats specially. -/
inductive Res (α : Type) where
  | ok (a : α) (rest : List Tok)
  | err
  | invalid
deriving Repr

/-- src/media_query.rs:1724-1756 `consume_operation_or_colon`. The inner option is `None` for a colon. -/
def consumeOp (allowColon : Bool) : List Tok → Res (Option Cmp)
  | .colon :: rest => if allowColon then .ok none rest else .err
  | .delim '=' :: rest => .ok (some .eq) rest
  | .delim '>' :: .delim '=' :: rest => .ok (some .ge) rest
  | .delim '>' :: rest => .ok (some .gt) rest
  | .delim '<' :: .delim '=' :: rest => .ok (some .le) rest
  | .delim '<' :: rest => .ok (some .lt) rest
  | _ => .err

/-- src/media_query.rs:1633-1693 `MediaFeatureValue::parse` at token level. -/
def Val.parse : List Tok → Res Val
  | .ident s :: rest => .ok (.ident s) rest
  | .val ty n :: rest => .ok (.other ty n) rest
  | _ => .err

/-- src/media_query.rs:1038-1075 `QueryFeature::parse_name_first` (with `error_recovery` off). -/
def parseNameFirst : List Tok → Res Feature
  | .ident s :: rest =>
    let (name, legacy) := Name.parse s
    match consumeOp true rest with
    | .ok op rest =>
      if op.isSome && legacy.isSome then .invalid
      else match Val.parse rest with
        | .ok v rest =>
          if !v.checkType name.ftype then .invalid
          else match op.or legacy with
            | some o => if !name.ftype.allowsRanges then .invalid else .ok (.range name o v) rest
            | none => .ok (.plain name v) rest
        | .err => .err
        | .invalid => .invalid
    | _ => .ok (.boolean name) rest
  | _ => .err

/-- src/media_query.rs:1078-1090: find the feature name first. -/
def findName : List Tok → Option (Name × Option Cmp)
  | [] => none
  | .ident s :: _ => some (Name.parse s)
  | _ :: rest => findName rest

/-- src/media_query.rs:1113-1125: allowed pairs of interval operators. -/
def matchingOps : Cmp → Cmp → Bool
  | .gt, .gt | .gt, .ge | .ge, .ge | .ge, .gt => true
  | .lt, .lt | .lt, .le | .le, .le | .le, .lt => true
  | _, _ => false

/-- src/media_query.rs:1077-1140 `QueryFeature::parse_value_first`. `consumeOp false` never yields a colon, so
the `unwrap`s in the code do not fail. -/
def parseValueFirst (ts : List Tok) : Res Feature :=
  match findName ts with
  | none => .invalid
  | some (_, some _) => .invalid
  | some (name, none) =>
    match Val.parse ts with
    | .ok value rest =>
      match consumeOp false rest with
      | .ok (some operator) rest =>
        match rest with
        | .ident _ :: rest =>
          if !name.ftype.allowsRanges || !value.checkType name.ftype then .invalid
          else match consumeOp false rest with
            | .ok (some endOp) rest =>
              if !matchingOps operator endOp then .invalid
              else match Val.parse rest with
                | .ok endValue rest =>
                  if !endValue.checkType name.ftype then .invalid
                  else .ok (.interval name value operator endValue endOp) rest
                | _ => .err
            | _ => .ok (.range name operator.opposite value) rest
        | _ => .err
      | _ => .err
    | _ => .err

/-- src/media_query.rs:1013-1032 `QueryFeature::parse_with_options`. -/
def Feature.parse (ts : List Tok) : Res Feature :=
  match parseNameFirst ts with
  | .ok f rest => .ok f rest
  | .invalid => .invalid
  | .err => parseValueFirst ts

/-- Case-insensitive identifier match (`expect_ident_matching`). -/
def isKw (t : Tok) (kw : Str) : Bool :=
  match t with
  | .ident s => lowerAscii s == kw
  | _ => false

mutual
/-- src/media_query.rs:690-768 `parse_query_condition` for media conditions (no style()/scroll-state()
functions). `fuel` bounds the nesting depth. -/
def parseCond (fuel : Nat) (allowOr : Bool) (ts : List Tok) : Option (Cond × List Tok) :=
  match fuel with
  | 0 => none
  | fuel + 1 =>
    match ts with
    | .paren inner :: rest =>
      match parseParenBlock fuel inner with
      | none => none
      | some first =>
        match rest with
        | .ident s :: rest' =>
          if lowerAscii s == cs!"and" then parseOpRest fuel .and first rest'
          else if lowerAscii s == cs!"or" then
            if allowOr then parseOpRest fuel .or first rest' else none
          else some (first, rest)
        | _ => some (first, rest)
    | .ident s :: .paren inner :: rest =>
      if lowerAscii s == cs!"not" then
        match parseParenBlock fuel inner with
        | none => none
        | some c => some (.not c, rest)
      else none
    | _ => none
/-- src/media_query.rs:749-768: the second operand is mandatory, further ones follow the same keyword. -/
def parseOpRest (fuel : Nat) (o : Operator) (first : Cond) (ts : List Tok) : Option (Cond × List Tok) :=
  match fuel with
  | 0 => none
  | fuel + 1 =>
    match ts with
    | .paren inner :: rest =>
      match parseParenBlock fuel inner with
      | none => none
      | some second =>
        match parseLoop fuel o rest with
        | none => none
        | some (cs, rest) => some (.op o (first :: second :: cs), rest)
    | _ => none
/-- src/media_query.rs:760-767, the loop. -/
def parseLoop (fuel : Nat) (o : Operator) (ts : List Tok) : Option (List Cond × List Tok) :=
  match fuel with
  | 0 => none
  | fuel + 1 =>
    match ts with
    | .ident s :: rest =>
      if lowerAscii s == o.word then
        match rest with
        | .paren inner :: rest =>
          match parseParenBlock fuel inner with
          | none => none
          | some c =>
            match parseLoop fuel o rest with
            | none => none
            | some (cs, rest) => some (c :: cs, rest)
        | _ => none
      else some ([], ts)
    | _ => some ([], ts)
/-- src/media_query.rs:794-809 `parse_paren_block`; `parse_nested_block` requires the block to be consumed. -/
def parseParenBlock (fuel : Nat) (inner : List Tok) : Option Cond :=
  match fuel with
  | 0 => none
  | fuel + 1 =>
    match inner with
    | [] => none
    | _ =>
      match parseCond fuel true inner with
      | some (c, rest) => if rest.isEmpty then some c else none
      | none =>
        match Feature.parse inner with
        | .ok f rest => if rest.isEmpty then some (.feature f) else none
        | _ => none
end

/-- src/media_query.rs:219-228 `From<CowArcStr> for MediaType`. -/
def MediaType.parse (s : Str) : MediaType :=
  if lowerAscii s == cs!"all" then .all
  else if lowerAscii s == cs!"print" then .print
  else if lowerAscii s == cs!"screen" then .screen
  else .custom s

/-- `Qualifier::parse` on one token. -/
def Qualifier.parse : Tok → Option Qualifier
  | .ident s =>
    if lowerAscii s == cs!"only" then some .only
    else if lowerAscii s == cs!"not" then some .not
    else none
  | _ => none

/-- src/media_query.rs:282-288: `try_parse` of an optional qualifier followed by a media type. -/
def parseQualType (ts : List Tok) : Option (Option Qualifier × MediaType × List Tok) :=
  match ts with
  | [] => none
  | t :: rest =>
    match Qualifier.parse t with
    | some q => match rest with
      | .ident s :: rest => some (some q, MediaType.parse s, rest)
      | _ => none
    | none => match t with
      | .ident s => some (none, MediaType.parse s, rest)
      | _ => none

/-- src/media_query.rs:276-314 `MediaQuery::parse_with_options` (error recovery off), on the tokens up to the
next comma. `parse_until_before` requires all of them to be consumed. -/
def Query.parse (fuel : Nat) (ts : List Tok) : Option Query :=
  match parseQualType ts with
  | none =>
    match parseCond fuel true ts with
    | some (c, []) => some { qualifier := none, type := .all, cond := some c }
    | _ => none
  | some (q, ty, rest) =>
    match rest with
    | [] => some { qualifier := q, type := ty, cond := none }
    | t :: rest =>
      if isKw t cs!"and" then
        match parseCond fuel false rest with
        | some (c, []) => some { qualifier := q, type := ty, cond := some c }
        | _ => none
      else none

/-- `parse_until_before(Delimiter::Comma, ..)`: the tokens before the next top-level comma, and what follows the
comma if there is one. -/
def splitComma : List Tok → List Tok × Option (List Tok)
  | [] => ([], none)
  | .comma :: rest => ([], some rest)
  | t :: rest => (t :: (splitComma rest).1, (splitComma rest).2)

theorem splitComma_lt (ts : List Tok) (rest : List Tok) (h : (splitComma ts).2 = some rest) :
    rest.length < ts.length := by
  induction ts with
  | nil => simp [splitComma] at h
  | cons t ts ih =>
    unfold splitComma at h
    split at h <;> simp_all <;> omega

/-- src/media_query.rs:54-82 `MediaList::parse`, the loop. A query is required after every comma (the code accepts a
trailing comma and ignores it; simplified). -/
def parseQueries (fuel : Nat) (ts : List Tok) : Option (List Query) :=
  match Query.parse fuel (splitComma ts).1 with
  | none => none
  | some q =>
    match _h : (splitComma ts).2 with
    | none => some [q]
    | some rest =>
      match parseQueries fuel rest with
      | none => none
      | some qs => some (q :: qs)
termination_by ts.length
decreasing_by exact splitComma_lt ts rest _h

/-- src/media_query.rs:54-82 `MediaList::parse`. -/
def parseList (fuel : Nat) (ts : List Tok) : Option (List Query) :=
  if ts.isEmpty then some [] else parseQueries fuel ts

end Verif.Media
