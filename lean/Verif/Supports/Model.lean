import Verif.Targets.Model
/-! Model of src/rules/supports.rs: `SupportsCondition`. -/
namespace Verif.Supports
open Verif.Targets

/-- ASCII lower-casing of one character. -/
def lowerChar (c : Char) : Char := if 'A' ≤ c ∧ c ≤ 'Z' then Char.ofNat (c.toNat + 32) else c
/-- `to_ascii_lowercase`. -/
def lower (s : Str) : Str := s.map lowerChar

/-- cssparser tokens as trees. White space and comments are left out; tokens other than identifiers, colons, functions
and parenthesis blocks do not matter here and are numbered. -/
inductive Tok where
  | ident (s : Str)
  | colon
  | other (n : Nat)
  | func (name : Str) (ts : List Tok)
  | paren (ts : List Tok)
deriving Repr

mutual
/-- Equality of raw text is equality of tokens. -/
def Tok.beq : Tok → Tok → Bool
  | .ident a, .ident b => a == b
  | .colon, .colon => true
  | .other a, .other b => a == b
  | .func n a, .func m b => n == m && Tok.beqList a b
  | .paren a, .paren b => Tok.beqList a b
  | _, _ => false
/-- Equality of lists of tokens. -/
def Tok.beqList : List Tok → List Tok → Bool
  | [], [] => true
  | a :: as, b :: bs => Tok.beq a b && Tok.beqList as bs
  | _, _ => false
end

/-- src/properties/mod.rs `PropertyId`: the name without prefix, and the prefix set for the properties that have one
(`vp`). Custom and unknown properties are `vp = none` with their whole name. -/
structure PropId where
  name : Str
  vp : Option PrefixSet
deriving DecidableEq, Repr

/-- The table in src/properties/mod.rs (`define_properties!`): for a lower-case name, the allowed prefixes and whether the
property id carries a prefix. `all` has every prefix allowed (it is not checked there) and carries none. -/
structure PropTable where
  lookup : Str → Option (PrefixSet × Bool)

/-- `starts_with_ignore_ascii_case` and removal of the prefix. -/
def stripIC (pre s : Str) : Option Str :=
  if lower (s.take pre.length) = pre then some (s.drop pre.length) else none

/-- src/properties/mod.rs:216-227: vendor prefix and rest of a property name. -/
def splitPrefix (s : Str) : Prefix × Str :=
  match stripIC cs!"-webkit-" s with
  | some r => (.webkit, r)
  | none => match stripIC cs!"-moz-" s with
    | some r => (.moz, r)
    | none => match stripIC cs!"-o-" s with
      | some r => (.o, r)
      | none => match stripIC cs!"-ms-" s with
        | some r => (.ms, r)
        | none => (.none, s)

/-- src/properties/mod.rs:213-232 `From<CowArcStr> for PropertyId` with 273-296 `from_name_and_prefix`. -/
def PropId.parse (tbl : PropTable) (s : Str) : PropId :=
  match splitPrefix s with
  | (p, rest) =>
    match tbl.lookup (lower rest) with
    | some (allowed, hasVp) =>
      if allowed.has p then ⟨lower rest, if hasVp then some p.set else none⟩ else ⟨s, none⟩
    | none => ⟨s, none⟩

/-- src/properties/mod.rs:301-322 `PropertyId::prefix`. -/
def PropId.pre (p : PropId) : PrefixSet := p.vp.getD .empty

/-- src/properties/mod.rs:324-344 `PropertyId::with_prefix`. -/
def PropId.withPrefix (p : PropId) (s : PrefixSet) : PropId := { p with vp := p.vp.map fun _ => s }

/-- src/properties/mod.rs:346-364 `PropertyId::add_prefix`. -/
def PropId.addPrefix (p : PropId) (s : PrefixSet) : PropId := { p with vp := p.vp.map fun q => q.union s }

/-- src/vendor_prefix.rs:56-70 `or_none`. -/
def orNone (s : PrefixSet) : PrefixSet := if s = .empty then Prefix.none.set else s

/-- Iteration over a flag set, in the order of the declarations in src/vendor_prefix.rs:22-33. -/
def flagsOf (s : PrefixSet) : List Prefix := [Prefix.webkit, .moz, .ms, .o, .none].filter (s.has ·)

/-- src/vendor_prefix.rs:82-95: the text of a prefix. -/
def prefixStr : Prefix → Str
  | .webkit => cs!"-webkit-"
  | .moz => cs!"-moz-"
  | .ms => cs!"-ms-"
  | .o => cs!"-o-"
  | .none => []

/-- src/rules/supports.rs:101-129 `SupportsCondition`. Raw text is kept as tokens. -/
inductive Cond where
  | not (c : Cond)
  | and (cs : List Cond)
  | or (cs : List Cond)
  | decl (p : PropId) (value : List Tok)
  | selector (ts : List Tok)
  | unknown (t : Tok)
deriving Repr

mutual
/-- `#[derive(PartialEq)]` on `SupportsCondition`. -/
def Cond.beq : Cond → Cond → Bool
  | .not a, .not b => Cond.beq a b
  | .and as, .and bs => Cond.beqList as bs
  | .or as, .or bs => Cond.beqList as bs
  | .decl p v, .decl q w => p == q && Tok.beqList v w
  | .selector a, .selector b => Tok.beqList a b
  | .unknown a, .unknown b => Tok.beq a b
  | _, _ => false
/-- Derived equality of lists. -/
def Cond.beqList : List Cond → List Cond → Bool
  | [], [] => true
  | a :: as, b :: bs => Cond.beq a b && Cond.beqList as bs
  | _, _ => false
end

/-- `Vec::contains`. -/
def containsCond (cs : List Cond) (b : Cond) : Bool := cs.any fun c => c.beq b

/-- src/rules/supports.rs:133-141 `and`. -/
def Cond.conj (self b : Cond) : Cond :=
  match self with
  | .and a => if !(containsCond a b) then .and (a ++ [b]) else .and a
  | self => if !(self.beq b) then .and [self, b] else self

/-- src/rules/supports.rs:144-152 `or`. -/
def Cond.disj (self b : Cond) : Cond :=
  match self with
  | .or a => if !(containsCond a b) then .or (a ++ [b]) else .or a
  | self => if !(self.beq b) then .or [self, b] else self

mutual
/-- src/rules/supports.rs:154-171 `set_prefixes_for_targets`; `pf` gives the prefix feature of a property
(src/properties/mod.rs:366-385), if it has one. -/
def Cond.setPrefixes (pf : Str → Option PrefixFeature) (t : Targets) : Cond → Cond
  | .not c => .not (c.setPrefixes pf t)
  | .and cs => .and (Cond.setPrefixesAll pf t cs)
  | .or cs => .or (Cond.setPrefixesAll pf t cs)
  | .decl p v =>
    if p.pre = .empty || p.pre.has .none then
      match pf p.name with
      | some f => .decl { p with vp := p.vp.map fun q => t.prefixes q f } v
      | none => .decl p v
    else .decl p v
  | c => c
/-- The loop over the items of a list. -/
def Cond.setPrefixesAll (pf : Str → Option PrefixFeature) (t : Targets) : List Cond → List Cond
  | [] => []
  | c :: cs => c.setPrefixes pf t :: Cond.setPrefixesAll pf t cs
end

mutual
/-- src/rules/supports.rs:174-191 `get_supported_features_internal`; `feat` is `TokenList::get_features` on the parsed
value. -/
def Cond.features? (feat : List Tok → Flags) : Cond → Option Flags
  | .and cs => Cond.featuresAll feat 0#32 cs
  | .decl _ v => some (feat v)
  | .not _ => none
  | .or _ => none
  | .selector _ => some 0#32
  | .unknown _ => some 0#32
/-- src/targets.rs:180-188 `try_union_all`. -/
def Cond.featuresAll (feat : List Tok → Flags) (acc : Flags) : List Cond → Option Flags
  | [] => some acc
  | c :: cs => match c.features? feat with
    | none => none
    | some f => Cond.featuresAll feat (acc ||| f) cs
end

/-- src/rules/supports.rs:173-194 `get_supported_features`. -/
def Cond.supportedFeatures (feat : List Tok → Flags) (c : Cond) : Flags := (c.features? feat).getD 0#32

/-! ### Printing -/

/-- The tokens of `name: value` for one prefix (src/rules/supports.rs:398-403). -/
def declToks (name : Str) (value : List Tok) (p : Prefix) : List Tok :=
  .ident (prefixStr p ++ name) :: .colon :: value

/-- src/rules/supports.rs:390-405, the loop `for p in prefix` with `) or (` between the items. -/
def declList (name : Str) (value : List Tok) : List Prefix → List Tok
  | [] => []
  | [p] => [.paren (declToks name value p)]
  | p :: ps => .paren (declToks name value p) :: .ident cs!"or" :: declList name value ps

/-- src/rules/supports.rs:382-412, printing of a declaration. -/
def printDecl (p : PropId) (value : List Tok) : Tok :=
  if orNone p.pre = Prefix.none.set then .paren (declToks p.name value .none)
  else .paren (declList p.name value (flagsOf (orNone p.pre)))

/-- The two list operators. -/
inductive Op where
  | and | or
deriving DecidableEq, Repr

/-- The keyword of an operator. -/
def Op.kw : Op → Str
  | .and => cs!"and"
  | .or => cs!"or"

/-- src/rules/supports.rs:324-331 `needs_parens`; `parent` is the operator of the parent (`none` under `not`). -/
def Cond.needsParens (parent : Option Op) : Cond → Bool
  | .not _ => true
  | .and _ => parent != some .and
  | .or _ => parent != some .or
  | _ => false

/-- src/rules/supports.rs:333-345 `to_css_with_parens_if_needed`. -/
def parensIf (b : Bool) (ts : List Tok) : List Tok := if b then [.paren ts] else ts

mutual
/-- src/rules/supports.rs:348-423 `ToCss for SupportsCondition`. -/
def Cond.print : Cond → List Tok
  | .not c => .ident cs!"not" :: parensIf (c.needsParens none) c.print
  | .and cs => Cond.printItems .and cs
  | .or cs => Cond.printItems .or cs
  | .decl p v => [printDecl p v]
  | .selector ts => [.func cs!"selector" ts]
  | .unknown t => [t]
/-- src/rules/supports.rs:357-380, the loops over the items. -/
def Cond.printItems (o : Op) : List Cond → List Tok
  | [] => []
  | c :: cs => parensIf (c.needsParens (some o)) c.print ++ Cond.printRest o cs
/-- The items after the first. -/
def Cond.printRest (o : Op) : List Cond → List Tok
  | [] => []
  | c :: cs => .ident o.kw :: (parensIf (c.needsParens (some o)) c.print ++ Cond.printRest o cs)
end

/-! ### Parsing -/

/-- src/rules/supports.rs:239-247: add the prefix to the first condition with the same key. The code keeps an index per
key; every key is inserted together with the condition it belongs to, so looking the key up among the conditions is
the same. Returns `none` when there is none. -/
def addToSeen (p : PropId) (v : List Tok) : List Cond → Option (List Cond)
  | [] => none
  | c :: cs =>
    match c with
    | .decl q w =>
      if q.withPrefix Prefix.none.set = p && Tok.beqList w v then some (.decl (q.addPrefix p.pre) w :: cs)
      else (addToSeen p v cs).map (c :: ·)
    | _ => (addToSeen p v cs).map (c :: ·)

/-- src/rules/supports.rs:230-256: add one parsed condition to the list. Note that `with_prefix(None)` forgets the
prefix of the added declaration. -/
def pushCond (conds : List Cond) (c : Cond) : List Cond :=
  match c with
  | .decl p v =>
    match addToSeen (p.withPrefix Prefix.none.set) v conds with
    | some conds => conds
    | none => conds ++ [.decl (p.withPrefix Prefix.none.set) v]
  | c => conds ++ [c]

/-- The operator a keyword stands for. -/
def opOf (s : Str) : Option Op :=
  if lower s = cs!"and" then some .and else if lower s = cs!"or" then some .or else none

/-- src/rules/supports.rs:296-311 `parse_declaration`. -/
def parseDecl (tbl : PropTable) : List Tok → Option Cond
  | .ident s :: .colon :: v => some (.decl (PropId.parse tbl s) v)
  | _ => none

/-- src/rules/supports.rs:261-270, the end of `parse`: `first` is `in_parens`. -/
def finish (first : Cond) (expected : Option Op) (conds : List Cond) : Cond :=
  match conds with
  | [c] => c
  | conds => match expected with
    | some .and => .and conds
    | some .or => .or conds
    | none => first

mutual
/-- src/rules/supports.rs:276-313 `parse_in_parens` on the next token; `none` is an error. -/
def parseInParens (tbl : PropTable) : Tok → Option Cond
  | .func f ts => if lower f = cs!"selector" then some (.selector ts) else some (.unknown (.func f ts))
  | .paren ts =>
    match parseCond tbl ts with
    | some (c, []) => some c
    | some (_, _ :: _) => some (.unknown (.paren ts))
    | none => match parseDecl tbl ts with
      | some c => some c
      | none => some (.unknown (.paren ts))
  | _ => none
/-- src/rules/supports.rs:197-271 `SupportsCondition::parse`: the condition and the tokens that are left. -/
def parseCond (tbl : PropTable) : List Tok → Option (Cond × List Tok)
  | [] => none
  | [t] =>
    match parseInParens tbl t with
    | none => none
    | some first => some (finish first none [], [])
  | .ident s :: x :: rest =>
    if lower s = cs!"not" then
      match parseInParens tbl x with
      | none => none
      | some c => some (.not c, rest)
    else none
  | t :: rest =>
    match parseInParens tbl t with
    | none => none
    | some first =>
      match parseLoop tbl first none [] rest with
      | (conds, expected, rest) => some (finish first expected conds, rest)
/-- src/rules/supports.rs:207-259, the loop. `conds` is empty until the first operator is found. -/
def parseLoop (tbl : PropTable) (first : Cond) (expected : Option Op) (conds : List Cond) :
    List Tok → List Cond × Option Op × List Tok
  | .ident s :: x :: rest =>
    match opOf s with
    | none => (conds, expected, .ident s :: x :: rest)
    | some o =>
      if expected = none ∨ expected = some o then
        match parseInParens tbl x with
        | none => (conds, some o, .ident s :: x :: rest)
        | some c =>
          parseLoop tbl first (some o) (pushCond (if conds.isEmpty then [first] else conds) c) rest
      else (conds, expected, .ident s :: x :: rest)
  | [.ident s] =>
    match opOf s with
    | none => (conds, expected, [.ident s])
    | some o => if expected = none ∨ expected = some o then (conds, some o, [.ident s]) else (conds, expected, [.ident s])
  | ts => (conds, expected, ts)
end

/-- Parsing a whole condition: the callers require the input to be exhausted. -/
def parseFull (tbl : PropTable) (ts : List Tok) : Option Cond :=
  match parseCond tbl ts with
  | some (c, []) => some c
  | _ => none

end Verif.Supports
