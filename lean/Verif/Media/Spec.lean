import Verif.Media.Model
/-
Independent specification of media queries (CSS Media Queries Level 4), used by Props.lean.

* Evaluation uses three-valued (Kleene) logic, §3.1 of the specification: a feature the browser does not know
  is `unknown`; a query list treats `unknown` as not matching.
* A `Device` gives the media type and answers each *standard* feature. Custom and unknown feature names
  are not known to any browser.
* `CondMeans` / `QueryMeans` define the meaning of *text* (token trees) directly from the grammar of the
  specification, without using the model's parser or printer.

Only data types are taken from the model: `Tok`, `Cond`, `Query`, `FeatureId`, the feature table.
-/
namespace Verif.Media

/-- Kleene truth values. -/
inductive K3 where
  | t | f | u
deriving DecidableEq, Repr

namespace K3
/-- Kleene negation. -/
def not : K3 → K3
  | t => f
  | f => t
  | u => u
/-- Kleene conjunction. -/
def and : K3 → K3 → K3
  | f, _ => f
  | _, f => f
  | t, t => t
  | _, _ => u
/-- Kleene disjunction. -/
def or : K3 → K3 → K3
  | t, _ => t
  | _, t => t
  | f, f => f
  | _, _ => u
/-- Two-valued truth values. -/
def ofBool : Bool → K3
  | true => t
  | false => f
end K3

/-- A browser/device. `compare id v` says how the device's value of feature `id` relates to `v`
(`none` when they are not comparable), `discrete` answers `(feature: value)` for features that are not of range
type, `truthy` answers `(feature)`. -/
structure Device where
  type : MediaType
  compare : FeatureId → Val → Option Ordering
  discrete : FeatureId → Val → K3
  truthy : FeatureId → K3

/-- A comparison operator holds of an ordering of (device value, value). -/
def Cmp.holds : Cmp → Ordering → Bool
  | .eq, o => o == .eq
  | .gt, o => o == .gt
  | .ge, o => o != .lt
  | .lt, o => o == .lt
  | .le, o => o != .gt

/-- Device value `op` v, for a standard feature. -/
def Device.rel (d : Device) (id : FeatureId) (op : Cmp) (v : Val) : K3 :=
  match d.compare id v with
  | none => .u
  | some o => .ofBool (op.holds o)

/-- Device value `op` v for a name: only standard names are known. -/
def Device.relName (d : Device) (n : Name) (op : Cmp) (v : Val) : K3 :=
  match n with
  | .standard id => d.rel id op v
  | _ => .u

/-- The comparison read from right to left: `v op feature` says `feature op' v`. -/
def Cmp.flip : Cmp → Cmp
  | .gt => .lt
  | .lt => .gt
  | .ge => .le
  | .le => .ge
  | .eq => .eq

/-- `(feature: value)`: equality for range features, a discrete test for the others. -/
def Device.plainName (d : Device) (n : Name) (v : Val) : K3 :=
  match n with
  | .standard id => if id.ftype.allowsRanges then d.rel id .eq v else d.discrete id v
  | _ => .u

/-- Meaning of a feature of the data model. -/
def Feature.eval (d : Device) : Feature → K3
  | .boolean (.standard id) => d.truthy id
  | .boolean _ => .u
  | .plain n v => d.plainName n v
  | .range n op v => d.relName n op v
  | .interval n a opa b opb => (d.relName n opa.flip a).and (d.relName n opb b)

mutual
/-- Meaning of a condition of the data model. Unparsed tokens are `unknown` (`<general-enclosed>`). -/
def Cond.eval (d : Device) : Cond → K3
  | .feature f => f.eval d
  | .not c => (Cond.eval d c).not
  | .op .and cs => Cond.evalAll d cs
  | .op .or cs => Cond.evalAny d cs
  | .unknown _ => .u
/-- Conjunction of a list. -/
def Cond.evalAll (d : Device) : List Cond → K3
  | [] => .t
  | c :: cs => (Cond.eval d c).and (Cond.evalAll d cs)
/-- Disjunction of a list. -/
def Cond.evalAny (d : Device) : List Cond → K3
  | [] => .f
  | c :: cs => (Cond.eval d c).or (Cond.evalAny d cs)
end

/-- A device is of media type `m`. -/
def MediaType.matchesDevice (m : MediaType) (d : Device) : Bool :=
  match m with
  | .all => true
  | m => m == d.type

/-- An absent condition is true. -/
def optEval (d : Device) : Option Cond → K3
  | none => .t
  | some c => c.eval d

/-- Media type and condition, before the qualifier. -/
def typeAndCond (d : Device) (m : MediaType) (c : Option Cond) : K3 :=
  (K3.ofBool (m.matchesDevice d)).and (optEval d c)

/-- Meaning of a media query: `not` negates the whole query, `only` has no effect. -/
def Query.eval (d : Device) (q : Query) : K3 :=
  match q.qualifier with
  | some .not => (typeAndCond d q.type q.cond).not
  | _ => typeAndCond d q.type q.cond

/-- A query matches when it is true (unknown counts as false). -/
def Query.matches (d : Device) (q : Query) : Prop := q.eval d = .t

/-- A media query list matches when it is empty or one of its queries matches. -/
def ListMatches (d : Device) (l : List Query) : Prop := l = [] ∨ ∃ q ∈ l, q.matches d

/-! ### Meaning of text -/

/-- An identifier is the given keyword, ignoring ASCII case. -/
def Kw (s kw : Str) : Prop := lowerAscii s = kw

/-- The (lower-case) text of a feature name, optionally with `min-`/`max-`; `-webkit-` goes before `min-`. -/
inductive NameText : Str → FeatureId → Option Cmp → Prop where
  | bare (id : FeatureId) : NameText id.name id none
  | min (id : FeatureId) (h : id ≠ .webKitDevicePixelRatio) : NameText (cs!"min-" ++ id.name) id (some .ge)
  | max (id : FeatureId) (h : id ≠ .webKitDevicePixelRatio) : NameText (cs!"max-" ++ id.name) id (some .le)
  | wkMin : NameText cs!"-webkit-min-device-pixel-ratio" .webKitDevicePixelRatio (some .ge)
  | wkMax : NameText cs!"-webkit-max-device-pixel-ratio" .webKitDevicePixelRatio (some .le)

/-- A name no browser knows (with or without a `min-`/`max-` prefix). -/
def UnknownText (s : Str) : Prop := ∀ id op, ¬ NameText (lowerAscii s) id op

/-- Tokens of a comparison operator. -/
inductive OpText : List Tok → Cmp → Prop where
  | eq : OpText [.delim '='] .eq
  | gt : OpText [.delim '>'] .gt
  | ge : OpText [.delim '>', .delim '='] .ge
  | lt : OpText [.delim '<'] .lt
  | le : OpText [.delim '<', .delim '='] .le

/-- A token that is not an identifier. In `(a < b)` an identifier in front is read as the feature name, so a value
that comes first is not an identifier. -/
def NotIdent (t : Tok) : Prop := ∀ s, t ≠ .ident s

/-- Token of a value. -/
inductive ValText : Tok → Val → Prop where
  | ident (s) : ValText (.ident s) (.ident s)
  | other (ty n) : ValText (.val ty n) (.other ty n)

/-- Meaning of the tokens between the parentheses of a `<media-feature>`. -/
inductive FeatureMeans : List Tok → (Device → K3) → Prop where
  /-- `(feature)` -/
  | boolean {s id} : NameText (lowerAscii s) id none → FeatureMeans [.ident s] (fun d => d.truthy id)
  /-- `(feature)` for a name that is not known -/
  | booleanUnknown {s} : UnknownText s → FeatureMeans [.ident s] (fun _ => .u)
  /-- `(feature: value)` -/
  | plain {s id tv v} : NameText (lowerAscii s) id none → ValText tv v →
      FeatureMeans [.ident s, .colon, tv] (fun d => d.plainName (.standard id) v)
  /-- `(min-feature: value)`, `(max-feature: value)` -/
  | minmax {s id op tv v} : NameText (lowerAscii s) id (some op) → ValText tv v →
      FeatureMeans [.ident s, .colon, tv] (fun d => d.rel id op v)
  /-- `(unknown: value)` -/
  | plainUnknown {s tv v} : UnknownText s → ValText tv v →
      FeatureMeans [.ident s, .colon, tv] (fun _ => .u)
  /-- `(feature op value)` -/
  | range {s id ops op tv v} : NameText (lowerAscii s) id none → OpText ops op → ValText tv v →
      FeatureMeans ([.ident s] ++ ops ++ [tv]) (fun d => d.rel id op v)
  /-- `(unknown op value)` -/
  | rangeUnknown {s ops op tv v} : UnknownText s → OpText ops op → ValText tv v →
      FeatureMeans ([.ident s] ++ ops ++ [tv]) (fun _ => .u)
  /-- `(value op feature)` -/
  | rangeFlip {s id ops op tv v} : NameText (lowerAscii s) id none → OpText ops op → ValText tv v → NotIdent tv →
      FeatureMeans ([tv] ++ ops ++ [.ident s]) (fun d => d.rel id op.flip v)
  /-- `(value op unknown)` -/
  | rangeFlipUnknown {s ops op tv v} : UnknownText s → OpText ops op → ValText tv v → NotIdent tv →
      FeatureMeans ([tv] ++ ops ++ [.ident s]) (fun _ => .u)
  /-- `(value op feature op value)` -/
  | interval {s id ops op ops' op' tv v tv' v'} :
      NameText (lowerAscii s) id none → OpText ops op → OpText ops' op' → ValText tv v → NotIdent tv → ValText tv' v' →
      FeatureMeans ([tv] ++ ops ++ [.ident s] ++ ops' ++ [tv'])
        (fun d => (d.rel id op.flip v).and (d.rel id op' v'))
  /-- `(value op unknown op value)` -/
  | intervalUnknown {s ops op ops' op' tv v tv' v'} :
      UnknownText s → OpText ops op → OpText ops' op' → ValText tv v → NotIdent tv → ValText tv' v' →
      FeatureMeans ([tv] ++ ops ++ [.ident s] ++ ops' ++ [tv']) (fun _ => .u)

mutual
/-- `<media-in-parens>` : one parenthesised block. -/
inductive InParens : Tok → (Device → K3) → Prop where
  | cond {ts m} : CondMeans ts m → InParens (.paren ts) m
  | feature {ts m} : FeatureMeans ts m → InParens (.paren ts) m
/-- `<media-condition>`. -/
inductive CondMeans : List Tok → (Device → K3) → Prop where
  | withoutOr {ts m} : CondNoOr ts m → CondMeans ts m
  | or {t m ts m'} : InParens t m → OrTail ts m' → CondMeans (t :: ts) (fun d => (m d).or (m' d))
/-- `<media-condition-without-or>`. -/
inductive CondNoOr : List Tok → (Device → K3) → Prop where
  | single {t m} : InParens t m → CondNoOr [t] m
  | not {s t m} : Kw s cs!"not" → InParens t m → CondNoOr [.ident s, t] (fun d => (m d).not)
  | and {t m ts m'} : InParens t m → AndTail ts m' → CondNoOr (t :: ts) (fun d => (m d).and (m' d))
/-- `[ and <media-in-parens> ]+` -/
inductive AndTail : List Tok → (Device → K3) → Prop where
  | last {s t m} : Kw s cs!"and" → InParens t m → AndTail [.ident s, t] m
  | more {s t m ts m'} : Kw s cs!"and" → InParens t m → AndTail ts m' →
      AndTail (.ident s :: t :: ts) (fun d => (m d).and (m' d))
/-- `[ or <media-in-parens> ]+` -/
inductive OrTail : List Tok → (Device → K3) → Prop where
  | last {s t m} : Kw s cs!"or" → InParens t m → OrTail [.ident s, t] m
  | more {s t m ts m'} : Kw s cs!"or" → InParens t m → OrTail ts m' →
      OrTail (.ident s :: t :: ts) (fun d => (m d).or (m' d))
end

/-- Text of a media type; keywords other than `all`, `print`, `screen` name a further type. -/
inductive TypeText : Str → MediaType → Prop where
  | all {s} : Kw s cs!"all" → TypeText s .all
  | print {s} : Kw s cs!"print" → TypeText s .print
  | screen {s} : Kw s cs!"screen" → TypeText s .screen
  | custom {s} : ¬ Kw s cs!"all" → ¬ Kw s cs!"print" → ¬ Kw s cs!"screen" → TypeText s (.custom s)

/-- `[ and <media-condition-without-or> ]?` -/
inductive AndCondOpt : List Tok → (Device → K3) → Prop where
  | none : AndCondOpt [] (fun _ => .t)
  | some {s ts m} : Kw s cs!"and" → CondNoOr ts m → AndCondOpt (.ident s :: ts) m

/-- `<media-query>`. -/
inductive QueryMeans : List Tok → (Device → K3) → Prop where
  | cond {ts m} : CondMeans ts m → QueryMeans ts m
  | type {s ty ts m} : ¬ Kw s cs!"not" → ¬ Kw s cs!"only" → TypeText s ty → AndCondOpt ts m →
      QueryMeans (.ident s :: ts) (fun d => (K3.ofBool (ty.matchesDevice d)).and (m d))
  | only {k s ty ts m} : Kw k cs!"only" → TypeText s ty → AndCondOpt ts m →
      QueryMeans (.ident k :: .ident s :: ts) (fun d => (K3.ofBool (ty.matchesDevice d)).and (m d))
  | not {k s ty ts m} : Kw k cs!"not" → TypeText s ty → AndCondOpt ts m →
      QueryMeans (.ident k :: .ident s :: ts)
        (fun d => ((K3.ofBool (ty.matchesDevice d)).and (m d)).not)

/-- `<media-query-list>`: comma separated, at least one query; the empty text matches every device. -/
inductive ListMeans : List Tok → (Device → Prop) → Prop where
  | empty : ListMeans [] (fun _ => True)
  | single {ts m} : QueryMeans ts m → ListMeans ts (fun d => m d = .t)
  | cons {ts m rest p} : QueryMeans ts m → ListMeans rest p → rest ≠ [] →
      ListMeans (ts ++ [.comma] ++ rest) (fun d => m d = .t ∨ p d)

end Verif.Media
