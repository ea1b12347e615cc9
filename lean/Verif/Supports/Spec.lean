import Verif.Supports.Model
/-! Specification of `@supports` conditions (css-conditional-3 §6).

A browser is described by what it says to atomic questions: is this declaration supported (by property name and
value), is this selector supported, and what does it say about text that is neither (`<general-enclosed>`).
`Cond.eval` is the meaning of a condition of the data model, `textCond` the meaning of text, defined directly
from the grammar, without the model's printer or parser. -/
namespace Verif.Supports
open Verif.Targets

/-- A browser. -/
structure Browser where
  decl : Str → List Tok → Bool
  sel : List Tok → Bool
  unk : Tok → Bool

/-- Property names are ASCII case-insensitive, custom properties are not. -/
def canonical (n : Str) : Str := if n.take 2 = cs!"--" then n else lower n

/-- A declaration of the data model stands for "supported under one of its prefixes" (none when the set is empty). -/
def Browser.anyPrefix (b : Browser) (p : PropId) (v : List Tok) : Bool :=
  match p.vp with
  | none => b.decl (canonical p.name) v
  | some s =>
    if s = .empty then b.decl (canonical p.name) v
    else
      (s.none && b.decl (canonical p.name) v) || (s.webkit && b.decl (canonical (cs!"-webkit-" ++ p.name)) v) ||
      (s.moz && b.decl (canonical (cs!"-moz-" ++ p.name)) v) || (s.ms && b.decl (canonical (cs!"-ms-" ++ p.name)) v) ||
      (s.o && b.decl (canonical (cs!"-o-" ++ p.name)) v)

mutual
/-- Truth of a condition of the data model in a browser. -/
def Cond.eval (b : Browser) : Cond → Bool
  | .not c => !(c.eval b)
  | .and cs => Cond.evalAll b cs
  | .or cs => Cond.evalAny b cs
  | .decl p v => b.anyPrefix p v
  | .selector ts => b.sel ts
  | .unknown t => b.unk t
/-- All of a list. -/
def Cond.evalAll (b : Browser) : List Cond → Bool
  | [] => true
  | c :: cs => c.eval b && Cond.evalAll b cs
/-- Some of a list. -/
def Cond.evalAny (b : Browser) : List Cond → Bool
  | [] => false
  | c :: cs => c.eval b || Cond.evalAny b cs
end

mutual
/-- `<supports-in-parens>`: `( <supports-condition> ) | ( <declaration> ) | selector( .. ) | <general-enclosed>`.
`none` when the token is none of them. -/
def textInParens (b : Browser) : Tok → Option Bool
  | .paren ts =>
    match textCond b ts with
    | some v => some v
    | none => match ts with
      | .ident n :: .colon :: v => some (b.decl (canonical n) v)
      | _ => some (b.unk (.paren ts))
  | .func f ts => some (if lower f = cs!"selector" then b.sel ts else b.unk (.func f ts))
  | _ => none
/-- `<supports-condition>`: `not <in-parens> | <in-parens> [and <in-parens>]* | <in-parens> [or <in-parens>]*`. -/
def textCond (b : Browser) : List Tok → Option Bool
  | [] => none
  | [t] => textInParens b t
  | .ident k :: x :: rest =>
    if lower k = cs!"not" ∧ rest = [] then (textInParens b x).map (!·) else none
  | t :: rest =>
    match textInParens b t with
    | none => none
    | some v =>
      match textAnds b rest with
      | some w => some (v && w)
      | none => (textOrs b rest).map (v || ·)
/-- `[and <in-parens>]*`. -/
def textAnds (b : Browser) : List Tok → Option Bool
  | [] => some true
  | .ident k :: x :: rest =>
    if lower k = cs!"and" then
      match textInParens b x, textAnds b rest with
      | some v, some w => some (v && w)
      | _, _ => none
    else none
  | _ => none
/-- `[or <in-parens>]*`. -/
def textOrs (b : Browser) : List Tok → Option Bool
  | [] => some false
  | .ident k :: x :: rest =>
    if lower k = cs!"or" then
      match textInParens b x, textOrs b rest with
      | some v, some w => some (v || w)
      | _, _ => none
    else none
  | _ => none
end

mutual
/-- Conditions that can be written down: no empty `and`/`or` list, and unknown text is really unknown: a function other
than `selector()`, or a block that is neither a condition nor a declaration. -/
def Cond.WF : Cond → Prop
  | .not c => c.WF
  | .and cs => cs ≠ [] ∧ Cond.WFAll cs
  | .or cs => cs ≠ [] ∧ Cond.WFAll cs
  | .decl _ _ => True
  | .selector _ => True
  | .unknown t => ∀ b, textInParens b t = some (b.unk t)
/-- All of a list. -/
def Cond.WFAll : List Cond → Prop
  | [] => True
  | c :: cs => c.WF ∧ Cond.WFAll cs
end

/-- A property name without vendor prefix. -/
def vendorFree (n : Str) : Prop :=
  ∀ p ∈ [cs!"-webkit-", cs!"-moz-", cs!"-ms-", cs!"-o-"], ¬ p <+: lower n

mutual
/-- No declaration in the text has a vendor prefix. -/
def plainTok : Tok → Prop
  | .paren ts => plainToks ts ∧ ∀ n v, ts = .ident n :: .colon :: v → vendorFree n
  | _ => True
/-- All of a list. -/
def plainToks : List Tok → Prop
  | [] => True
  | t :: ts => plainTok t ∧ plainToks ts
end

/-- The names in the table of properties are lower case and are not custom property names. -/
def PropTable.WF (tbl : PropTable) : Prop :=
  ∀ n, tbl.lookup n ≠ none → n.take 2 ≠ cs!"--"

end Verif.Supports
