import Verif.Modules.Model
/-! What patterns, names and exports should be. -/
namespace Verif.Modules

/-- The text of a segment in a pattern. -/
def segSource : Seg → Str
  | .lit s => s
  | .name => cs!"[name]"
  | .loc => cs!"[local]"
  | .hash => cs!"[hash]"
  | .content => cs!"[content-hash]"

/-- The text of a pattern. -/
def render (segs : List Seg) : Str := segs.flatMap segSource

/-- Literals are not empty and contain no `[`, and no two are next to each other. -/
def Normal : List Seg → Prop
  | [] => True
  | .lit s :: rest => s ≠ [] ∧ '[' ∉ s ∧ (∀ t rest', rest ≠ .lit t :: rest') ∧ Normal rest
  | _ :: rest => Normal rest

/-! ### Reading identifiers (CSS Syntax 3, sections 4.3.7, 4.3.8, 4.3.9 and 4.3.11) -/

/-- A hexadecimal digit. -/
def isHex (c : Char) : Bool := c.isDigit || ('a' ≤ c && c ≤ 'f') || ('A' ≤ c && c ≤ 'F')

/-- The value of a hexadecimal digit. -/
def hexVal (c : Char) : Nat := if c.isDigit then c.toNat - 48 else if 'a' ≤ c then c.toNat - 87 else c.toNat - 55

/-- A newline (after preprocessing) or other whitespace. -/
def isWs (c : Char) : Bool := c = '\n' || c = '\t' || c = ' '

/-- A letter, `_` or a character that is not ASCII. -/
def isNameStart (c : Char) : Bool := c.isUpper || c.isLower || c = '_' || 128 ≤ c.toNat

/-- Those, digits and `-`. -/
def isName (c : Char) : Bool := isNameStart c || c.isDigit || c = '-'

/-- Two characters are a valid escape. -/
def validEscape : Str → Bool
  | '\\' :: c :: _ => c != '\n'
  | ['\\'] => true
  | _ => false

/-- A name goes on with this text. -/
def continues (t : Str) : Bool := validEscape t || (match t with | c :: _ => isName c | [] => false)

/-- Three characters would start an identifier. -/
def startsIdent : Str → Bool
  | '-' :: t => (match t with | c :: _ => isNameStart c || c = '-' | [] => false) || validEscape t
  | c :: t => isNameStart c || validEscape (c :: t)
  | [] => false

/-- The number of hexadecimal digits. -/
def hexNumber (ds : Str) : Nat := ds.foldl (fun n d => n * 16 + hexVal d) 0

/-- `Reads text name rest`: an identifier sequence consumed from `text` is `name`, and `rest` is left. -/
inductive Reads : Str → Str → Str → Prop
  | done (t) : continues t = false → Reads t [] t
  | char (c t n r) : isName c = true → Reads t n r → Reads (c :: t) (c :: n) r
  | escape (c t n r) : isHex c = false → c ≠ '\n' → Reads t n r → Reads ('\\' :: c :: t) (c :: n) r
  | hexSpace (ds w t n r) (c : Char) : ds ≠ [] → ds.length ≤ 6 → (∀ d ∈ ds, isHex d = true) → isWs w = true → hexNumber ds = c.toNat → c.toNat ≠ 0 →
    Reads t n r → Reads ('\\' :: ds ++ w :: t) (c :: n) r
  | hexEnd (ds t n r) (c : Char) : ds ≠ [] → ds.length ≤ 6 → (∀ d ∈ ds, isHex d = true) →
    (∀ d t', t = d :: t' → isWs d = false ∧ (ds.length < 6 → isHex d = false)) → hexNumber ds = c.toNat → c.toNat ≠ 0 →
    Reads t n r → Reads ('\\' :: ds ++ t) (c :: n) r

/-! ### Exports -/

/-- Which printed names are scoped, by the documentation of the options: the name exported. -/
def scopedName (cfg : Config) : Use → Option Str
  | .sel s => some s
  | .keyframes s | .animationIdent s | .animationString s => if cfg.animation then some s else none
  | .ident s | .counterStyle s => if cfg.customIdents then some s else none
  | .container s => if cfg.container then some s else none
  | .dashedDecl s | .dashedRef s none _ => if cfg.dashedIdents then some s else none
  | .dashedRef _ (some _) _ => none

/-- The uses that print dashed identifiers. -/
def isDashed : Use → Bool
  | .dashedDecl _ | .dashedRef .. => true
  | _ => false

/-- The compiled name of a scoped name. -/
def compiled (cfg : Config) (src : Source) (u : Use) (s : Str) : Str :=
  if isDashed u then cs!"--" ++ writeName cfg.pattern src (s.drop 2) else writeName cfg.pattern src s

/-- The elements of a list without repetitions, in the order of their first appearance. -/
def firstOnly {α : Type} [DecidableEq α] : List α → List α
  | [] => []
  | x :: l => x :: (firstOnly l).filter (· ≠ x)

/-- A reference of `composes` as the documentation describes it. -/
def refOf (cfg : Config) (src : Source) (srcFrom : Option Spec) (name : Str) : Ref :=
  match srcFrom with
  | some .global => .glob name
  | some (.file f) => .dep name f
  | _ => .loc (writeName cfg.pattern src name)
end Verif.Modules
