import Verif.Common.Chars
/-! Model of CSS modules (src/css_modules.rs and the parts of src/printer.rs and src/values/ident.rs that write names). -/
namespace Verif.Modules

/-! ### Patterns -/

/-- src/css_modules.rs:191-203 `Segment`. -/
inductive Seg
  | lit (s : Str)
  | name
  | loc
  | hash
  | content
deriving DecidableEq, Repr

/-- src/css_modules.rs:81-88 `PatternParseError`. Indices count bytes. -/
inductive PErr
  | unknown (p : Str) (i : Nat)
  | unclosed (i : Nat)
deriving DecidableEq, Repr

/-- The length of a string in bytes (Rust `str::len`). -/
def bytes : Str → Nat
  | [] => 0
  | c :: s => c.utf8Size + bytes s

/-- `find(c)` and slicing: the part before the first `c`, and the part from it on if there is one. -/
def splitAt (c : Char) : Str → Str × Option Str
  | [] => ([], none)
  | d :: s => if d = c then ([], some (d :: s)) else (d :: (splitAt c s).1, (splitAt c s).2)

/-- src/css_modules.rs:112-118 the placeholders. -/
def placeholder (s : Str) : Option Seg :=
  if s = cs!"[name]" then some .name
  else if s = cs!"[local]" then some .loc
  else if s = cs!"[hash]" then some .hash
  else if s = cs!"[content-hash]" then some .content
  else none

/-- src/css_modules.rs:107-132 the loop of `Pattern::parse`; `start` is `start_idx` and the first argument bounds the number of rounds
(the length of the input suffices, see `parseLoop_enough`). -/
def parseLoop : Nat → Str → Nat → List Seg → Except PErr (List Seg)
  | 0, _, _, segs => .ok segs
  | _ + 1, [], _, segs => .ok segs
  | n + 1, c :: input, start, segs =>
    if c = '[' then
      match splitAt ']' (c :: input) with
      | (_, none) => .error (.unclosed start)
      | (before, some rest) =>
        match placeholder (before ++ [']']) with
        | none => .error (.unknown (before ++ [']']) start)
        | some seg => parseLoop n rest.tail (start + bytes before + 1) (segs ++ [seg])
    else
      let (before, rest) := splitAt '[' (c :: input)
      parseLoop n (rest.getD []) (start + bytes before) (segs ++ [.lit before])

/-- src/css_modules.rs:106-135 `Pattern::parse`. -/
def parse (input : Str) : Except PErr (List Seg) := parseLoop (input.length + 1) input 0 []

/-- What is known about a source file: the hash of its path, its file stem and the hash of its contents (`hashes`, `sources`,
`content_hashes`). -/
structure Source where
  hash : Str
  stem : Str
  content : Str

/-- src/css_modules.rs:155-162 the text of a segment. -/
def segText (src : Source) (loc : Str) : Seg → Str
  | .lit s => s
  | .name => src.stem.map fun c => if c = '.' then '-' else c
  | .loc => loc
  | .hash => src.hash
  | .content => src.content

/-- src/css_modules.rs:142-192 `Pattern::write` and `write_to_string`. -/
def writeName (pat : List Seg) (src : Source) (loc : Str) : Str := pat.flatMap (segText src loc)

/-! ### Identifiers -/

/-- A lower case hexadecimal digit. -/
def hexDigit (n : Nat) : Char := if n < 10 then Char.ofNat (48 + n) else Char.ofNat (87 + n)

/-- cssparser `hex_escape` (not in /repo): a backslash, one or two digits and a space. -/
def hexEscape (c : Char) : Str :=
  if c.toNat > 15 then ['\\', hexDigit (c.toNat / 16), hexDigit (c.toNat % 16), ' '] else ['\\', hexDigit c.toNat, ' ']

/-- The characters of names that are written as they are. -/
def plain (c : Char) : Bool := c.isDigit || c.isUpper || c.isLower || c = '_' || c = '-' || 128 ≤ c.toNat

/-- cssparser `serialize_name` (not in /repo), one character. -/
def nameChar (c : Char) : Str :=
  if plain c then [c]
  else if c.toNat = 0 then ['\uFFFD']
  else if c.toNat < 32 || c.toNat = 127 then hexEscape c
  else ['\\', c]

/-- cssparser `serialize_name` (not in /repo). -/
def serName (s : Str) : Str := s.flatMap nameChar

/-- cssparser `serialize_identifier` (not in /repo), after the optional dash. -/
def serDigit : Str → Str
  | [] => []
  | c :: s => if c.isDigit then hexEscape c ++ serName s else serName (c :: s)

/-- cssparser `serialize_identifier` (not in /repo). -/
def serIdent : Str → Str
  | [] => []
  | '-' :: '-' :: s => '-' :: '-' :: serName s
  | ['-'] => ['\\', '-']
  | '-' :: s => '-' :: serDigit s
  | s => serDigit s

/-! ### Exports -/

/-- src/css_modules.rs:216-232 `CssModuleReference`. -/
inductive Ref
  | loc (name : Str)
  | glob (name : Str)
  | dep (name specifier : Str)
deriving DecidableEq, Repr

/-- src/css_modules.rs:235-245 `CssModuleExport`. -/
structure Export where
  name : Str
  composes : List Ref
  isReferenced : Bool
deriving DecidableEq, Repr

/-- A map of exports (`HashMap`). -/
abbrev Exports := List (Str × Export)

/-- Lookup. -/
def get (k : Str) : Exports → Option Export
  | [] => none
  | (k', e) :: m => if k' = k then some e else get k m

/-- Change of an entry (`get_mut`). -/
def modify (k : Str) (f : Export → Export) : Exports → Exports
  | [] => []
  | (k', e) :: m => if k' = k then (k', f e) :: m else (k', e) :: modify k f m

/-- `entry(k).or_insert_with(e)`. -/
def orInsert (k : Str) (e : Export) (m : Exports) : Exports := if (get k m).isSome then m else m ++ [(k, e)]

/-- The configuration (src/css_modules.rs:29-48) without `pure` and `grid`. -/
structure Config where
  pattern : List Seg
  dashedIdents : Bool
  animation : Bool
  container : Bool
  customIdents : Bool

/-- `CssModule` (src/css_modules.rs:263-270): the exports of each source. -/
abbrev State := Nat → Exports

/-- The exports of a source change. -/
def State.upd (st : State) (i : Nat) (f : Exports → Exports) : State := fun j => if j = i then f (st j) else st j

/-- src/css_modules.rs:315-337 `add_local` with equal arguments, as it is always called. -/
def addLocal (cfg : Config) (srcs : Nat → Source) (s : Str) (i : Nat) (st : State) : State :=
  st.upd i (orInsert s ⟨writeName cfg.pattern (srcs i) s, [], false⟩)

/-- src/css_modules.rs:339-361 `add_dashed`. -/
def addDashed (cfg : Config) (srcs : Nat → Source) (s : Str) (i : Nat) (st : State) : State :=
  st.upd i (orInsert s ⟨cs!"--" ++ writeName cfg.pattern (srcs i) (s.drop 2), [], false⟩)

/-- src/css_modules.rs:363-389 `reference`. -/
def reference (cfg : Config) (srcs : Nat → Source) (s : Str) (i : Nat) (st : State) : State :=
  st.upd i fun m => if (get s m).isSome then modify s (fun e => { e with isReferenced := true }) m
    else m ++ [(s, ⟨writeName cfg.pattern (srcs i) s, [], true⟩)]

/-- src/properties/css_modules.rs `Specifier`. -/
inductive Spec
  | global
  | file (f : Str)
  | index (i : Nat)
deriving DecidableEq

/-- src/css_modules.rs:392-461 `reference_dashed`, for references that are not to a file (those get a hash as a placeholder). -/
def referenceDashed (cfg : Config) (srcs : Nat → Source) (s : Str) (srcFrom : Option Spec) (placeholder : Str) (i : Nat) (st : State) :
    State × Option Str :=
  match srcFrom with
  | some .global => (st, some (s.drop 2))
  | some (.file _) => (st, some placeholder)
  | some (.index j) => (st, some (writeName cfg.pattern (srcs j) (s.drop 2)))
  | none =>
    (st.upd i fun m => if (get s m).isSome then modify s (fun e => { e with isReferenced := true }) m
      else m ++ [(s, ⟨cs!"--" ++ writeName cfg.pattern (srcs i) (s.drop 2), [], true⟩)], none)

/-- src/printer.rs:295-313 the segments as identifier: the first is escaped as the start of an identifier. -/
def identText (pat : List Seg) (src : Source) (s : Str) : Str :=
  match pat with
  | [] => []
  | seg :: rest => serIdent (segText src s seg) ++ rest.flatMap fun g => serName (segText src s g)

/-- src/printer.rs:290-321 `write_ident`: the text and the new exports. -/
def writeIdent (cfg : Config) (srcs : Nat → Source) (s : Str) (handle : Bool) (i : Nat) (st : State) : State × Str :=
  if handle then (addLocal cfg srcs s i st, identText cfg.pattern (srcs i) s)
  else (st, serIdent s)

/-- src/printer.rs:323-355 `write_dashed_ident`. -/
def writeDashed (cfg : Config) (srcs : Nat → Source) (s : Str) (decl : Bool) (i : Nat) (st : State) : State × Str :=
  if cfg.dashedIdents then
    (if decl then addDashed cfg srcs s i st else st, cs!"--" ++ cfg.pattern.flatMap fun g => serName (segText (srcs i) (s.drop 2) g))
  else (st, cs!"--" ++ serName (s.drop 2))

/-- What is printed: a class or id (src/selector.rs:1659-1665); the name of `@keyframes` (src/rules/keyframes.rs:91-118, an identifier or a
string that is not a keyword); the names of `animation-name` (src/properties/animation.rs:49-84, likewise); another custom identifier
(src/values/ident.rs:56-72), a container name (src/rules/container.rs:445-460) or a counter style (src/properties/list.rs:222-227); a dashed identifier that is declared or referenced
(src/values/ident.rs:165-172, 231-250). -/
inductive Use
  | sel (s : Str)
  | keyframes (s : Str)
  | animationIdent (s : Str)
  | animationString (s : Str)
  | ident (s : Str)
  | container (s : Str)
  | counterStyle (s : Str)
  | dashedDecl (s : Str)
  | dashedRef (s : Str) (srcFrom : Option Spec) (placeholder : Str)

/-- Printing of one name of source `i`. -/
def print (cfg : Config) (srcs : Nat → Source) (i : Nat) (st : State) : Use → State × Str
  | .sel s => writeIdent cfg srcs s true i st
  | .keyframes s => writeIdent cfg srcs s cfg.animation i st
  | .animationIdent s => writeIdent cfg srcs s (cfg.animation && cfg.customIdents) i (if cfg.animation then reference cfg srcs s i st else st)
  | .animationString s => writeIdent cfg srcs s cfg.animation i (if cfg.animation then reference cfg srcs s i st else st)
  | .ident s => writeIdent cfg srcs s cfg.customIdents i st
  | .container s => writeIdent cfg srcs s (cfg.container && cfg.customIdents) i st
  | .counterStyle s => writeIdent cfg srcs s cfg.customIdents i (reference cfg srcs s i st)
  | .dashedDecl s => writeDashed cfg srcs s true i st
  | .dashedRef s f p =>
    if cfg.dashedIdents then
      match referenceDashed cfg srcs s f p i st with
      | (st, some name) => (st, cs!"--" ++ serName name)
      | (st, none) => writeDashed cfg srcs s false i st
    else writeDashed cfg srcs s false i st

/-- Printing of a sequence of names, each of some source: the exports at the end and the texts. -/
def printAll (cfg : Config) (srcs : Nat → Source) : List (Nat × Use) → State → State × List Str
  | [], st => (st, [])
  | (i, u) :: rest, st =>
    let (st, t) := print cfg srcs i st u
    let (st, ts) := printAll cfg srcs rest st
    (st, t :: ts)

/-! ### Composes -/

/-- A selector: a class, or anything else. -/
inductive Sel
  | cls (name : Str)
  | other

/-- src/css_modules.rs:472-518 the reference made for a name, or those copied from an export of a bundled file. -/
def composeOne (cfg : Config) (srcs : Nat → Source) (srcFrom : Option Spec) (i : Nat) (id name : Str) (st : State) : State :=
  let add (r : Ref) : State := st.upd i (modify id fun e => if r ∈ e.composes then e else { e with composes := e.composes ++ [r] })
  match srcFrom with
  | none => add (.loc (writeName cfg.pattern (srcs i) name))
  | some .global => add (.glob name)
  | some (.file f) => add (.dep name f)
  | some (.index j) =>
    match get name (st j) with
    | some entry => st.upd i (modify id fun e => { e with composes := e.composes ++ (.loc entry.name :: entry.composes) })
    | none => st

/-- src/css_modules.rs:463-535 `handle_composes`; `none` is the error `InvalidComposesSelector`. (The code panics if a class is not exported,
but the selectors are always printed before.) -/
def handleComposes (cfg : Config) (srcs : Nat → Source) (names : List Str) (srcFrom : Option Spec) (i : Nat) : List Sel → State → Option State
  | [], st => some st
  | .cls id :: rest, st => handleComposes cfg srcs names srcFrom i rest (names.foldl (fun st name => composeOne cfg srcs srcFrom i id name st) st)
  | .other :: _, _ => none

/-! ### Hashes -/

/-- The symbols of the encoding (src/css_modules.rs:254-257). -/
def symbols : Str := cs!"abcdefghijklmnopqrstuvwxyzABCDEFGHIJKLMNOPQRSTUVWXYZ1234567890_-"

/-- data_encoding (not in /repo) for 64 symbols: the bits of the bytes, most significant first, in groups of six, the last filled with zeros.
Here for four bytes. -/
def sextets (b0 b1 b2 b3 : Nat) : List Nat :=
  [b0 / 4, b0 % 4 * 16 + b1 / 16, b1 % 16 * 4 + b2 / 64, b2 % 64, b3 / 4, b3 % 4 * 16]

/-- src/css_modules.rs:537-548 `hash`, of the 32 bits of the hasher. -/
def hashText (h : Nat) (atStart : Bool) : Str :=
  let s := (sextets (h % 256) (h / 256 % 256) (h / 65536 % 256) (h / 16777216 % 256)).map fun n => symbols.getD n 'a'
  match s with
  | c :: _ => if atStart && c.isDigit then '_' :: s else s
  | [] => s
end Verif.Modules
