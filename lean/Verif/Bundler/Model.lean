import Verif.Common.Chars
/-! Model of the bundler (src/bundler.rs).

A stylesheet is named by its path: the code numbers stylesheets in the order in which they are first loaded (`source_indexes`), a
bijection between loaded paths and indices, and the entry is number 0. Specifiers are taken as already resolved, reading and parsing never
fail, and source maps are not modelled. The media lists and supports conditions are abstract; `Ops` are their operations. -/
namespace Verif.Bundler

/-- The name of a layer: its dotted parts (src/rules/layer.rs:23). -/
abbrev LName := List Str

/-- The layer of an import (`Option<Option<LayerName>>`): `none` no layer, `some none` an anonymous one. -/
abbrev Layer := Option (Option LName)

/-- `ResolveResult` (src/bundler.rs:103-109) of the specifier of an import. -/
inductive Dep (P U : Type)
  | file (p : P)
  | ext (url : U)

/-- `@import` rules (src/rules/import.rs:19-40). -/
structure Import (P U M S : Type) where
  dep : Dep P U
  layer : Layer
  media : M
  supports : Option S

/-- The rules that may come before the others in a file: `@import` and `@layer` statements. -/
inductive Pre (P U M S : Type)
  | imp (i : Import P U M S)
  | layers (names : List LName)

/-- A parsed file: its first rules, the files its style rules compose from (in order), and the other rules.
(The code also gives the `@layer` statements among the other rules the prefix of the layer, src/bundler.rs:472-482, and then puts them into
the `@layer` block of the file: not modelled.) -/
structure File (P U M S B : Type) where
  pre : List (Pre P U M S)
  css : List P
  body : B

variable {P U M S B : Type}

/-- The `@import` rules of a file. -/
def File.imports (f : File P U M S B) : List (Import P U M S) := f.pre.filterMap fun | .imp i => some i | .layers _ => none

/-- The files imported, in order. -/
def File.files (f : File P U M S B) : List P := f.imports.filterMap fun i => match i.dep with | .file p => some p | .ext _ => none

/-! ### Phase 1: loading -/

/-- The operations on conditions: `MediaList` (`media_queries.is_empty()`, `and`, `or`) and `SupportsCondition` (`and`, `or`). -/
structure Ops (M S : Type) where
  always : M
  isEmpty : M → Bool
  mediaAnd : M → M → Option M
  mediaOr : M → M → M
  supportsAnd : S → S → S
  supportsOr : S → S → S

/-- The conditions with which a file is loaded (the `ImportRule` passed to `load_file`), and those of a `BundleStyleSheet`
(src/bundler.rs:76-90). -/
structure Cond (M S : Type) where
  layer : Layer
  media : M
  supports : Option S

/-- src/bundler.rs:357-361 the media queries of a file that is already loaded. -/
def orMedia (o : Ops M S) (entry rule : M) : M :=
  if o.isEmpty rule then o.always else if !o.isEmpty entry then o.mediaOr entry rule else entry

/-- src/bundler.rs:363-369 the supports condition of a file that is already loaded. -/
def orSupports (o : Ops M S) : Option S → Option S → Option S
  | some e, some s => some (o.supportsOr e s)
  | none, some _ => none
  | _, none => none

/-- src/bundler.rs:339-385 the conditions of a file that is already loaded are combined with those of a further import; `none` is an
error. -/
def combine (o : Ops M S) (entry rule : Cond M S) : Option (Cond M S) :=
  if (!o.isEmpty rule.media && entry.supports.isSome) || (!o.isEmpty entry.media && rule.supports.isSome) then none
  else
    let media := orMedia o entry.media rule.media
    let supports := orSupports o entry.supports rule.supports
    match rule.layer with
    | none => some ⟨entry.layer, media, supports⟩
    | some l => match entry.layer with
      | some e => if l ≠ e ∨ (l.isNone && e.isNone) then none else some ⟨entry.layer, media, supports⟩
      | none => some ⟨rule.layer, media, supports⟩

/-- src/bundler.rs:855-867 `combine_supports`. -/
def combineSupports (o : Ops M S) : Option S → Option S → Option S
  | some a, some b => some (o.supportsAnd a b)
  | some a, none => some a
  | none, b => b

/-- src/bundler.rs:508-530 the layer of a nested import; `none` is an error. -/
def nestLayer (rule imp : Layer) : Option Layer :=
  if (rule = some none ∧ imp.isSome) ∨ (imp = some none ∧ rule.isSome) then none
  else match rule with
    | some (some a) => match imp with
      | some (some b) => some (some (some (a ++ b)))
      | _ => some (some (some a))
    | _ => some imp

/-- src/bundler.rs:485-546 the conditions with which an import of a file loaded with `rule` is loaded; `none` is an error. -/
def nest (o : Ops M S) (rule : Cond M S) (i : Import P U M S) : Option (Cond M S) :=
  match o.mediaAnd rule.media i.media with
  | none => none
  | some media =>
    match nestLayer rule.layer i.layer with
    | none => none
    | some layer => some ⟨layer, media, combineSupports o rule.supports i.supports⟩

/-- src/bundler.rs:484-551 the calls of `load_file` made for the imports of a file loaded for the first time; the conditions of an import
of an external URL are checked and dropped. `none` is an error. -/
def spawnImports (o : Ops M S) (rule : Cond M S) : List (Import P U M S) → Option (List (P × Cond M S))
  | [] => some []
  | i :: rest =>
    match nest o rule i, spawnImports o rule rest with
    | some c, some l => some (match i.dep with | .file p => (p, c) :: l | .ext _ => l)
    | _, _ => none

/-- src/bundler.rs:472-607 the calls of `load_file` made for a file loaded for the first time, for its imports and for the files it composes
from (which get the conditions of the file, src/bundler.rs:619-632). `none` is an error. -/
def spawn (o : Ops M S) (f : File P U M S B) (rule : Cond M S) : Option (List (P × Cond M S)) :=
  (spawnImports o rule f.imports).map (· ++ f.css.map fun p => (p, rule))

/-- The state of the loading phase: `stylesheets` (path and conditions) and the calls of `load_file` that have not yet taken the lock. -/
structure LSt (P M S : Type) where
  loaded : List (P × Cond M S)
  pending : List (P × Cond M S)

/-- Lookup in `source_indexes`. -/
def find [DecidableEq P] (p : P) : List (P × Cond M S) → Option (Cond M S)
  | [] => none
  | (q, c) :: rest => if q = p then some c else find p rest

/-- Update of an entry of `stylesheets`. -/
def put [DecidableEq P] (p : P) (c : Cond M S) : List (P × Cond M S) → List (P × Cond M S)
  | [] => []
  | (q, c') :: rest => if q = p then (q, c) :: rest else (q, c') :: put p c rest

/-- src/bundler.rs:339-607 `load_file` from taking the lock to spawning the loads of its dependencies, which run in parallel, in any order.
`none` is an error. (The code loads the files of `composes` after the imports; here in any order.) -/
def loadFile [DecidableEq P] (o : Ops M S) (fs : P → File P U M S B) (st : LSt P M S) (p : P) (rule : Cond M S) : Option (LSt P M S) :=
  match find p st.loaded with
  | some e => (combine o e rule).map fun c => ⟨put p c st.loaded, st.pending⟩
  | none => (spawn o (fs p) rule).map fun new => ⟨st.loaded ++ [(p, rule)], st.pending ++ new⟩

/-- One step of some schedule: any pending call takes the lock. -/
inductive Step [DecidableEq P] (o : Ops M S) (fs : P → File P U M S B) : LSt P M S → LSt P M S → Prop
  | run (l : List (P × Cond M S)) (pre post : List (P × Cond M S)) (p : P) (rule : Cond M S) (st' : LSt P M S) :
    loadFile o fs ⟨l, pre ++ post⟩ p rule = some st' → Step o fs ⟨l, pre ++ (p, rule) :: post⟩ st'

/-- Any number of steps. -/
inductive Steps [DecidableEq P] (o : Ops M S) (fs : P → File P U M S B) : LSt P M S → LSt P M S → Prop
  | refl (st) : Steps o fs st st
  | tail (a b c) : Steps o fs a b → Step o fs b c → Steps o fs a c

/-- src/bundler.rs:273-286 the first call. -/
def initL (o : Ops M S) (entry : P) : LSt P M S := ⟨[], [(entry, ⟨none, o.always, none⟩)]⟩

/-- A schedule that ends without errors. -/
def Loads [DecidableEq P] (o : Ops M S) (fs : P → File P U M S B) (entry : P) (loaded : List (P × Cond M S)) : Prop :=
  Steps o fs (initL o entry) ⟨loaded, []⟩

/-! ### Phase 2: order -/

/-- The state of `order`: the visited stylesheets, and the parent and index of the import to keep of each. -/
structure OSt (P : Type) where
  visited : List P
  parent : P → P × Nat

/-- Set the parent of a stylesheet. -/
def OSt.setParent [DecidableEq P] (st : OSt P) (d : P) (e : P × Nat) : OSt P :=
  { st with parent := fun x => if x = d then e else st.parent x }

/-- src/bundler.rs:675-687 the loop over the files composed from; `rec` is `order::process`. -/
def orderCss [DecidableEq P] (rec : P → OSt P → OSt P) (s : P) : Nat → List P → OSt P → OSt P
  | _, [], st => st
  | i, d :: rest, st => orderCss rec s (i + 1) rest (if d ∈ st.visited then st else rec d (st.setParent d (s, i)))

/-- src/bundler.rs:689-701 the loop over the imported files; `rec` is `order::process`. -/
def orderImports [DecidableEq P] (rec : P → OSt P → OSt P) (s : P) : Nat → List P → OSt P → OSt P
  | _, [], st => st
  | i, d :: rest, st => orderImports rec s (i + 1) rest (rec d (st.setParent d (s, i)))

/-- src/bundler.rs:659-707 `order::process`. The first argument bounds the depth of the recursion. -/
def order [DecidableEq P] (fs : P → File P U M S B) : Nat → P → OSt P → OSt P
  | 0, _, st => st
  | fuel + 1, s, st =>
    if s ∈ st.visited then st
    else
      let st := { st with visited := s :: st.visited }
      let st := orderCss (order fs fuel) s 0 (fs s).css st
      orderImports (order fs fuel) s (fs s).css.length (fs s).files st

/-- src/bundler.rs:409-410, 660: parents start as stylesheet 0, index 0. -/
def initO (entry : P) : OSt P := ⟨[], fun _ => (entry, 0)⟩

/-! ### Phase 3: concatenation -/

/-- The rules of the bundle: an import of an external URL, a `@layer` statement, the rules of a file in the conditions of the file,
and the conditions with nothing inside. -/
inductive Out (P U M S : Type)
  | ext (i : Import P U M S)
  | layers (names : List LName)
  | body (p : P) (c : Option (Cond M S))
  | empty (c : Option (Cond M S))

/-- The state of `inline`: the stylesheets whose rules have been taken, those whose conditions have been taken, and the bundle. -/
structure ISt (P U M S : Type) where
  taken : List P
  condTaken : List P
  dest : List (Out P U M S)

/-- Errors: an external import after a bundled one; the recursion does not end (within the bound). -/
inductive Err where
  | external
  | overflow
deriving DecidableEq, Repr

/-- src/bundler.rs:472-482 `@layer` statements get the layer with which the file was loaded first as prefix. -/
def prefixNames : Layer → List LName → List LName
  | some (some a), names => names.map (a ++ ·)
  | _, names => names

/-- src/bundler.rs:722-734 the loop over the files composed from; `rec` is `inline::process`. -/
def inlineCss [DecidableEq P] (rec : P → ISt P U M S → Except Err (ISt P U M S)) (parent : P → P × Nat) (s : P) :
    Nat → List P → ISt P U M S → Except Err (ISt P U M S)
  | _, [], st => .ok st
  | i, d :: rest, st =>
    if parent d = (s, i) then
      match rec d st with
      | .ok st => inlineCss rec parent s (i + 1) rest st
      | .error e => .error e
    else inlineCss rec parent s (i + 1) rest st

/-- src/bundler.rs:736-787 the loop over the first rules; `rec` is `inline::process`. The arguments are `dep_index` (`import_index` is the
number of imports before), the rules, `has_bundled_import` and the state. -/
def inlinePre [DecidableEq P] (rec : P → ISt P U M S → Except Err (ISt P U M S)) (parent : P → P × Nat) (layer : Layer) (s : P) :
    Nat → List (Pre P U M S) → Bool → ISt P U M S → Except Err (ISt P U M S)
  | _, [], _, st => .ok st
  | i, .layers names :: rest, b, st =>
    inlinePre rec parent layer s i rest b { st with dest := st.dest ++ [.layers (prefixNames layer names)] }
  | i, .imp imp :: rest, b, st =>
    match imp.dep with
    | .file d =>
      if parent d = (s, i) then
        match rec d st with
        | .ok st => inlinePre rec parent layer s (i + 1) rest true st
        | .error e => .error e
      else inlinePre rec parent layer s (i + 1) rest b st
    | .ext _ =>
      if b then .error .external
      else inlinePre rec parent layer s i rest b { st with dest := st.dest ++ [.ext imp] }

/-- src/bundler.rs:789-819 the remaining rules wrapped in the conditions, which are taken from the stylesheet. -/
def wrap [DecidableEq P] (cond : P → Cond M S) (s : P) (fresh : Bool) (st : ISt P U M S) : ISt P U M S :=
  let c := if s ∈ st.condTaken then none else some (cond s)
  { st with condTaken := s :: st.condTaken, dest := st.dest ++ [if fresh then .body s c else .empty c] }

/-- src/bundler.rs:710-853 `inline::process`. `first` gives the layer with which a stylesheet was loaded first, `cond` its conditions.
The first argument bounds the depth of the recursion. -/
def inline [DecidableEq P] (fs : P → File P U M S B) (first : P → Layer) (cond : P → Cond M S) (parent : P → P × Nat) :
    Nat → P → ISt P U M S → Except Err (ISt P U M S)
  | 0, _, _ => .error .overflow
  | fuel + 1, s, st =>
    let fresh := decide (s ∉ st.taken)
    let rules := if fresh then (fs s).pre else []
    match inlineCss (inline fs first cond parent fuel) parent s 0 (fs s).css { st with taken := s :: st.taken } with
    | .error e => .error e
    | .ok st =>
      match inlinePre (inline fs first cond parent fuel) parent (first s) s (fs s).css.length rules false st with
      | .error e => .error e
      | .ok st => .ok (wrap cond s fresh st)

/-- The bundle (src/bundler.rs:269-333), given the conditions from the loading phase and bounds for the recursions. -/
def bundle [DecidableEq P] (fs : P → File P U M S B) (first : P → Layer) (cond : P → Cond M S) (entry : P) (fuel₁ fuel₂ : Nat) :
    Except Err (List (Out P U M S)) :=
  (inline fs first cond (order fs fuel₁ entry (initO entry)).parent fuel₂ entry ⟨[], [], []⟩).map (·.dest)
end Verif.Bundler
