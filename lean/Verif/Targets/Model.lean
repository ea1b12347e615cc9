import Verif.Targets.CompatTable
import Verif.Targets.PrefixTable
/-! Model of src/targets.rs, src/compat.rs, src/prefixes.rs and src/vendor_prefix.rs. -/
namespace Verif.Targets

/-! ### Compatibility data -/

/-- A guard does not return false. -/
def Guard.pass (br : Browsers) : Guard → Bool
  | .atLeast b v => match br b with
    | some version => !(version < v)
    | none => true
  | .absent bs => !(bs.any fun b => (br b).isSome)
  | .never => false

/-- src/compat.rs:233-5715 `Feature::is_compatible`: no guard returns false. -/
def CompatFeature.isCompatible (f : CompatFeature) (br : Browsers) : Bool := f.guards.all (·.pass br)

/-- `Browsers::default()` with one field set. -/
def Browsers.only (br : Browsers) (b : Browser) : Browsers := fun x => if x = b then br b else none

/-- src/compat.rs:5721-5826 `Feature::is_partially_compatible`: the browsers in the order of the code. -/
def CompatFeature.isPartiallyCompatible (f : CompatFeature) (br : Browsers) : Bool :=
  [Browser.android, .chrome, .edge, .firefox, .ie, .iosSaf, .opera, .safari, .samsung].any fun b =>
    (br b).isSome && f.isCompatible (br.only b)

/-- The guard of a prefix rule. -/
def PrefixRule.applies (r : PrefixRule) (br : Browsers) : Bool :=
  match br r.browser with
  | none => false
  | some version => decide (r.lo ≤ version) && (match r.hi with | none => true | some h => decide (version ≤ h))

/-- One statement of `prefixes_for`. -/
def PrefixRule.step (br : Browsers) (acc : PrefixSet) (r : PrefixRule) : PrefixSet :=
  if r.applies br then acc.union r.pre.set else acc

/-- src/prefixes.rs:195-2240 `Feature::prefixes_for`. -/
def PrefixFeature.prefixesFor (f : PrefixFeature) (br : Browsers) : PrefixSet :=
  f.rules.foldl (PrefixRule.step br) Prefix.none.set

/-! ### Targets -/

/-- src/targets.rs:150-178 `Features`, a bit set in a `u32`. -/
abbrev Flags := BitVec 32

/-- The flag constants of src/targets.rs:154-177. -/
def Flags.vendorPrefixes : Flags := 1#32 <<< 18
/-- src/targets.rs:173. -/
def Flags.logicalProperties : Flags := 1#32 <<< 19
/-- src/targets.rs:175 `Selectors`: `Nesting | NotSelectorList | DirSelector | LangSelectorList | IsSelector`. -/
def Flags.selectors : Flags := (1#32 <<< 0) ||| (1#32 <<< 1) ||| (1#32 <<< 2) ||| (1#32 <<< 3) ||| (1#32 <<< 4)

/-- bitflags `contains`. -/
def Flags.contains (a b : Flags) : Bool := (a &&& b) == b
/-- bitflags `intersects`. -/
def Flags.intersects (a b : Flags) : Bool := !((a &&& b) == 0#32)
/-- bitflags difference `a - b`. -/
def Flags.diff (a b : Flags) : Flags := a &&& ~~~b

/-- src/targets.rs:193-202 `Targets`. -/
structure Targets where
  browsers : Option Browsers
  incl : Flags
  excl : Flags

/-- src/targets.rs:222-224 `Targets::is_compatible`. -/
def Targets.isCompatible (t : Targets) (f : CompatFeature) : Bool :=
  match t.browsers with
  | some br => f.isCompatible br
  | none => true

/-- src/targets.rs:226-228 `Targets::should_compile`. -/
def Targets.shouldCompile (t : Targets) (f : CompatFeature) (flag : Flags) : Bool :=
  t.incl.contains flag || (!(t.excl.contains flag) && !(t.isCompatible f))

/-- src/targets.rs:230-232 `should_compile_logical`. -/
def Targets.shouldCompileLogical (t : Targets) (f : CompatFeature) : Bool :=
  t.shouldCompile f .logicalProperties

/-- src/targets.rs:234-237 `should_compile_selectors`. -/
def Targets.shouldCompileSelectors (t : Targets) : Bool :=
  t.incl.intersects .selectors || (!(t.excl.intersects .selectors) && t.browsers.isSome)

/-- src/targets.rs:239-249 `Targets::prefixes`. -/
def Targets.prefixes (t : Targets) (p : PrefixSet) (f : PrefixFeature) : PrefixSet :=
  if p.has .none && !(t.excl.contains .vendorPrefixes) then
    if t.incl.contains .vendorPrefixes then .all
    else match t.browsers with
      | some br => f.prefixesFor br
      | none => p
  else p

/-- src/targets.rs:253-256 `TargetsWithSupportsScope`. -/
structure Scope where
  stack : List Flags
  current : Targets

/-- src/targets.rs:259-264 `TargetsWithSupportsScope::new`. -/
def Scope.new (t : Targets) : Scope := ⟨[], t⟩

/-- src/targets.rs:267-278 `enter_supports`. -/
def Scope.enter (s : Scope) (features : Flags) : Bool × Scope :=
  if features == 0#32 || s.current.excl.contains features then (false, s)
  else
    let newly := features.diff s.current.excl
    (true, ⟨newly :: s.stack, { s.current with excl := s.current.excl ||| newly }⟩)

/-- src/targets.rs:281-285 `exit_supports`. -/
def Scope.exit (s : Scope) : Scope :=
  match s.stack with
  | last :: rest => ⟨rest, { s.current with excl := s.current.excl.diff last }⟩
  | [] => s

/-- A nest of rules as `enter_supports`/`exit_supports` see it: a `@supports` block with the features of its condition,
or any other rule (which looks at the current targets). -/
inductive Nest where
  | other
  | supports (features : Flags) (body : List Nest)

mutual
/-- src/rules/supports.rs:41-59 and 63-85: how minification and printing walk over nested rules. Returns the final scope
and, for every `other` rule met, the targets in force at that moment. -/
def Nest.run (s : Scope) : Nest → Scope × List Targets
  | .other => (s, [s.current])
  | .supports f body =>
    match s.enter f with
    | (inserted, s) =>
      match Nest.runAll s body with
      | (s, out) => (if inserted then s.exit else s, out)
/-- A list of rules. -/
def Nest.runAll (s : Scope) : List Nest → Scope × List Targets
  | [] => (s, [])
  | n :: ns =>
    match n.run s with
    | (s, o1) => match Nest.runAll s ns with
      | (s, o2) => (s, o1 ++ o2)
end

/-! ### Vendor prefix (de)serialisation -/

/-- src/vendor_prefix.rs:97-121 `Serialize`: the list of strings. -/
def PrefixSet.serialize (s : PrefixSet) : List Str :=
  if s ≠ Prefix.none.set then
    (if s.has .none then [cs!"none"] else []) ++ (if s.has .webkit then [cs!"webkit"] else []) ++
    (if s.has .moz then [cs!"moz"] else []) ++ (if s.has .ms then [cs!"ms"] else []) ++
    (if s.has .o then [cs!"o"] else [])
  else []

/-- src/vendor_prefix.rs:136-146, one iteration of the loop. -/
def prefixStep (res : PrefixSet) (value : Str) : PrefixSet :=
  if value = cs!"none" then res.union Prefix.none.set
  else if value = cs!"webkit" then res.union Prefix.webkit.set
  else if value = cs!"moz" then res.union Prefix.moz.set
  else if value = cs!"ms" then res.union Prefix.ms.set
  else if value = cs!"o" then res.union Prefix.o.set
  else res

/-- src/vendor_prefix.rs:123-150 `Deserialize` from the list of strings. -/
def PrefixSet.deserialize (values : List Str) : PrefixSet :=
  if values.isEmpty then Prefix.none.set else values.foldl prefixStep .empty

/-! ### Versions -/

/-- One digit of `u32::from_str`. -/
def digit (c : Char) : Option Nat := if '0' ≤ c ∧ c ≤ '9' then some (c.toNat - '0'.toNat) else none

/-- The digits loop of `u32::from_str` (Rust core): overflow is an error. -/
def parseDigits (acc : Nat) : Str → Option Nat
  | [] => some acc
  | c :: cs => match digit c with
    | none => none
    | some d => if acc * 10 + d < 2 ^ 32 then parseDigits (acc * 10 + d) cs else none

/-- Rust core `str::parse::<u32>`: an optional `+`, then at least one digit. -/
def parseU32 : Str → Option Nat
  | [] => none
  | ['+'] => none
  | '+' :: c :: cs => parseDigits 0 (c :: cs)
  | c :: cs => parseDigits 0 (c :: cs)

/-- Rust `str::split(sep)`. -/
def splitOn (sep : Char) : Str → List Str
  | [] => [[]]
  | c :: cs =>
    match splitOn sep cs with
    | [] => [[c]]
    | p :: ps => if c = sep then [] :: p :: ps else (c :: p) :: ps

/-- `version.next().and_then(|v| v.parse::<u32>().ok()).unwrap_or(0)` on the remaining parts. -/
def nextOr0 : List Str → Nat × List Str
  | [] => (0, [])
  | p :: ps => ((parseU32 p).getD 0, ps)

/-- src/targets.rs:130-147 `parse_version`. `(major & 0xff) << 16 | (minor & 0xff) << 8 | (patch & 0xff)` is written
with `%` and `+` (the three fields do not overlap). -/
def parseVersion (version : Str) : Option Nat :=
  match splitOn '-' version with
  | [] => none
  | v :: _ =>
    match splitOn '.' v with
    | [] => none
    | major :: rest =>
      match parseU32 major with
      | none => none
      | some major =>
        match nextOr0 rest with
        | (minor, rest) => match nextOr0 rest with
          | (patch, _) => some ((major % 256) * 65536 + (minor % 256) * 256 + patch % 256)

/-- src/targets.rs:106-117: which browser a browserslist name stands for. -/
def browserOf (name : Str) : Option Browser :=
  if name = cs!"android" then some .android
  else if name = cs!"chrome" ∨ name = cs!"and_chr" then some .chrome
  else if name = cs!"edge" then some .edge
  else if name = cs!"firefox" ∨ name = cs!"and_ff" then some .firefox
  else if name = cs!"ie" then some .ie
  else if name = cs!"ios_saf" then some .iosSaf
  else if name = cs!"opera" ∨ name = cs!"op_mob" then some .opera
  else if name = cs!"safari" then some .safari
  else if name = cs!"samsung" then some .samsung
  else none

/-- src/targets.rs:94-104, the `browser!` macro: one field, `has_any`. -/
def updateBrowser (st : Browsers × Bool) (b : Browser) (version : Str) : Browsers × Bool :=
  match parseVersion version with
  | none => st
  | some v =>
    match st.1 b with
    | none => (fun x => if x = b then some v else st.1 x, true)
    | some old => if v < old then (fun x => if x = b then some v else st.1 x, true) else st

/-- src/targets.rs:93-118, one iteration of the loop over (name, version) pairs. -/
def distribStep (st : Browsers × Bool) (d : Str × Str) : Browsers × Bool :=
  match browserOf d.1 with
  | none => st
  | some b => updateBrowser st b d.2

/-- src/targets.rs:90-125 `from_distribs`. -/
def fromDistribs (ds : List (Str × Str)) : Option Browsers :=
  match ds.foldl distribStep (.empty, false) with
  | (br, hasAny) => if hasAny then some br else none

/-- src/prefixes.rs:2244-2266 `is_flex_2009`. -/
def isFlex2009 (br : Browsers) : Bool :=
  [(⟨.android, 131328, some 262656, .webkit⟩ : PrefixRule), ⟨.chrome, 262144, some 1310720, .webkit⟩,
    ⟨.iosSaf, 197120, some 393216, .webkit⟩, ⟨.safari, 196864, some 393216, .webkit⟩].any (·.applies br)

/-- src/prefixes.rs:2268-2290 `is_webkit_gradient`. -/
def isWebkitGradient (br : Browsers) : Bool :=
  [(⟨.android, 131328, some 196608, .webkit⟩ : PrefixRule), ⟨.chrome, 262144, some 589824, .webkit⟩,
    ⟨.iosSaf, 197120, some 393216, .webkit⟩, ⟨.safari, 262144, some 393216, .webkit⟩].any (·.applies br)

end Verif.Targets
