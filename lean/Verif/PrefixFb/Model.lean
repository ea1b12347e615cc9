import Verif.Targets.Model
/-!
# Model of the handlers for prefixed properties and for properties with fallbacks (`/repo/src/properties/prefix_handler.rs`)

Both handlers do the same for each of their properties, with an index per property, so one property is modelled at a time. Declarations that do not concern it are opaque, but they take places in the list.
-/
namespace Verif.PrefixFb
open Verif.Targets

/-- A declaration, seen from one property: `Property::$name(val, prefix)`, `Property::Unparsed` with the id of this property, or any other declaration. For properties without prefixes the set is `{None}`. -/
inductive Item (V : Type)
  | own (value : V) (prefixes : PrefixSet)
  | unparsed (value : V) (prefixes : PrefixSet)
  | other (text : Str)
deriving DecidableEq

/-- `VendorPrefix::contains` (bitflags). -/
def contains (a b : PrefixSet) : Bool := (!b.none || a.none) && (!b.webkit || a.webkit) && (!b.moz || a.moz) && (!b.ms || a.ms) && (!b.o || a.o)

/-- The state of a handler: the index of the property, and the list of declarations that all handlers share. -/
structure State (V : Type) where
  index : Option Nat
  dest : List (Item V)

/-- `self.$name = Some(dest.len()); dest.push(..)`. -/
def State.push {V : Type} (s : State V) (x : Item V) : State V := ⟨some s.dest.length, s.dest ++ [x]⟩

/-- `dest[i] = ..`. -/
def State.put {V : Type} (s : State V) (i : Nat) (x : Item V) : State V := ⟨s.index, s.dest.set i x⟩

/-- `PrefixHandler::handle_property` for one property, `prefix_handler.rs:21-51`. Declarations that are not handled (also unparsed ones) are pushed by `DeclarationBlock::minify`, `declaration.rs:250-252`. -/
def handlePrefix {V : Type} [DecidableEq V] (t : Targets) (f : PrefixFeature) (s : State V) : Item V → State V
  | .own val pre =>
    let push := s.push (.own val (t.prefixes pre f))
    match s.index with
    | none => push
    | some i => match s.dest[i]? with
      | some (.own cur ps) => if val = cur ∨ contains ps pre then s.put i (.own val (t.prefixes (ps.union pre) f)) else push
      | _ => push
  | x => { s with dest := s.dest ++ [x] }

/-- `DeclarationBlock::minify` with this handler alone, `declaration.rs:238-264`. `finalize` does not reset the index, `prefix_handler.rs:53`, so a block starts with the index that an earlier block left. -/
def minifyPrefix {V : Type} [DecidableEq V] (t : Targets) (f : PrefixFeature) (index : Option Nat) (ds : List (Item V)) : List (Item V) := (ds.foldl (handlePrefix t f) ⟨index, []⟩).dest

/-- What `FallbackHandler` needs to know about a property: its feature if it takes prefixes (`Filter(prefix)`), and the traits of its values. -/
structure Config (V : Type) where
  /-- `Feature::$name`. -/
  feature : Option PrefixFeature
  /-- `FallbackValues::get_fallbacks`: the values before, and the changed value. -/
  fallbacks : V → List V × V
  /-- `IsCompatible::is_compatible` for the browsers of the targets; only used if there are any. -/
  compatible : V → Bool
  /-- `TokenList::get_fallbacks` of an unparsed value: values for `@supports` rules, here only the changed value. -/
  lowest : V → V

/-- `context.targets.prefixes($p, Feature::$name)`, if the property takes prefixes. -/
def Config.prefixes {V : Type} (c : Config V) (t : Targets) (p : PrefixSet) : PrefixSet :=
  match c.feature with
  | some f => t.prefixes p f
  | none => p

/-- `FallbackHandler::handle_property` for one property, `prefix_handler.rs:93-151`. -/
def handleFallback {V : Type} (c : Config V) (t : Targets) (s : State V) : Item V → State V
  | .own val pre =>
    let p := c.prefixes t pre
    match s.index with
    | none =>
      -- 101-115
      let fbs := (c.fallbacks val).1
      let p' := if fbs ≠ [] ∧ c.feature.isSome ∧ p.none then Prefix.none.set else p
      -- 118-120
      ({ s with dest := s.dest ++ fbs.map (.own · p) } : State V).push (.own (c.fallbacks val).2 p')
    | some i =>
      -- 118-123
      if t.browsers.isSome ∧ c.compatible val = false then s.push (.own val p) else s.put i (.own val p)
  | .unparsed val pre =>
    -- 127-151
    let p := if pre.none then c.prefixes t pre else pre
    match s.index with
    | some i => s.put i (.unparsed (c.lowest val) p)
    | none => s.push (.unparsed (c.lowest val) p)
  | x => { s with dest := s.dest ++ [x] }

/-- `DeclarationBlock::minify` with this handler alone; `finalize` resets the index, `prefix_handler.rs:160-164`. -/
def minifyFallback {V : Type} (c : Config V) (t : Targets) (ds : List (Item V)) : List (Item V) := (ds.foldl (handleFallback c t) ⟨none, []⟩).dest

end Verif.PrefixFb
