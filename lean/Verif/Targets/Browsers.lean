import Verif.Common.Chars
/-! Basic types of src/targets.rs and src/vendor_prefix.rs. -/
namespace Verif.Targets

/-- The fields of src/targets.rs:32-42 `Browsers`. -/
inductive Browser where
  | android | chrome | edge | firefox | ie | iosSaf | opera | safari | samsung
deriving DecidableEq, Repr

/-- src/targets.rs:32-42 `Browsers`: the version of each browser (`u32` as `Nat`), if it is a target. -/
def Browsers := Browser → Option Nat

/-- `Browsers::default()`. -/
def Browsers.empty : Browsers := fun _ => none

/-- src/vendor_prefix.rs:22-33: one vendor prefix flag. -/
inductive Prefix where
  | none | webkit | moz | ms | o
deriving DecidableEq, Repr

/-- src/vendor_prefix.rs:22-33 `VendorPrefix`: a set of flags. -/
structure PrefixSet where
  none : Bool
  webkit : Bool
  moz : Bool
  ms : Bool
  o : Bool
deriving DecidableEq, Repr

/-- `VendorPrefix::contains` for a single flag. -/
def PrefixSet.has (s : PrefixSet) : Prefix → Bool
  | .none => s.none
  | .webkit => s.webkit
  | .moz => s.moz
  | .ms => s.ms
  | .o => s.o

/-- `VendorPrefix::empty()`. -/
def PrefixSet.empty : PrefixSet := ⟨false, false, false, false, false⟩
/-- `VendorPrefix::all()`. -/
def PrefixSet.all : PrefixSet := ⟨true, true, true, true, true⟩

/-- One flag as a set. -/
def Prefix.set : Prefix → PrefixSet
  | .none => ⟨true, false, false, false, false⟩
  | .webkit => ⟨false, true, false, false, false⟩
  | .moz => ⟨false, false, true, false, false⟩
  | .ms => ⟨false, false, false, true, false⟩
  | .o => ⟨false, false, false, false, true⟩

/-- `|=` on flags. -/
def PrefixSet.union (a b : PrefixSet) : PrefixSet :=
  ⟨a.none || b.none, a.webkit || b.webkit, a.moz || b.moz, a.ms || b.ms, a.o || b.o⟩

/-- One `if .. { return false; }` statement of `Feature::is_compatible` (src/compat.rs). -/
inductive Guard where
  /-- `if let Some(version) = browsers.b { if version < v { return false; } }` -/
  | atLeast (b : Browser) (v : Nat)
  /-- `if browsers.b1.is_some() || .. { return false; }` -/
  | absent (bs : List Browser)
  /-- `return false` -/
  | never
deriving Repr

/-- One `prefixes |= p` statement of `Feature::prefixes_for` (src/prefixes.rs) with its guard: the browser is a target
and its version is within the bounds. -/
structure PrefixRule where
  browser : Browser
  lo : Nat
  hi : Option Nat
  pre : Prefix
deriving Repr

end Verif.Targets
