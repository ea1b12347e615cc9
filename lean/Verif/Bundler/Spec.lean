import Verif.Bundler.Model
/-! What a bundle should be, in terms of the graph of files. -/
namespace Verif.Bundler
variable {P U M S B : Type}

/-- A file uses another: it imports it or composes from it. -/
def Uses (fs : P → File P U M S B) (u v : P) : Prop := v ∈ (fs u).css ∨ v ∈ (fs u).files

/-- The files a bundle consists of. -/
inductive Reach (fs : P → File P U M S B) (entry : P) : P → Prop
  | entry : Reach fs entry entry
  | step (u v) : Reach fs entry u → Uses fs u v → Reach fs entry v

/-- The files whose rules are in a bundle, in order. -/
def bodies : List (Out P U M S) → List P
  | [] => []
  | .body p _ :: rest => p :: bodies rest
  | _ :: rest => bodies rest

/-- A finite list of files that contains the entry and what its files use: the file system is finite. -/
def Closed (fs : P → File P U M S B) (entry : P) (all : List P) : Prop :=
  entry ∈ all ∧ ∀ u ∈ all, ∀ v, Uses fs u v → v ∈ all

mutual
/-- How a browser evaluates a stylesheet: every import in turn, then its own rules. The list is the order in which the rules of files are
applied, with repetitions. (There is no such list if the imports are cyclic.) -/
inductive Evaluates (fs : P → File P U M S B) : P → List P → Prop
  | mk (p l) : EvaluatesAll fs (fs p).files l → Evaluates fs p (l ++ [p])
/-- The same for the imports of a stylesheet. -/
inductive EvaluatesAll (fs : P → File P U M S B) : List P → List P → Prop
  | nil : EvaluatesAll fs [] []
  | cons (p ps l m) : Evaluates fs p l → EvaluatesAll fs ps m → EvaluatesAll fs (p :: ps) (l ++ m)
end

/-- A rule that is repeated counts where it is last. -/
def keepLast [DecidableEq P] : List P → List P
  | [] => []
  | p :: rest => if p ∈ rest then keepLast rest else p :: keepLast rest

/-- The meaning of conditions on a device `D`. An empty media list is no condition. -/
structure Meaning (D M S : Type) where
  media : D → M → Bool
  supports : D → S → Bool

/-- Whether the conditions hold. -/
def Meaning.holds {D : Type} (m : Meaning D M S) (d : D) (media : M) (supports : Option S) : Bool :=
  m.media d media && (match supports with | none => true | some s => m.supports d s)

/-- The operations mean what they should (for media lists they do not always, see C02). -/
structure Ops.Lawful {D : Type} (o : Ops M S) (m : Meaning D M S) : Prop where
  always : ∀ d, m.media d o.always = true
  always_empty : o.isEmpty o.always = true
  empty : ∀ d x, o.isEmpty x = true → m.media d x = true
  mediaAnd : ∀ d x y z, o.mediaAnd x y = some z → m.media d z = (m.media d x && m.media d y)
  mediaOr : ∀ d x y, o.isEmpty x = false → o.isEmpty y = false → m.media d (o.mediaOr x y) = (m.media d x || m.media d y)
  supportsAnd : ∀ d x y, m.supports d (o.supportsAnd x y) = (m.supports d x && m.supports d y)
  supportsOr : ∀ d x y, m.supports d (o.supportsOr x y) = (m.supports d x || m.supports d y)

/-- A browser applies the rules of a file on a device when there is a chain of imports from the entry whose conditions all hold. A file that
is composed from applies when the file that composes from it does. -/
inductive Applies {D : Type} (m : Meaning D M S) (fs : P → File P U M S B) (entry : P) (d : D) : P → Prop
  | entry : Applies m fs entry d entry
  | imp (u v i) : Applies m fs entry d u → i ∈ (fs u).imports → i.dep = .file v → m.holds d i.media i.supports = true → Applies m fs entry d v
  | css (u v) : Applies m fs entry d u → v ∈ (fs u).css → Applies m fs entry d v

/-- The layers of the chains of imports to a file: the names along the chain (only for named layers). -/
inductive InLayer (fs : P → File P U M S B) (entry : P) : P → LName → Prop
  | entry : InLayer fs entry entry []
  | imp (u v i n) : InLayer fs entry u n → i ∈ (fs u).imports → i.dep = .file v → i.layer = none → InLayer fs entry v n
  | named (u v i n k) : InLayer fs entry u n → i ∈ (fs u).imports → i.dep = .file v → i.layer = some (some k) → InLayer fs entry v (n ++ k)
  | css (u v n) : InLayer fs entry u n → v ∈ (fs u).css → InLayer fs entry v n
end Verif.Bundler
