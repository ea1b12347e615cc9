/-!
# `CowArcStr` (`/repo/src/values/string.rs:26-192`)

Strings that are borrowed from the source or counted references to the heap, told apart by their length. Texts are an opaque type. The heap maps addresses to texts with the number of references of the `Arc`; every operation on the count is atomic, so the interleavings of several threads are sequences of operations. Weak references, which are never made, are left out.
-/
namespace Verif.Cow

/-- `usize::MAX`. -/
def maxLen : Nat := 2 ^ 64 - 1

/-- `CowArcStr`: `ptr` and `borrowed_len_or_max` (src/values/string.rs:38-42). -/
structure CowStr where
  ptr : Nat
  lenOrMax : Nat
deriving DecidableEq

/-- The memory: what is borrowed (an address and a length), the strings of `Rc`s of the tokenizer, the heap of `Arc`s, and the variables that hold strings; `ub` says that freed memory was used. -/
structure Mem (T : Type) where
  heap : Nat → Option (T × Nat) := fun _ => none
  live : List (Nat × CowStr) := []
  ub : Bool := false

/-- The operations. A variable `h` is given a string from a `&str`, from a `String` (which is put at `a`), from a `CowRcStr` (:54-75); it is cloned to `h'`, made owned, or dropped. -/
inductive Op (T : Type)
  | fromStr (h ptr len : Nat)
  | fromString (h a : Nat) (t : T)
  | fromRc (h ptr lenOrMax a : Nat)
  | clone (h h' : Nat)
  | intoOwned (h a : Nat)
  | drop (h : Nat)

section
variable {T : Type}

/-- The value of a variable. -/
def find (live : List (Nat × CowStr)) (h : Nat) : Option CowStr := (live.find? fun x => x.1 == h).map Prod.snd

/-- A variable is no more. -/
def forget (live : List (Nat × CowStr)) (h : Nat) : List (Nat × CowStr) := live.filter fun x => x.1 != h

/-- `unpack`: whether a string is owned (src/values/string.rs:119-129). -/
def CowStr.owned (c : CowStr) : Bool := c.lenOrMax == maxLen

/-- `From<&str>` (src/values/string.rs:79-91); the assertion that the length is less than the maximum is `len < maxLen`. -/
def newStr (m : Mem T) (h ptr len : Nat) : Option (Mem T) :=
  if len < maxLen then some { m with live := (h, ⟨ptr, len⟩) :: m.live } else none

/-- `From<String>`, `from_arc` (src/values/string.rs:93-98, 110-117): a new `Arc` has one reference. -/
def newString (m : Mem T) (h a : Nat) (t : T) : Mem T :=
  { m with heap := fun b => if b = a then some (t, 1) else m.heap b, live := (h, ⟨a, maxLen⟩) :: m.live }

/-- One more reference (`Arc::clone`). -/
def incr (m : Mem T) (a : Nat) : Mem T := match m.heap a with
  | some (t, n) => { m with heap := fun b => if b = a then some (t, n + 1) else m.heap b }
  | none => { m with ub := true }

/-- One less (`Arc::drop`); the last one frees the string. -/
def decr (m : Mem T) (a : Nat) : Mem T := match m.heap a with
  | some (t, n) => { m with heap := fun b => if b = a then (if n = 1 then none else some (t, n - 1)) else m.heap b }
  | none => { m with ub := true }

/-- `Deref` (src/values/string.rs:184-191); `src` gives what is borrowed at an address. -/
def deref (src : Nat → Nat → T) (m : Mem T) (c : CowStr) : Option T :=
  if c.owned then (m.heap c.ptr).map Prod.fst else some (src c.ptr c.lenOrMax)

/-- `Drop` (src/values/string.rs:175-182). -/
def dropCow (m : Mem T) (c : CowStr) : Mem T := if c.owned then decr m c.ptr else m

/-- The operations; `src` is the borrowed memory and `rc` that of the `Rc`s. `none` is a panic. -/
def step (src : Nat → Nat → T) (rc : Nat → T) (m : Mem T) : Op T → Option (Mem T)
  | .fromStr h ptr len => newStr m h ptr len
  | .fromString h a t => some (newString m h a t)
  | .fromRc h ptr lenOrMax a => if lenOrMax = maxLen then some (newString m h a (rc ptr)) else newStr m h ptr lenOrMax
  | .clone h h' => match find m.live h with
    | some c => if c.owned then some { incr m c.ptr with live := (h', ⟨c.ptr, maxLen⟩) :: m.live } else some { m with live := (h', c) :: m.live }
    | none => some { m with ub := true }
  | .intoOwned h a => match find m.live h with
    | some c => if c.owned = false then
        match deref src m c with
        | some t => some (newString { m with live := forget m.live h } h a t)
        | none => some { m with ub := true }
      else some m
    | none => some { m with ub := true }
  | .drop h => match find m.live h with
    | some c => some { dropCow m c with live := forget m.live h }
    | none => some { m with ub := true }

/-- A sequence of operations. -/
def run (src : Nat → Nat → T) (rc : Nat → T) : Mem T → List (Op T) → Option (Mem T)
  | m, [] => some m
  | m, o :: os => match step src rc m o with
    | some m => run src rc m os
    | none => none

/-- `PartialEq` (src/values/string.rs:218-223): the texts are compared. -/
def eq [DecidableEq T] (src : Nat → Nat → T) (m : Mem T) (a b : CowStr) : Option Bool := match deref src m a, deref src m b with
  | some x, some y => some (x == y)
  | _, _ => none
end

end Verif.Cow
