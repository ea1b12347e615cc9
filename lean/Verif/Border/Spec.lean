import Verif.Border.Model
/-! # What a browser makes of border declarations (css-backgrounds-3, css-logical-1) -/
namespace Verif.Border.Spec
open Verif.Border (Pos Key Slot Axis PId Decl)

/-- A writing mode: to which physical side each logical side belongs. -/
structure Mode where
  to : Pos → Pos
  inv : Pos → Pos
  left : ∀ p, inv (to p) = p
  right : ∀ p, to (inv p) = p

/-- Horizontal, left to right. -/
def Mode.ltr : Mode := ⟨id, id, fun _ => rfl, fun _ => rfl⟩
/-- Left and right are changed. -/
def swap : Pos → Pos
  | .bs => .bs | .be => .be | .is => .ie | .ie => .is
/-- Horizontal, right to left. -/
def Mode.rtl : Mode := ⟨swap, swap, by intro p; cases p <;> rfl, by intro p; cases p <;> rfl⟩
/-- Horizontal writing: the block axis goes from top to bottom. -/
def Mode.Horizontal (m : Mode) : Prop := m.to .bs = .bs ∧ m.to .be = .be

/-- A value: the one of before the block, one of the block, an opaque text, or the initial value. -/
inductive Value (T : Type)
  | before
  | val (v : T)
  | raw (u : Nat)
  | initial
deriving DecidableEq

/-- The computed values: the twelve longhands by physical side, and `border-image`. -/
structure Computed (V : Type) where
  f : Pos → Key → Value V := fun _ _ => .before
  image : Value Nat := .before

section
variable {V : Type}

/-- The longhands of a property. -/
inductive Longhand : PId → Slot → Key → Prop
  | long (s : Slot) (k : Key) : Longhand (.long s k) s k
  | side (s : Slot) (k : Key) : Longhand (.side s) s k
  | rect (k : Key) (p : Pos) : Longhand (.rect k) (.phys p) k
  | border (p : Pos) (k : Key) : Longhand .border (.phys p) k
  | blockStart (k : Key) : Longhand (.axisKey .block k) (.log .bs) k
  | blockEnd (k : Key) : Longhand (.axisKey .block k) (.log .be) k
  | inlineStart (k : Key) : Longhand (.axisKey .inline k) (.log .is) k
  | inlineEnd (k : Key) : Longhand (.axisKey .inline k) (.log .ie) k
  | blockStarts (k : Key) : Longhand (.axis .block) (.log .bs) k
  | blockEnds (k : Key) : Longhand (.axis .block) (.log .be) k
  | inlineStarts (k : Key) : Longhand (.axis .inline) (.log .is) k
  | inlineEnds (k : Key) : Longhand (.axis .inline) (.log .ie) k

instance : (id : PId) → (s : Slot) → (k : Key) → Decidable (Longhand id s k)
  | .long s k, s', k' => if h : s = s' ∧ k = k' then .isTrue (by obtain ⟨rfl, rfl⟩ := h; exact .long _ _) else .isFalse (by intro h'; cases h'; exact h ⟨rfl, rfl⟩)
  | .side s, s', k' => if h : s = s' then .isTrue (by subst h; exact .side _ _) else .isFalse (by intro h'; cases h'; exact h rfl)
  | .rect k, .phys p, k' => if h : k = k' then .isTrue (by subst h; exact .rect _ _) else .isFalse (by intro h'; cases h'; exact h rfl)
  | .rect _, .log _, _ => .isFalse (by intro h; cases h)
  | .border, .phys _, _ => .isTrue (.border _ _)
  | .border, .log _, _ => .isFalse (by intro h; cases h)
  | .axisKey .block k, .log .bs, k' => if h : k = k' then .isTrue (by subst h; exact .blockStart _) else .isFalse (by intro h'; cases h'; exact h rfl)
  | .axisKey .block k, .log .be, k' => if h : k = k' then .isTrue (by subst h; exact .blockEnd _) else .isFalse (by intro h'; cases h'; exact h rfl)
  | .axisKey .inline k, .log .is, k' => if h : k = k' then .isTrue (by subst h; exact .inlineStart _) else .isFalse (by intro h'; cases h'; exact h rfl)
  | .axisKey .inline k, .log .ie, k' => if h : k = k' then .isTrue (by subst h; exact .inlineEnd _) else .isFalse (by intro h'; cases h'; exact h rfl)
  | .axisKey .block _, .log .is, _ => .isFalse (by intro h; cases h)
  | .axisKey .block _, .log .ie, _ => .isFalse (by intro h; cases h)
  | .axisKey .inline _, .log .bs, _ => .isFalse (by intro h; cases h)
  | .axisKey .inline _, .log .be, _ => .isFalse (by intro h; cases h)
  | .axisKey _ _, .phys _, _ => .isFalse (by intro h; cases h)
  | .axis .block, .log .bs, k => .isTrue (.blockStarts k)
  | .axis .block, .log .be, k => .isTrue (.blockEnds k)
  | .axis .inline, .log .is, k => .isTrue (.inlineStarts k)
  | .axis .inline, .log .ie, k => .isTrue (.inlineEnds k)
  | .axis .block, .log .is, _ => .isFalse (by intro h; cases h)
  | .axis .block, .log .ie, _ => .isFalse (by intro h; cases h)
  | .axis .inline, .log .bs, _ => .isFalse (by intro h; cases h)
  | .axis .inline, .log .be, _ => .isFalse (by intro h; cases h)
  | .axis _, .phys _, _ => .isFalse (by intro h; cases h)

/-- The property, and the value that a declaration has for each of its longhands. -/
def parts : Decl V → Option (PId × (Slot → Key → Value V))
  | .long s k v => some (.long s k, fun _ _ => .val v)
  | .side s b => some (.side s, fun _ k => .val (b k))
  | .rect k v => some (.rect k, fun s _ => match s with
    | .phys p => .val (v p)
    | .log p => .val (v p))
  | .border b => some (.border, fun _ k => .val (b k))
  | .axisKey a k v w => some (.axisKey a k, fun s _ => if s = .log .bs ∨ s = .log .is then .val v else .val w)
  | .axis a b => some (.axis a, fun _ k => .val (b k))
  | .raw id u => some (id, fun _ _ => .raw u)
  | .image _ => none
  | .imageRaw _ => none

/-- A browser: the values that it accepts. -/
structure Agent (V : Type) where
  ok : Key → V → Bool
  image : Nat → Bool

/-- Whether a value is accepted. -/
def Agent.value (a : Agent V) (k : Key) : Value V → Bool
  | .val v => a.ok k v
  | _ => true

/-- A declaration is ignored unless all its values are accepted. -/
def Agent.accepts (a : Agent V) (d : Decl V) : Prop := match d with
  | .image u => a.image u = true
  | d => ∀ id val, parts d = some (id, val) → ∀ s k, Longhand id s k → a.value k (val s k) = true

/-- `border` resets `border-image`. -/
def imageOf (d : Decl V) (c : Value Nat) : Value Nat := match d with
  | .image u => .val u
  | .imageRaw u => .raw u
  | .border _ => .initial
  | .raw .border _ => .initial
  | _ => c

/-- The longhands after an accepted declaration. -/
def set (m : Mode) (c : Pos → Key → Value V) (d : Decl V) : Pos → Key → Value V := match parts d with
  | none => c
  | some (id, val) => fun p k =>
    if Longhand id (.phys p) k then val (.phys p) k
    else if Longhand id (.log (m.inv p)) k then val (.log (m.inv p)) k
    else c p k

open Classical in
/-- One declaration. -/
noncomputable def apply (a : Agent V) (m : Mode) (c : Computed V) (d : Decl V) : Computed V :=
  if a.accepts d then ⟨set m c.f d, imageOf d c.image⟩ else c

/-- A block. -/
noncomputable def computed (a : Agent V) (m : Mode) (c : Computed V) (ds : List (Decl V)) : Computed V := ds.foldl (apply a m) c

/-- A browser that accepts all values. -/
def Agent.All (a : Agent V) : Prop := (∀ k v, a.ok k v = true) ∧ ∀ u, a.image u = true

/-- The declaration sets this longhand. -/
def Sets (d : Decl V) (s : Slot) (k : Key) : Prop := ∃ id val, parts d = some (id, val) ∧ Longhand id s k

/-- The declaration sets only physical longhands. -/
def Physical (d : Decl V) : Prop := ∀ s k, Sets d s k → ∃ p, s = .phys p

/-- The declaration is of one of the properties for both sides of a logical axis. -/
def OfAxis (d : Decl V) : Prop := ∃ id val, parts d = some (id, val) ∧ ((∃ a k, id = .axisKey a k) ∨ ∃ a, id = .axis a)

/-- The fallbacks that are written before a declaration are declarations of the same property. -/
def SameProperty (env : Verif.Border.Env V) : Prop := ∀ d, ∀ e ∈ env.fb d, ∃ id v w, parts d = some (id, v) ∧ parts e = some (id, w)

end
end Verif.Border.Spec
