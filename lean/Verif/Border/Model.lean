/-!
# The border handler (`/repo/src/properties/border.rs:504-1376`)

The values of the three keys are an opaque type `V`. Colours stand for the colour they mean: the last of the fallbacks of a colour is the same colour (C96–C103). `border-image` is one property with an opaque value; its longhands and prefixes are not modelled.
-/
namespace Verif.Border

/-- The four sides. For the physical sides these are top, bottom, left and right, for the logical ones block-start, block-end, inline-start and inline-end: the order of the arguments of `flush_category!` (src/properties/border.rs:1238-1284). -/
inductive Pos
  | bs | be | is | ie
deriving DecidableEq

/-- The keys of `BorderShorthand` (src/properties/border.rs:470-475). -/
inductive Key
  | width | style | color
deriving DecidableEq

/-- A physical or logical side. -/
inductive Slot
  | phys (p : Pos)
  | log (p : Pos)
deriving DecidableEq

/-- The logical axes. -/
inductive Axis
  | block | inline
deriving DecidableEq

/-- The start of an axis. -/
def Axis.start : Axis → Pos
  | .block => .bs
  | .inline => .is
/-- The end of an axis. -/
def Axis.stop : Axis → Pos
  | .block => .be
  | .inline => .ie

/-- The border properties (src/properties/border.rs:503-551): `border-top-width` ..., `border-top` ..., `border-width` ..., `border`, `border-block-width` ..., `border-block` .... -/
inductive PId
  | long (s : Slot) (k : Key)
  | side (s : Slot)
  | rect (k : Key)
  | border
  | axisKey (a : Axis) (k : Key)
  | axis (a : Axis)
deriving DecidableEq

/-- The declarations. `raw` is `Unparsed`. -/
inductive Decl (V : Type)
  | long (s : Slot) (k : Key) (v : V)
  | side (s : Slot) (b : Key → V)
  | rect (k : Key) (v : Pos → V)
  | border (b : Key → V)
  | axisKey (a : Axis) (k : Key) (v w : V)
  | axis (a : Axis) (b : Key → V)
  | raw (id : PId) (u : Nat)
  | image (u : Nat)
  | imageRaw (u : Nat)

/-- The bits of `BorderProperty` (src/properties/border.rs:503-551). -/
def PId.bits : PId → Slot → Key → Bool
  | .long s k, s', k' => s' = s ∧ k' = k
  | .side s, s', _ => s' = s
  | .rect k, .phys _, k' => k' = k
  | .rect _, .log _, _ => false
  | .border, .phys _, _ => true
  | .border, .log _, _ => false
  | .axisKey a k, .log p, k' => (p = a.start ∨ p = a.stop) ∧ k' = k
  | .axisKey _ _, .phys _, _ => false
  | .axis a, .log p, _ => p = a.start ∨ p = a.stop
  | .axis _, .phys _, _ => false

/-- The sides. -/
def poss : List Pos := [.bs, .be, .is, .ie]
/-- The keys. -/
def keys : List Key := [.width, .style, .color]
/-- All slots. -/
def slots : List Slot := poss.map .phys ++ poss.map .log

section
variable {V : Type}

/-- The property of a declaration of this handler. -/
def Decl.id : Decl V → Option PId
  | .long s k _ => some (.long s k)
  | .side s _ => some (.side s)
  | .rect k _ => some (.rect k)
  | .border _ => some .border
  | .axisKey a k _ _ => some (.axisKey a k)
  | .axis a _ => some (.axis a)
  | .raw id _ => some id
  | .image _ => none
  | .imageRaw _ => none

/-- What the handler asks about the targets: `logical` and `logicalShorthand` are `logical_supported` and `logical_shorthand_supported` (src/properties/border.rs:757-758); `compat` is "no browsers are given, or the value is compatible" (src/properties/border.rs:585); `fb` are the fallbacks without the last one (`get_fallbacks`); `imageCompat` the same for `border-image`. -/
structure Env (V : Type) where
  logical : Bool
  logicalShorthand : Bool
  compat : Key → V → Bool
  fb : Decl V → List (Decl V)
  imageCompat : Nat → Bool

/-- The values of a category. -/
abbrev Held (V : Type) := Pos → Key → Option V

/-- `is_valid` and `to_border` (src/properties/border.rs:484-500). -/
def full (g : Held V) (p : Pos) : Option (Key → V) :=
  match g p .width, g p .style, g p .color with
  | some w, some s, some c => some fun | .width => w | .style => s | .color => c
  | _, _, _ => none

/-- `is_valid` for all sides, with the borders. -/
def fullAll (g : Held V) : Option (Pos → Key → V) :=
  match full g .bs, full g .be, full g .is, full g .ie with
  | some a, some b, some c, some d => some fun | .bs => a | .be => b | .is => c | .ie => d
  | _, _, _, _ => none

/-- The slot of a side in a category. -/
def slotOf (log : Bool) (p : Pos) : Slot := if log then .log p else .phys p

variable [DecidableEq V]

/-- `==` of two sides. -/
def eqSide (b : Pos → Key → V) (p q : Pos) : Bool := b p .width = b q .width ∧ b p .style = b q .style ∧ b p .color = b q .color

/-- `is_eq!` (src/properties/border.rs:1020-1026). -/
def eqKey (b : Pos → Key → V) (k : Key) : Bool := b .bs k = b .be k ∧ b .is k = b .ie k ∧ b .is k = b .bs k

/-- `side_diff!` (src/properties/border.rs:1048-1067). -/
def sideDiff (log : Bool) (b : Pos → Key → V) (base other : Pos) : List (Decl V) :=
  let w := b base .width = b other .width
  let s := b base .style = b other .style
  let c := b base .color = b other .color
  if w ∧ s then [.long (slotOf log other) .color (b other .color)]
  else if w ∧ c then [.long (slotOf log other) .style (b other .style)]
  else if s ∧ c then [.long (slotOf log other) .width (b other .width)]
  else [.side (slotOf log other) (b other)]

/-- `prop_diff!` (src/properties/border.rs:1028-1046). -/
def propDiff (log : Bool) (b : Pos → Key → V) (base : Pos) (fallback : List (Decl V)) (withBorder : Bool) : List (Decl V) :=
  if !log && (eqKey b .color && eqKey b .style) then [.border (b base), .rect .width (fun p => b p .width)]
  else if !log && (eqKey b .width && eqKey b .style) then [.border (b base), .rect .color (fun p => b p .color)]
  else if !log && (eqKey b .width && eqKey b .color) then [.border (b base), .rect .style (fun p => b p .style)]
  else (if withBorder then [.border (b base)] else []) ++ fallback

/-- The count `diff` (src/properties/border.rs:1085-1096). -/
def diffCount (b : Pos → Key → V) : Nat :=
  (keys.filter fun k => b .is k ≠ b .bs k ∨ b .ie k ≠ b .bs k).length

/-- The fallback if the block sides are equal (src/properties/border.rs:1082-1126). -/
def blockEq (log : Bool) (b : Pos → Key → V) : List (Decl V) :=
  let sides := sideDiff log b .bs .is ++ sideDiff log b .bs .ie
  if log then
    if diffCount b = 1 then
      if b .is .width ≠ b .bs .width then [.axisKey .inline .width (b .is .width) (b .ie .width)]
      else if b .is .style ≠ b .bs .style then [.axisKey .inline .style (b .is .style) (b .ie .style)]
      else if b .is .color ≠ b .bs .color then [.axisKey .inline .color (b .is .color) (b .ie .color)]
      else sides
    else if diffCount b > 1 ∧ eqSide b .is .ie then [.axis .inline (b .is)]
    else sides
  else sides

/-- The case that all sides are complete (src/properties/border.rs:1012-1147). -/
def complete (log : Bool) (b : Pos → Key → V) : List (Decl V) :=
  let tb := eqSide b .bs .be
  let lr := eqSide b .is .ie
  let tl := eqSide b .bs .is
  let tr := eqSide b .bs .ie
  let bl := eqSide b .be .is
  let br := eqSide b .be .ie
  if tb && tl && tr then [.border (b .bs)]
  else if tb && tl then .border (b .bs) :: sideDiff log b .bs .ie
  else if tb && tr then .border (b .bs) :: sideDiff log b .bs .is
  else if lr && bl then .border (b .is) :: sideDiff log b .is .bs
  else if lr && tl then .border (b .is) :: sideDiff log b .is .be
  else if tb then propDiff log b .bs (blockEq log b) true
  else if lr then propDiff log b .is (sideDiff log b .is .bs ++ sideDiff log b .is .be) true
  else if br then propDiff log b .be (sideDiff log b .be .bs ++ sideDiff log b .be .is) true
  else propDiff log b .bs [.side (slotOf log .bs) (b .bs), .side (slotOf log .be) (b .be), .side (slotOf log .is) (b .is), .side (slotOf log .ie) (b .ie)] false

/-- The values without those of some sides for a key (`std::mem::take`). -/
def clear (g : Held V) (ps : List Pos) (k : Key) : Held V := fun p j => if p ∈ ps ∧ j = k then none else g p j

/-- `shorthand!` (src/properties/border.rs:981-996). -/
def shorthand (log : Bool) (k : Key) (s : Held V × List (Decl V)) : Held V × List (Decl V) :=
  match s.1 .bs k, s.1 .be k, s.1 .is k, s.1 .ie k with
  | some a, some b, some c, some d =>
    if log = false ∨ (a = b ∧ b = c ∧ c = d) then
      (clear s.1 poss k, s.2 ++ [.rect k fun | .bs => a | .be => b | .is => c | .ie => d])
    else s
  | _, _, _, _ => s

/-- `logical_shorthand!` (src/properties/border.rs:998-1010). -/
def axisShorthand (a : Axis) (k : Key) (s : Held V × List (Decl V)) : Held V × List (Decl V) :=
  match s.1 a.start k, s.1 a.stop k with
  | some v, some w => (clear s.1 [a.start, a.stop] k, s.2 ++ [.axisKey a k v w])
  | _, _ => s

/-- `inline_prop!` (src/properties/border.rs:1216-1227). -/
def inlineProp (k : Key) (s : Held V × List (Decl V)) : Held V × List (Decl V) :=
  match s.1 .is k, s.1 .ie k with
  | some v, some w => if v = w then (clear s.1 [.is, .ie] k, s.2 ++ [.long (.phys .is) k v, .long (.phys .ie) k w]) else s
  | _, _ => s

/-- One of the longhands of `side!`. -/
def longOf (log : Bool) (g : Held V) (p : Pos) (k : Key) : List (Decl V) := match g p k with
  | some v => [.long (slotOf log p) k v]
  | none => []

/-- `side!` (src/properties/border.rs:1153-1171). -/
def sideOut (log : Bool) (g : Held V) (p : Pos) : List (Decl V) :=
  match full g p with
  | some b => [.side (slotOf log p) b]
  | none => longOf log g p .style ++ longOf log g p .width ++ longOf log g p .color

/-- Two equal and complete sides. -/
def eqFull (g : Held V) (p q : Pos) : Option (Key → V) :=
  match full g p with
  | some b => if g q .width = some (b .width) ∧ g q .style = some (b .style) ∧ g q .color = some (b .color) then some b else none
  | none => none

/-- The block sides (src/properties/border.rs:1173-1194). -/
def blockOut (env : Env V) (log : Bool) (s : Held V × List (Decl V)) : Held V × List (Decl V) :=
  match (if log then eqFull s.1 .bs .be else none) with
  | some b =>
    (s.1, s.2 ++ (if env.logical then (if env.logicalShorthand then [.axis .block b] else [.side (.log .bs) b, .side (.log .be) b])
      else [.side (.phys .bs) b, .side (.phys .be) b]))
  | none =>
    let s := if log && env.logicalShorthand && (full s.1 .bs).isNone && (full s.1 .be).isNone then
      axisShorthand .block .color (axisShorthand .block .width (axisShorthand .block .style s)) else s
    (s.1, s.2 ++ (sideOut log s.1 .bs ++ sideOut log s.1 .be))

/-- The inline sides (src/properties/border.rs:1196-1234). -/
def inlineOut (env : Env V) (log : Bool) (s : Held V × List (Decl V)) : Held V × List (Decl V) :=
  match (if log then eqFull s.1 .is .ie else none) with
  | some b =>
    (s.1, s.2 ++ (if env.logical then (if env.logicalShorthand then [.axis .inline b] else [.side (.log .is) b, .side (.log .ie) b])
      else [.side (.phys .is) b, .side (.phys .ie) b]))
  | none =>
    let s := if log && (full s.1 .is).isNone && (full s.1 .ie).isNone then
      (if env.logicalShorthand then axisShorthand .inline .color (axisShorthand .inline .width (axisShorthand .inline .style s))
        else inlineProp .color (inlineProp .width (inlineProp .style s)))
      else s
    (s.1, s.2 ++ (sideOut log s.1 .is ++ sideOut log s.1 .ie))

/-- `flush_category!`: the calls of `prop!` (src/properties/border.rs:957-1236). -/
def category (env : Env V) (log : Bool) (g : Held V) : List (Decl V) :=
  match fullAll g with
  | some b => complete log b
  | none => (inlineOut env log (blockOut env log (shorthand log .color (shorthand log .width (shorthand log .style (g, [])))))).2

/-- What the handler writes: the declarations of the rule, those of the rules for the two directions (`add_logical_rule`), and the flushed properties. -/
structure Out (V : Type) where
  main : List (Decl V) := []
  ltr : List (Decl V) := []
  rtl : List (Decl V) := []
  flushed : Slot → Key → Bool := fun _ _ => false

/-- Whether there are fallbacks for the property: those with a colour (src/properties/border.rs:800-954). -/
def Decl.hasColor : Decl V → Bool
  | .long _ k _ => k = .color
  | .rect k _ => k = .color
  | .axisKey _ k _ _ => k = .color
  | .side .. => true
  | .border _ => true
  | .axis .. => true
  | _ => false

/-- `contains` of the flushed properties. -/
def Out.has (o : Out V) (id : PId) : Bool := slots.all fun s => keys.all fun k => !id.bits s k || o.flushed s k

/-- The flushed properties with another one. -/
def Out.mark (o : Out V) (id : PId) : Out V := { o with flushed := fun s k => o.flushed s k || id.bits s k }

/-- `push!` and `fallbacks!` (src/properties/border.rs:765-783). -/
def Out.push (env : Env V) (o : Out V) (d : Decl V) : Out V :=
  match d.id with
  | some id => { o.mark id with main := o.main ++ ((if d.hasColor && !o.has id then env.fb d else []) ++ [d]) }
  | none => { o with main := o.main ++ [d] }

/-- `logical_prop!` (src/properties/border.rs:759-763). -/
def Out.rule (o : Out V) (l r : Decl V) : Out V := { o with ltr := o.ltr ++ [l], rtl := o.rtl ++ [r] }

/-- `prop!` (src/properties/border.rs:785-955). -/
def Out.prop (env : Env V) (o : Out V) (d : Decl V) : Out V :=
  if env.logical then o.push env d
  else match d with
    | .long (.log .is) k v => o.rule (.long (.phys .is) k v) (.long (.phys .ie) k v)
    | .long (.log .ie) k v => o.rule (.long (.phys .ie) k v) (.long (.phys .is) k v)
    | .long (.log p) k v => o.push env (.long (.phys p) k v)
    | .side (.log .is) b => o.rule (.side (.phys .is) b) (.side (.phys .ie) b)
    | .side (.log .ie) b => o.rule (.side (.phys .ie) b) (.side (.phys .is) b)
    | .side (.log p) b => o.push env (.side (.phys p) b)
    | d => o.push env d

/-- `BorderHandler` (src/properties/border.rs:554-573). `category` is true for `Logical`; `image` is what the handler of `border-image` holds. -/
structure Handler (V : Type) where
  f : Slot → Key → Option V := fun _ _ => none
  category : Bool := false
  any : Bool := false
  image : Option Nat := none

/-- The calls of `prop!` in `flush` (src/properties/border.rs:1238-1284). -/
def calls (env : Env V) (h : Handler V) : List (Decl V) :=
  category env false (fun p => h.f (.phys p)) ++ category env true (fun p => h.f (.log p))

/-- `BorderHandler::flush` (src/properties/border.rs:749-1294). -/
def flush (env : Env V) (s : Handler V × Out V) : Handler V × Out V :=
  if s.1.any then ({ s.1 with f := fun _ _ => none, any := false }, (calls env s.1).foldl (Out.prop env) s.2) else s

/-- Whether a slot is logical. -/
def Slot.logical : Slot → Bool
  | .phys _ => false
  | .log _ => true

/-- The first part of `flush!` and `set_border!` (src/properties/border.rs:581-583, 602-604). -/
def enter (env : Env V) (s : Handler V × Out V) (log : Bool) : Handler V × Out V := if log ≠ s.1.category then flush env s else s

/-- The second part of `flush!` (src/properties/border.rs:585-587). -/
def conflict (env : Env V) (s : Handler V × Out V) (sl : Slot) (k : Key) (v : V) : Handler V × Out V :=
  match s.1.f sl k with
  | some w => if w ≠ v ∧ env.compat k v = false then flush env s else s
  | none => s

/-- `property!` (src/properties/border.rs:591-598). -/
def property (env : Env V) (s : Handler V × Out V) (sl : Slot) (k : Key) (v : V) : Handler V × Out V :=
  let s := conflict env (enter env s sl.logical) sl k v
  ({ s.1 with f := fun t j => if t = sl ∧ j = k then some v else s.1.f t j, category := sl.logical, any := true }, s.2)

/-- `set_border!` (src/properties/border.rs:600-609). -/
def setBorder (env : Env V) (s : Handler V × Out V) (sl : Slot) (b : Key → V) : Handler V × Out V :=
  let s := enter env s sl.logical
  ({ s.1 with f := fun t j => if t = sl then some (b j) else s.1.f t j, category := sl.logical, any := true }, s.2)

/-- `flush_unparsed` (src/properties/border.rs:1296-1376). -/
def rawOut (env : Env V) (o : Out V) (id : PId) (u : Nat) : Out V :=
  let put := fun id' : PId => { o.mark id' with main := o.main ++ [.raw id' u] }
  if env.logical then put id
  else match id with
    | .long (.log .is) k => o.rule (.raw (.long (.phys .is) k) u) (.raw (.long (.phys .ie) k) u)
    | .long (.log .ie) k => o.rule (.raw (.long (.phys .ie) k) u) (.raw (.long (.phys .is) k) u)
    | .long (.log p) k => put (.long (.phys p) k)
    | .side (.log .is) => o.rule (.raw (.side (.phys .is)) u) (.raw (.side (.phys .ie)) u)
    | .side (.log .ie) => o.rule (.raw (.side (.phys .ie)) u) (.raw (.side (.phys .is)) u)
    | .side (.log p) => put (.side (.phys p))
    | id => put id

/-- `BorderImageHandler::flush` for a whole `border-image` (src/properties/border_image.rs:491-560). -/
def flushImage (s : Handler V × Out V) : Handler V × Out V :=
  match s.1.image with
  | some u => ({ s.1 with image := none }, { s.2 with main := s.2.main ++ [.image u] })
  | none => s

/-- `BorderHandler::handle_property` (src/properties/border.rs:571-739), with `border-image` (src/properties/border_image.rs:396-461). -/
def handle (env : Env V) (s : Handler V × Out V) : Decl V → Handler V × Out V
  | .long sl k v => property env s sl k v
  | .axisKey a k v w => property env (property env s (.log a.start) k v) (.log a.stop) k w
  | .side sl b => setBorder env s sl b
  | .axis a b => setBorder env (setBorder env s (.log a.start) b) (.log a.stop) b
  | .rect k v =>
    let s := property env (property env (property env (property env s (.phys .bs) k (v .bs)) (.phys .ie) k (v .ie)) (.phys .be) k (v .be)) (.phys .is) k (v .is)
    ({ s.1 with f := fun t j => if t.logical = true ∧ j = k then none else s.1.f t j, any := true }, s.2)
  | .border b =>
    ({ s.1 with f := fun t j => if t.logical then none else some (b j), any := true, image := none }, s.2)
  | .raw id u => let s := flush env s; (s.1, rawOut env s.2 id u)
  | .image u =>
    let s := match s.1.image with
      | some w => if w ≠ u ∧ env.imageCompat u = false then flushImage s else s
      | none => s
    ({ s.1 with image := some u }, s.2)
  | .imageRaw u =>
    let s := flushImage (flush env s)
    (s.1, { s.2 with main := s.2.main ++ [.imageRaw u] })

/-- The handler over the declarations of a block, with `finalize` (src/properties/border.rs:741-746). -/
def run (env : Env V) (ds : List (Decl V)) : Out V := (flushImage (flush env (ds.foldl (handle env) ({}, {})))).2

end
end Verif.Border
