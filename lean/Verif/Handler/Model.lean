import Verif.Common.Chars
/-! Model of the property handlers that minification runs over a declaration block: `DeclarationBlock::minify` and
`DeclarationHandler` (src/declaration.rs), the `side_handler!` macro (src/properties/margin_padding.rs), the
`shorthand_handler!` macro (src/macros.rs) and `OverflowHandler` (src/properties/overflow.rs).

Values are abstract (`V`); unparsed values (with `var()` and the like) are values too, of a declaration marked as unparsed.
Not modelled: the handlers of the other property families (background, border, flex, grid, align, size, font, text-decoration,
transition, animation, display, position, transform, box-shadow, mask, color-scheme, fallback, prefix). A block of this model
holds properties of the modelled families, custom properties, `all`, `direction`, `unicode-bidi` and properties that no handler
touches (`other`). -/
namespace Verif.Handler

/-- Physical sides. -/
inductive Side | top | right | bottom | left
deriving DecidableEq, Repr
/-- Logical sides. -/
inductive LSide | blockStart | blockEnd | inlineStart | inlineEnd
deriving DecidableEq, Repr

/-- src/logical.rs:1-11 `PropertyCategory`. -/
inductive Category | logical | physical
deriving DecidableEq, Repr

/-- The properties of a box family: four physical and four logical longhands, `x`, `x-block` and `x-inline`. -/
inductive BoxId | phys (s : Side) | log (l : LSide) | rect | block | inline
deriving DecidableEq, Repr

/-- A declaration of a box family. -/
inductive BoxDecl (V : Type)
  | phys (s : Side) (v : V)
  | log (l : LSide) (v : V)
  | rect (top right bottom left : V)
  | block (start fin : V)
  | inline (start fin : V)
  | unparsed (id : BoxId) (v : V)
deriving DecidableEq, Repr

/-- What a handler adds to the context: a pair for the `:dir(ltr)` and `:dir(rtl)` rules (src/context.rs:92-95). -/
structure Logical (D : Type) where
  ltr : D
  rtl : D
deriving DecidableEq, Repr

/-- A pending logical longhand: parsed or unparsed (`Option<Property>` in the code). -/
inductive Pending (V : Type)
  | parsed (v : V)
  | unparsed (v : V)
deriving DecidableEq, Repr

/-- The parameters of a `side_handler!` instance in a context: the category of the shorthand, the values that are not compatible
with the targets, and whether logical properties and their shorthands need not be compiled (src/properties/margin_padding.rs:301,
335; for instances without features both are `true`). -/
structure BoxCfg (V : Type) where
  shorthandCategory : Category
  incompatible : V → Bool
  logicalSupported : Bool
  shorthandSupported : Bool

/-- src/properties/margin_padding.rs:168-181, the struct of `side_handler!`. -/
structure BoxState (V : Type) where
  phys : Side → Option V
  log : LSide → Option (Pending V)
  hasAny : Bool
  category : Category

variable {V : Type}

/-- `Default`. -/
def BoxState.init : BoxState V := ⟨fun _ => none, fun _ => none, false, .physical⟩

/-- The declaration of a pending logical longhand. -/
def pendingDecl (l : LSide) : Pending V → BoxDecl V
  | .parsed v => .log l v
  | .unparsed v => .unparsed (.log l) v

/-- src/properties/margin_padding.rs:303-328: the physical part of `flush`. -/
def flushPhys (c : BoxCfg V) (p : Side → Option V) : List (BoxDecl V) :=
  match p .top, p .bottom, p .left, p .right with
  | some t, some b, some l, some r =>
    if c.shorthandCategory ≠ .logical ∨ c.logicalSupported then [.rect t r b l]
    else [.phys .top t, .phys .bottom b, .phys .left l, .phys .right r]
  | t, b, l, r =>
    (t.map (.phys .top ·)).toList ++ (b.map (.phys .bottom ·)).toList ++ (l.map (.phys .left ·)).toList ++
      (r.map (.phys .right ·)).toList

/-- src/properties/margin_padding.rs:333-352 `logical_side!`. -/
def logicalSide (c : BoxCfg V) (s e : LSide) (sh : V → V → BoxDecl V) (log : LSide → Option (Pending V)) : List (BoxDecl V) :=
  match log s, log e with
  | some (.parsed a), some (.parsed b) =>
    if c.logicalSupported && c.shorthandSupported then [sh a b] else [.log s a, .log e b]
  | a, b => (a.map (pendingDecl s)).toList ++ (b.map (pendingDecl e)).toList

/-- The physical declaration of a pending logical longhand (src/properties/margin_padding.rs:354-366 `prop!`, and the values of
`logical_prop!`). -/
def compiled (s : Side) : Pending V → BoxDecl V
  | .parsed v => .phys s v
  | .unparsed v => .unparsed (.phys s) v

/-- src/properties/margin_padding.rs:378-409: the inline sides when logical properties are compiled. -/
def compileInline [DecidableEq V] (log : LSide → Option (Pending V)) : List (BoxDecl V) × List (Logical (BoxDecl V)) :=
  match log .inlineStart, log .inlineEnd with
  | some (.parsed a), some (.parsed b) =>
    if a = b then ([.phys .left a, .phys .right b], [])
    else ([], [⟨.phys .left a, .phys .right a⟩, ⟨.phys .right b, .phys .left b⟩])
  | a, b =>
    ([], (a.map fun a => ⟨compiled .left a, compiled .right a⟩).toList ++
      (b.map fun b => ⟨compiled .right b, compiled .left b⟩).toList)

/-- src/properties/margin_padding.rs:289-411 `flush`: the new state, the pushed declarations and the added rules. -/
def BoxState.flush [DecidableEq V] (c : BoxCfg V) (σ : BoxState V) :
    BoxState V × List (BoxDecl V) × List (Logical (BoxDecl V)) :=
  if !σ.hasAny then (σ, [], [])
  else
    let σ' : BoxState V := ⟨fun _ => none, fun _ => none, false, σ.category⟩
    if c.logicalSupported then
      (σ', flushPhys c σ.phys ++ logicalSide c .blockStart .blockEnd .block σ.log ++
        logicalSide c .inlineStart .inlineEnd .inline σ.log, [])
    else
      let blk := ((σ.log .blockStart).map (compiled .top)).toList ++ ((σ.log .blockEnd).map (compiled .bottom)).toList
      let inl := compileInline σ.log
      (σ', flushPhys c σ.phys ++ blk ++ inl.1, inl.2)

/-- A handler state together with what it has pushed and added. -/
abbrev BoxOut (V : Type) := BoxState V × List (BoxDecl V) × List (Logical (BoxDecl V))

/-- `self.flush(dest, context)` in the middle of handling. -/
def BoxOut.flush [DecidableEq V] (c : BoxCfg V) (o : BoxOut V) : BoxOut V :=
  let r := o.1.flush c
  (r.1, o.2.1 ++ r.2.1, o.2.2 ++ r.2.2)

/-- The `flush!` macro (src/properties/margin_padding.rs:187-196), for a key that is or is not pending. -/
def BoxOut.flushIf [DecidableEq V] (c : BoxCfg V) (pending : BoxState V → Bool) (v : V) (cat : Category) (o : BoxOut V) : BoxOut V :=
  if cat ≠ o.1.category ∨ (pending o.1 ∧ c.incompatible v) then o.flush c else o

/-- The rest of `property!` (src/properties/margin_padding.rs:201-203). -/
def BoxOut.setPhys (s : Side) (v : V) (o : BoxOut V) : BoxOut V :=
  ({ o.1 with phys := fun x => if x = s then some v else o.1.phys x, category := .physical, hasAny := true }, o.2)

/-- `matches!(val, Property::Unparsed(_))`. -/
def Pending.isUnparsed : Pending V → Bool
  | .unparsed _ => true
  | .parsed _ => false

/-- `logical_property!` (src/properties/margin_padding.rs:207-218). -/
def BoxOut.logicalProperty [DecidableEq V] (c : BoxCfg V) (l : LSide) (p : Pending V) (o : BoxOut V) : BoxOut V :=
  let o := if o.1.category ≠ .logical ∨ ((o.1.log l).isSome ∧ p.isUnparsed) then o.flush c else o
  ({ o.1 with log := fun x => if x = l then some p else o.1.log x, category := .logical, hasAny := true }, o.2)

/-- src/properties/margin_padding.rs:220-281 `handle_property`, for a property of the family (every property of the family is
handled, all others are not). -/
def BoxState.handle [DecidableEq V] (c : BoxCfg V) (d : BoxDecl V) (σ : BoxState V) : BoxOut V :=
  let o : BoxOut V := (σ, [], [])
  match d with
  | .phys s v => (o.flushIf c (fun σ => (σ.phys s).isSome) v .physical).setPhys s v
  | .log l v => (o.flushIf c (fun σ => (σ.log l).isSome) v .logical).logicalProperty c l (.parsed v)
  | .block a b =>
    ((((o.flushIf c (fun σ => (σ.log .blockStart).isSome) a .logical).flushIf c
      (fun σ => (σ.log .blockEnd).isSome) b .logical).logicalProperty c .blockStart (.parsed a)).logicalProperty c .blockEnd (.parsed b))
  | .inline a b =>
    ((((o.flushIf c (fun σ => (σ.log .inlineStart).isSome) a .logical).flushIf c
      (fun σ => (σ.log .inlineEnd).isSome) b .logical).logicalProperty c .inlineStart (.parsed a)).logicalProperty c .inlineEnd (.parsed b))
  | .rect t r b l =>
    let o := (((o.flushIf c (fun σ => (σ.phys .top).isSome) t c.shorthandCategory).flushIf c
      (fun σ => (σ.phys .right).isSome) r c.shorthandCategory).flushIf c
      (fun σ => (σ.phys .bottom).isSome) b c.shorthandCategory).flushIf c
      (fun σ => (σ.phys .left).isSome) l c.shorthandCategory
    ({ o.1 with
        phys := fun s => match s with | .top => some t | .right => some r | .bottom => some b | .left => some l
        log := fun _ => none
        hasAny := true }, o.2)
  | .unparsed (.log l) v => o.logicalProperty c l (.unparsed v)
  | .unparsed id v =>
    let o := o.flush c
    (o.1, o.2.1 ++ [.unparsed id v], o.2.2)

/-! ### `OverflowHandler` -/

/-- A declaration of `overflow-x`, `overflow-y` or `overflow`. -/
inductive OvDecl (V : Type)
  | x (v : V)
  | y (v : V)
  | both (x y : V)
  | unparsedX (v : V)
  | unparsedY (v : V)
  | unparsedBoth (v : V)
deriving DecidableEq, Repr

/-- src/properties/overflow.rs:75-78. -/
structure OvState (V : Type) where
  x : Option V
  y : Option V

/-- src/properties/overflow.rs:111-135 `finalize`; `two` is the compatibility of the targets with the two-value syntax. -/
def OvState.finalize [DecidableEq V] (two : Bool) (σ : OvState V) : OvState V × List (OvDecl V) :=
  match σ.x, σ.y with
  | none, none => (σ, [])
  | some x, some y => (⟨none, none⟩, if x = y ∨ two then [.both x y] else [.x x, .y y])
  | some x, none => (⟨none, none⟩, [.x x])
  | none, some y => (⟨none, none⟩, [.y y])

/-- src/properties/overflow.rs:81-109 `handle_property`, for the three properties. -/
def OvState.handle [DecidableEq V] (two : Bool) (d : OvDecl V) (σ : OvState V) : OvState V × List (OvDecl V) :=
  match d with
  | .x v => ({ σ with x := some v }, [])
  | .y v => ({ σ with y := some v }, [])
  | .both x y => (⟨some x, some y⟩, [])
  | d => let r := σ.finalize two; (r.1, r.2 ++ [d])

/-! ### `shorthand_handler!` -/

/-- A declaration of a shorthand with `n` longhands; `none` in an unparsed declaration is the shorthand. -/
inductive ShDecl (V : Type) (n : Nat)
  | long (i : Fin n) (v : V)
  | short (vs : Fin n → V)
  | unparsed (id : Option (Fin n)) (v : V)

/-- Parameters of an instance in a context: values that are not compatible with the targets, and `get_fallbacks` of the
shorthand and of each longhand (the value it leaves and the fallbacks it returns; nothing when the instance asks for none). The
unparsed value that `add_unparsed_fallbacks` leaves is `unparsed`; the conditional rules it adds are not modelled here. -/
structure ShCfg (V : Type) (n : Nat) where
  incompatible : V → Bool
  fbLong : Fin n → V → V × List V
  fbShort : (Fin n → V) → (Fin n → V) × List (Fin n → V)
  unparsed : V → V

/-- src/macros.rs:214-221, the struct of `shorthand_handler!`; `flushed i` is the bit of longhand `i` (the bit set of the
shorthand is the union of all, src/macros.rs:183-203). -/
structure ShState (V : Type) (n : Nat) where
  key : Fin n → Option V
  flushed : Fin n → Bool
  hasAny : Bool

/-- `Default`. -/
def ShState.init {n : Nat} : ShState V n := ⟨fun _ => none, fun _ => false, false⟩

/-- All keys, if all are pending (src/macros.rs:283-289). -/
def allKeys {n : Nat} (key : Fin n → Option V) : Option (Fin n → V) :=
  if h : ∀ i, (key i).isSome then some fun i => (key i).get (h i) else none

/-- The declarations of one pending longhand (src/macros.rs:307-321). -/
def ShState.flushLong {n : Nat} (c : ShCfg V n) (σ : ShState V n) (i : Fin n) : List (ShDecl V n) :=
  match σ.key i with
  | none => []
  | some v =>
    if σ.flushed i then [.long i v]
    else (c.fbLong i v).2.map (.long i ·) ++ [.long i (c.fbLong i v).1]

/-- src/macros.rs:272-324 `flush`. -/
def ShState.flush {n : Nat} (c : ShCfg V n) (σ : ShState V n) : ShState V n × List (ShDecl V n) :=
  if !σ.hasAny then (σ, [])
  else
    match allKeys σ.key with
    | some vs =>
      if ∃ i, σ.flushed i = true then (⟨fun _ => none, fun _ => true, false⟩, [.short vs])
      else (⟨fun _ => none, fun _ => true, false⟩, (c.fbShort vs).2.map .short ++ [.short (c.fbShort vs).1])
    | none =>
      (⟨fun _ => none, fun i => σ.flushed i || (σ.key i).isSome, false⟩, (List.finRange n).flatMap (σ.flushLong c))

/-- src/macros.rs:224-262 `handle_property`, for the properties of the instance. -/
def ShState.handle {n : Nat} (c : ShCfg V n) (d : ShDecl V n) (σ : ShState V n) : ShState V n × List (ShDecl V n) :=
  match d with
  | .long i v =>
    let r := if (σ.key i).isSome ∧ c.incompatible v then σ.flush c else (σ, [])
    ({ r.1 with key := fun x => if x = i then some v else r.1.key x, hasAny := true }, r.2)
  | .short vs =>
    -- the first key that is pending and gets an incompatible value flushes; afterwards nothing is pending
    let r := if ∃ i, (σ.key i).isSome ∧ c.incompatible (vs i) then σ.flush c else (σ, [])
    ({ r.1 with key := fun i => some (vs i), hasAny := true }, r.2)
  | .unparsed id v =>
    let r := σ.flush c
    ({ r.1 with flushed := fun i => r.1.flushed i || decide (id = none ∨ id = some i) }, r.2 ++ [.unparsed id (c.unparsed v)])

/-- src/macros.rs:264-267 `finalize`. -/
def ShState.finalize {n : Nat} (c : ShCfg V n) (σ : ShState V n) : ShState V n × List (ShDecl V n) :=
  let r := σ.flush c
  ({ r.1 with flushed := fun _ => false }, r.2)

/-! ### `DeclarationHandler` -/

/-- The instances of `side_handler!` (src/properties/margin_padding.rs:415-496). -/
inductive Fam | margin | padding | scrollMargin | scrollPadding | inset
deriving DecidableEq, Repr
/-- The instances of `shorthand_handler!` (src/properties/outline.rs:57, list.rs:460, contain.rs:159). -/
inductive ShFam | outline | listStyle | container
deriving DecidableEq, Repr

/-- Number of longhands of an instance. -/
def ShFam.n : ShFam → Nat
  | .outline => 3
  | .listStyle => 3
  | .container => 2

/-- A declaration. -/
inductive Decl (V : Type)
  | box (f : Fam) (d : BoxDecl V)
  | overflow (d : OvDecl V)
  | short (f : ShFam) (d : ShDecl V f.n)
  | custom (name : Str) (v : V)
  | direction (v : V)
  | unicodeBidi (v : V)
  | all (v : V)
  /-- `direction`, `unicode-bidi` and `all` with `var()`: no handler takes them. -/
  | unparsedDirection (v : V)
  | unparsedBidi (v : V)
  | unparsedAll (v : V)
  /-- An unknown property (`CustomPropertyName::Unknown`). -/
  | unknown (name : Str) (v : V)
  /-- Any other property no handler takes. -/
  | other (name : Str) (v : V)

/-- src/context.rs:26-32 `DeclarationContext`. -/
inductive Kind | none | styleRule | keyframes | styleAttribute
deriving DecidableEq, Repr

/-- The context: what stays the same while a block is minified. `lower` is `TokenList::get_fallbacks` for custom properties: the
value it leaves and the conditional values. `C` is the type of supports conditions. -/
structure Cfg (V C : Type) where
  box : Fam → BoxCfg V
  overflowTwo : Bool
  short : (f : ShFam) → ShCfg V f.n
  lower : V → V × List (C × V)
  kind : Kind
  unused : Str → Bool

/-- src/context.rs:20-24 `SupportsEntry`. -/
structure Entry (V C : Type) where
  cond : C
  decls : List (Decl V)
  imps : List (Decl V)

/-- The changing part of the context (src/context.rs:34-44). -/
structure Ctx (V C : Type) where
  isImportant : Bool
  supports : List (Entry V C)
  ltr : List (Decl V)
  rtl : List (Decl V)

variable {C : Type}

/-- Add to an entry. -/
def Entry.push (e : Entry V C) (imp : Bool) (d : Decl V) : Entry V C :=
  if imp then { e with imps := e.imps ++ [d] } else { e with decls := e.decls ++ [d] }

/-- The first entry with the condition is extended, or a new one is pushed (src/context.rs:168-190). -/
def addEntry [DecidableEq C] (c : C) (imp : Bool) (d : Decl V) : List (Entry V C) → List (Entry V C)
  | [] => [Entry.push ⟨c, [], []⟩ imp d]
  | e :: es => if c = e.cond then e.push imp d :: es else e :: addEntry c imp d es

/-- src/context.rs:163-191 `add_conditional_property`. -/
def Ctx.addConditional [DecidableEq C] (x : Ctx V C) (k : Kind) (c : C) (d : Decl V) : Ctx V C :=
  if k ≠ .styleRule then x else { x with supports := addEntry c x.isImportant d x.supports }

/-- src/context.rs:92-95 `add_logical_rule`, several times. -/
def Ctx.addLogical (x : Ctx V C) (f : Fam) (ls : List (Logical (BoxDecl V))) : Ctx V C :=
  { x with ltr := x.ltr ++ ls.map fun l => .box f l.ltr, rtl := x.rtl ++ ls.map fun l => .box f l.rtl }

/-- src/declaration.rs:540-573 `DeclarationHandler`, the modelled fields. `customs` is the `IndexMap`. -/
structure State (V : Type) where
  box : Fam → BoxState V
  overflow : OvState V
  short : (f : ShFam) → ShState V f.n
  direction : Option V
  bidi : Option V
  customs : List (Str × Nat)
  decls : List (Decl V)

/-- `Default`. -/
def State.init : State V :=
  ⟨fun _ => .init, ⟨none, none⟩, fun _ => .init, none, none, [], []⟩

/-- src/declaration.rs:682-699 `add_conditional_fallbacks`: the new value and context. -/
def addFallbacks [DecidableEq C] (c : Cfg V C) (n : Str) (v : V) (x : Ctx V C) : V × Ctx V C :=
  if c.kind = .keyframes then (v, x)
  else ((c.lower v).1, (c.lower v).2.foldl (fun x p => x.addConditional c.kind p.1 (.custom n p.2)) x)

/-- src/declaration.rs:613-643 `handle_custom_property` for a `--name`. -/
def State.handleCustom [DecidableEq V] [DecidableEq C] (c : Cfg V C) (n : Str) (v : V) (s : State V) (x : Ctx V C) :
    State V × Ctx V C :=
  if c.unused n then (s, x)
  else
    match s.customs.lookup n with
    | some i =>
      match s.decls[i]? with
      | some (.custom m w) =>
        if m = n ∧ w = v then (s, x)
        else
          let r := addFallbacks c n v x
          ({ s with decls := s.decls.set i (.custom n r.1) }, r.2)
      | _ =>
        let r := addFallbacks c n v x
        ({ s with decls := s.decls.set i (.custom n r.1) }, r.2)
    | none =>
      let r := addFallbacks c n v x
      ({ s with customs := s.customs ++ [(n, s.decls.length)], decls := s.decls ++ [.custom n r.1] }, r.2)

/-- The loop of src/declaration.rs:663-666: the custom properties are moved to the front. -/
def moveCustoms (decls : List (Decl V)) : List (Str × Nat) → List (Str × Nat) → List (Decl V) → List (Str × Nat) × List (Decl V)
  | [], cs, ds => (cs, ds)
  | (k, i) :: rest, cs, ds =>
    match decls[i]? with
    | some d => moveCustoms decls rest (cs ++ [(k, ds.length)]) (ds ++ [d])
    | none => moveCustoms decls rest cs ds -- the code would panic; the index is always in range

/-- src/declaration.rs:657-670 `handle_all` for `all`. -/
def State.handleAll (v : V) (s : State V) : State V :=
  let m := moveCustoms s.decls s.customs [] []
  { (State.init : State V) with bidi := s.bidi, direction := s.direction, customs := m.1, decls := m.2 ++ [.all v] }

/-- src/declaration.rs:576-611 `handle_property` and the push of src/declaration.rs:250-252 when it is not handled. -/
def State.handle [DecidableEq V] [DecidableEq C] (c : Cfg V C) (d : Decl V) (s : State V) (x : Ctx V C) : State V × Ctx V C :=
  match d with
  | .box f d =>
    let r := (s.box f).handle (c.box f) d
    ({ s with box := fun g => if g = f then r.1 else s.box g, decls := s.decls ++ r.2.1.map (.box f) }, x.addLogical f r.2.2)
  | .overflow d =>
    let r := s.overflow.handle c.overflowTwo d
    ({ s with overflow := r.1, decls := s.decls ++ r.2.map .overflow }, x)
  | .short f d =>
    let r := (s.short f).handle (c.short f) d
    ({ s with
        short := fun g => if h : f = g then h ▸ r.1 else s.short g
        decls := s.decls ++ r.2.map (.short f) }, x)
  | .all v => (s.handleAll v, x)
  | .direction v => ({ s with direction := some v }, x)
  | .unicodeBidi v => ({ s with bidi := some v }, x)
  | .custom n v => s.handleCustom c n v x
  | .unknown n v => if c.unused n then (s, x) else ({ s with decls := s.decls ++ [.unknown n v] }, x)
  | d => ({ s with decls := s.decls ++ [d] }, x)

/-- One family of `finalize`. -/
def State.finBox [DecidableEq V] (c : Cfg V C) (f : Fam) (r : State V × Ctx V C) : State V × Ctx V C :=
  let b := (r.1.box f).flush (c.box f)
  ({ r.1 with box := fun g => if g = f then b.1 else r.1.box g, decls := r.1.decls ++ b.2.1.map (.box f) }, r.2.addLogical f b.2.2)

/-- One `shorthand_handler!` instance of `finalize`. -/
def State.finShort (c : Cfg V C) (f : ShFam) (r : State V × Ctx V C) : State V × Ctx V C :=
  let b := (r.1.short f).finalize (c.short f)
  ({ r.1 with
      short := fun g => if h : f = g then h ▸ b.1 else r.1.short g
      decls := r.1.decls ++ b.2.map (.short f) }, r.2)

/-- `overflow` in `finalize`. -/
def State.finOverflow [DecidableEq V] (c : Cfg V C) (r : State V × Ctx V C) : State V × Ctx V C :=
  let b := r.1.overflow.finalize c.overflowTwo
  ({ r.1 with overflow := b.1, decls := r.1.decls ++ b.2.map .overflow }, r.2)

/-- src/declaration.rs:702-708: `direction` and `unicode-bidi` in `finalize`. -/
def State.finDir (r : State V × Ctx V C) : State V × Ctx V C :=
  ({ r.1 with
      direction := none, bidi := none
      decls := r.1.decls ++ (r.1.direction.map .direction).toList ++ (r.1.bidi.map .unicodeBidi).toList }, r.2)

/-- src/declaration.rs:701-738 `finalize`, the modelled handlers in the order of the code. -/
def State.finalize [DecidableEq V] (c : Cfg V C) (r : State V × Ctx V C) : State V × Ctx V C :=
  let r := State.finDir r
  let r := State.finShort c .outline r
  let r := State.finBox c .scrollPadding (State.finBox c .scrollMargin (State.finBox c .padding (State.finBox c .margin r)))
  let r := State.finShort c .listStyle r
  let r := State.finOverflow c (State.finBox c .inset r)
  let r := State.finShort c .container r
  ({ r.1 with customs := [] }, r.2)

/-- A declaration block. -/
structure Block (V : Type) where
  decls : List (Decl V)
  imps : List (Decl V)

/-- The `handle!` loop (src/declaration.rs:244-256). -/
def handleList [DecidableEq V] [DecidableEq C] (c : Cfg V C) (imp : Bool) : List (Decl V) → State V × Ctx V C → State V × Ctx V C
  | [], r => r
  | d :: ds, r => handleList c imp ds (r.1.handle c d { r.2 with isImportant := imp })

/-- src/declaration.rs:238-266 `DeclarationBlock::minify`, with the normal and the important handler. The result is the new
block, the handlers and the context. -/
def minify [DecidableEq V] [DecidableEq C] (c : Cfg V C) (b : Block V) (h hi : State V) (x : Ctx V C) :
    Block V × State V × State V × Ctx V C :=
  let ri := handleList c true b.imps (hi, x)
  let rn := handleList c false b.decls (h, ri.2)
  let rn := State.finalize c rn
  let ri := State.finalize c (ri.1, rn.2)
  (⟨rn.1.decls, ri.1.decls⟩, { rn.1 with decls := [] }, { ri.1 with decls := [] }, ri.2)

end Verif.Handler
