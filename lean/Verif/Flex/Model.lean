/-!
# `FlexHandler` (`/repo/src/properties/flex.rs:473-800`)

Directions, wraps, numbers, sizes and integers are an opaque type `V`. Prefixes other than `-webkit-`, `-moz-` and `-ms-` are left out.
-/
namespace Verif.Flex

/-- A set of vendor prefixes; `none` is the unprefixed property (src/vendor_prefix.rs:11-31). -/
structure Vp where
  none : Bool
  webkit : Bool
  moz : Bool
  ms : Bool
deriving DecidableEq

/-- `|=`. -/
def Vp.or (a b : Vp) : Vp := ⟨a.none || b.none, a.webkit || b.webkit, a.moz || b.moz, a.ms || b.ms⟩
/-- `&`. -/
def Vp.and (a b : Vp) : Vp := ⟨a.none && b.none, a.webkit && b.webkit, a.moz && b.moz, a.ms && b.ms⟩
/-- `remove`. -/
def Vp.remove (a b : Vp) : Vp := ⟨a.none && !b.none, a.webkit && !b.webkit, a.moz && !b.moz, a.ms && !b.ms⟩
/-- `contains`. -/
def Vp.contains (a b : Vp) : Bool := (!b.none || a.none) && (!b.webkit || a.webkit) && (!b.moz || a.moz) && (!b.ms || a.ms)
/-- `is_empty`. -/
def Vp.isEmpty (a : Vp) : Bool := !a.none && !a.webkit && !a.moz && !a.ms
/-- No prefix at all. -/
def Vp.empty : Vp := ⟨false, false, false, false⟩
/-- `VendorPrefix::None`. -/
def Vp.plain : Vp := ⟨true, false, false, false⟩
/-- `VendorPrefix::Ms`. -/
def Vp.msOnly : Vp := ⟨false, false, false, true⟩
/-- `VendorPrefix::Moz`. -/
def Vp.mozOnly : Vp := ⟨false, false, true, false⟩

/-- The standard longhands. -/
inductive Std
  | direction | wrap | grow | shrink | basis | order
deriving DecidableEq

/-- The legacy properties of 2009 and 2012. -/
inductive Leg
  | orient | boxDirection | lines | boxFlex | positive | negative | preferred | ordinal | flexOrder
deriving DecidableEq

/-- The features of targets. -/
inductive Feature
  | std (p : Std) | flow | flex
deriving DecidableEq

/-- The declarations; `raw` is `Unparsed`, with the name of its property. -/
inductive Decl (V : Type)
  | std (p : Std) (v : V) (vp : Vp)
  | flow (d w : V) (vp : Vp)
  | flex (g s b : V) (vp : Vp)
  | leg (q : Leg) (v : V) (vp : Vp)
  | raw (id : Feature) (vp : Vp) (u : Nat)
  | rawLeg (q : Leg) (vp : Vp) (u : Nat)
deriving DecidableEq

/-- What the handler asks: whether there are browsers, `is_flex_2009`, `targets.prefixes`, and the values for 2009 (`to_2009`, `from_standard`). -/
structure Env (V : Type) where
  browsers : Bool
  is2009 : Bool
  prefixes : Feature → Vp → Vp
  orient : V → V
  boxDirection : V → V
  lines : V → Option V
  ordinal : V → Option V

/-- `FlexHandler` (src/properties/flex.rs:473-491). -/
structure Handler (V : Type) where
  std : Std → Option (V × Vp) := fun _ => none
  leg : Leg → Option (V × Vp) := fun _ => none
  any : Bool := false

section
variable {V : Type}

/-- The prefixes for properties of 2009 (src/properties/flex.rs:646-652, 707-715, 747-755). -/
def prefixes2009 (env : Env V) (p : Vp) : Vp := ⟨false, env.is2009, p.moz, false⟩

/-- `single_property!` (src/properties/flex.rs:639-681); `leg2012` and `leg2009` are its optional arguments. -/
def single (env : Env V) (p : Std) (leg2012 : Option Leg) (leg2009 : Option (Leg × (V → Option V))) : Option (V × Vp) → List (Decl V)
  | none => []
  | some (v, vp) =>
    if vp.isEmpty then []
    else
      let prefixes := env.prefixes (.std p) vp
      let old := match leg2009 with
        | some (q, from') => if prefixes.none && env.browsers && !(prefixes2009 env prefixes).isEmpty then
            match from' v with
            | some w => [Decl.leg q w (prefixes2009 env prefixes)]
            | none => []
          else []
        | none => []
      let ms := match leg2012 with
        | some q => if prefixes.ms then [Decl.leg q v Vp.msOnly] else []
        | none => []
      let prefixes := if leg2012.isSome && prefixes.ms then prefixes.remove Vp.msOnly else prefixes
      old ++ ms ++ [.std p v (prefixes.remove Vp.mozOnly)]

/-- `legacy_property!` (src/properties/flex.rs:683-691). -/
def legacy (q : Leg) : Option (V × Vp) → List (Decl V)
  | none => []
  | some (v, vp) => if vp.isEmpty then [] else [.leg q v vp]

/-- The legacy properties of the source (src/properties/flex.rs:694-702). -/
def legacies (h : Handler V) : List (Decl V) :=
  [Leg.orient, .boxDirection, .ordinal, .boxFlex, .lines, .positive, .negative, .preferred, .flexOrder].flatMap fun q => legacy q (h.leg q)

/-- `box-orient` and `box-direction` (src/properties/flex.rs:704-721). -/
def direction2009 (env : Env V) : Option (V × Vp) → List (Decl V)
  | none => []
  | some (v, _) =>
    if env.browsers && !(prefixes2009 env (env.prefixes (.std .direction) Vp.plain)).isEmpty then
      [.leg .orient (env.orient v) (prefixes2009 env (env.prefixes (.std .direction) Vp.plain)), .leg .boxDirection (env.boxDirection v) (prefixes2009 env (env.prefixes (.std .direction) Vp.plain))]
    else []

/-- `box-flex` (src/properties/flex.rs:744-759). -/
def grow2009 (env : Env V) : Option (V × Vp) → List (Decl V)
  | none => []
  | some (v, _) =>
    if env.browsers && !(prefixes2009 env (env.prefixes (.std .grow) Vp.plain)).isEmpty then
      [.leg .boxFlex v (prefixes2009 env (env.prefixes (.std .grow) Vp.plain))]
    else []

/-- The prefixes that direction and wrap have in common (src/properties/flex.rs:724-725). -/
def flowCommon (h : Handler V) : Vp := match h.std .direction, h.std .wrap with
  | some d, some w => d.2.and w.2
  | _, _ => Vp.empty

/-- `flex-flow` (src/properties/flex.rs:723-739). -/
def flowOut (env : Env V) (h : Handler V) : List (Decl V) := match h.std .direction, h.std .wrap with
  | some d, some w => if (flowCommon h).isEmpty then [] else [.flow d.1 w.1 ((env.prefixes .flow (flowCommon h)).remove Vp.mozOnly)]
  | _, _ => []

/-- The prefixes that grow, shrink and basis have in common (src/properties/flex.rs:761-764). -/
def flexCommon (h : Handler V) : Vp := match h.std .grow, h.std .shrink, h.std .basis with
  | some g, some s, some b => (g.2.and s.2).and b.2
  | _, _, _ => Vp.empty

/-- `flex` (src/properties/flex.rs:761-781). -/
def flexOut (env : Env V) (h : Handler V) : List (Decl V) := match h.std .grow, h.std .shrink, h.std .basis with
  | some g, some s, some b => if (flexCommon h).isEmpty then [] else [.flex g.1 s.1 b.1 ((env.prefixes .flex (flexCommon h)).remove Vp.mozOnly)]
  | _, _, _ => []

/-- What is left of a longhand without some prefixes. -/
def rest (o : Option (V × Vp)) (common : Vp) : Option (V × Vp) := o.map fun x => (x.1, x.2.remove common)

/-- What `flush` writes (src/properties/flex.rs:614-787). -/
def flushOut (env : Env V) (h : Handler V) : List (Decl V) :=
  legacies h ++ direction2009 env (h.std .direction) ++ flowOut env h ++
  single env .direction none none (rest (h.std .direction) (flowCommon h)) ++
  single env .wrap none (some (.lines, env.lines)) (rest (h.std .wrap) (flowCommon h)) ++
  grow2009 env (h.std .grow) ++ flexOut env h ++
  single env .grow (some .positive) none (rest (h.std .grow) (flexCommon h)) ++
  single env .shrink (some .negative) none (rest (h.std .shrink) (flexCommon h)) ++
  single env .basis (some .preferred) none (rest (h.std .basis) (flexCommon h)) ++
  single env .order (some .flexOrder) (some (.ordinal, env.ordinal)) (h.std .order)

/-- `FlexHandler::flush` (src/properties/flex.rs:614-787). -/
def flush (env : Env V) (s : Handler V × List (Decl V)) : Handler V × List (Decl V) :=
  if s.1.any then ({}, s.2 ++ flushOut env s.1) else s

/-- The legacy properties that a standard one clears if there are browsers (src/properties/flex.rs:531-604). -/
def clears : Std → Leg → Bool
  | .direction, .orient | .direction, .boxDirection | .wrap, .lines | .grow, .boxFlex | .grow, .positive | .shrink, .negative | .basis, .preferred | .order, .ordinal | .order, .flexOrder => true
  | _, _ => false

/-- Legacy properties are cleared. -/
def clear (env : Env V) (s : Handler V × List (Decl V)) (c : Leg → Bool) : Handler V × List (Decl V) :=
  if env.browsers then ({ s.1 with leg := fun q => if c q then none else s.1.leg q }, s.2) else s

variable [DecidableEq V]

/-- `maybe_flush!` (src/properties/flex.rs:502-512). -/
def maybeFlush (env : Env V) (s : Handler V × List (Decl V)) (p : Std) (v : V) (vp : Vp) : Handler V × List (Decl V) := match s.1.std p with
  | some (w, have') => if w ≠ v ∧ have'.contains vp = false then flush env s else s
  | none => s

omit [DecidableEq V] in
/-- The value with its prefixes after a declaration (src/properties/flex.rs:518-525). -/
def merged (o : Option (V × Vp)) (v : V) (vp : Vp) : V × Vp := match o with
  | some (_, have') => (v, have'.or vp)
  | none => (v, vp)

/-- `property!` for a standard property (src/properties/flex.rs:514-527). -/
def property (env : Env V) (s : Handler V × List (Decl V)) (p : Std) (v : V) (vp : Vp) : Handler V × List (Decl V) :=
  let s := maybeFlush env s p v vp
  ({ s.1 with std := fun q => if q = p then some (merged (s.1.std p) v vp) else s.1.std q, any := s.1.any || (s.1.std p).isNone }, s.2)

/-- `maybe_flush!` for a legacy property (src/properties/flex.rs:502-512). -/
def maybeFlushLeg (env : Env V) (s : Handler V × List (Decl V)) (p : Leg) (v : V) (vp : Vp) : Handler V × List (Decl V) := match s.1.leg p with
  | some (w, have') => if w ≠ v ∧ have'.contains vp = false then flush env s else s
  | none => s

/-- `property!` for a legacy property (src/properties/flex.rs:514-527). -/
def propertyLeg (env : Env V) (s : Handler V × List (Decl V)) (p : Leg) (v : V) (vp : Vp) : Handler V × List (Decl V) :=
  let s := maybeFlushLeg env s p v vp
  ({ s.1 with leg := fun q => if q = p then some (merged (s.1.leg p) v vp) else s.1.leg q, any := s.1.any || (s.1.leg p).isNone }, s.2)

/-- `FlexHandler::handle_property` (src/properties/flex.rs:494-606). -/
def handle (env : Env V) (s : Handler V × List (Decl V)) : Decl V → Handler V × List (Decl V)
  | .std p v vp => property env (clear env s (clears p)) p v vp
  | .leg q v vp => propertyLeg env s q v vp
  | .flow d w vp => property env (property env (clear env s (clears .direction)) .direction d vp) .wrap w vp
  | .flex g sh b vp =>
    let s := clear env s fun q => clears .grow q || clears .shrink q || clears .basis q
    let s := maybeFlush env s .grow g vp
    let s := maybeFlush env s .shrink sh vp
    let s := maybeFlush env s .basis b vp
    property env (property env (property env s .grow g vp) .shrink sh vp) .basis b vp
  | .raw id vp u => let s := flush env s; (s.1, s.2 ++ [.raw id vp u])
  | .rawLeg q vp u => let s := flush env s; (s.1, s.2 ++ [.rawLeg q vp u])

/-- The handler over the declarations of a block, with `finalize` (src/properties/flex.rs:608-610). -/
def run (env : Env V) (ds : List (Decl V)) : List (Decl V) := (flush env (ds.foldl (handle env) ({}, []))).2

end

/-! ### The values for the properties of 2009 -/

/-- `FlexDirection` (src/properties/flex.rs:24-37). -/
inductive Dir
  | row | rowReverse | column | columnReverse
deriving DecidableEq

/-- `BoxOrient` (src/properties/flex.rs:228-243). -/
inductive Orient
  | horizontal | vertical | inlineAxis | blockAxis
deriving DecidableEq

/-- `BoxDirection` (src/properties/flex.rs:257-266). -/
inductive BoxDir
  | normal | reverse
deriving DecidableEq

/-- `FlexDirection::to_2009` (src/properties/flex.rs:247-254). -/
def Dir.to2009 : Dir → Orient × BoxDir
  | .row => (.horizontal, .normal)
  | .column => (.vertical, .normal)
  | .rowReverse => (.horizontal, .reverse)
  | .columnReverse => (.vertical, .reverse)

/-- `BoxOrdinalGroup::from_standard` (src/properties/flex.rs:353-358). -/
def ordinalFromOrder (order : Int) : Option Int := some order

end Verif.Flex
