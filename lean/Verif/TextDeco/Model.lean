/-!
# `TextDecorationHandler` (`/repo/src/properties/text.rs:1099-1345`)

Values are an opaque type `V`. Prefixes other than `-webkit-` and `-moz-` are left out.
-/
namespace Verif.TextDeco

/-- A set of vendor prefixes; `none` is the unprefixed property (src/vendor_prefix.rs:11-31). -/
structure Vp where
  none : Bool
  webkit : Bool
  moz : Bool
deriving DecidableEq

/-- `|=`. -/
def Vp.or (a b : Vp) : Vp := ⟨a.none || b.none, a.webkit || b.webkit, a.moz || b.moz⟩
/-- `remove`. -/
def Vp.remove (a b : Vp) : Vp := ⟨a.none && !b.none, a.webkit && !b.webkit, a.moz && !b.moz⟩
/-- `contains`. -/
def Vp.contains (a b : Vp) : Bool := (!b.none || a.none) && (!b.webkit || a.webkit) && (!b.moz || a.moz)
/-- `is_empty`. -/
def Vp.isEmpty (a : Vp) : Bool := !a.none && !a.webkit && !a.moz
/-- `VendorPrefix::None`. -/
def Vp.plain : Vp := ⟨true, false, false⟩

/-- The longhands. -/
inductive Long
  | line | thick | style | color | emStyle | emColor | emPosition
deriving DecidableEq

/-- The names of properties: a longhand, `text-decoration`, `text-emphasis`. -/
inductive Name
  | long (p : Long) | deco | emph
deriving DecidableEq

/-- The declarations; `raw` is `Unparsed`. The prefixes of `text-decoration-thickness` are not used. -/
inductive Decl (V : Type)
  | set (p : Long) (v : V) (vp : Vp)
  | deco (l t s c : V) (vp : Vp)
  | emph (s c : V) (vp : Vp)
  | raw (n : Name) (vp : Vp) (u : Nat)
deriving DecidableEq

/-- What the handler asks: the default values of the longhands, whether thickness may be in the shorthand, `targets.prefixes`, the fallbacks of a
colour and what it is changed to (`get_fallbacks`), the `calc()` for a percentage if it must be compiled, and whether the horizontal position is `right`. -/
structure Env (V : Type) where
  dflt : Long → V
  thickInShorthand : Bool
  prefixes : Name → Vp → Vp
  fallbacks : V → List V × V
  percent : V → Option V
  right : V → Bool

/-- `TextDecorationHandler` (src/properties/text.rs:1099-1109). -/
structure Handler (V : Type) where
  line : Option (V × Vp) := none
  thick : Option V := none
  style : Option (V × Vp) := none
  color : Option (V × Vp) := none
  emStyle : Option (V × Vp) := none
  emColor : Option (V × Vp) := none
  emPosition : Option (V × Vp) := none
  any : Bool := false

variable {V : Type} [DecidableEq V]

/-- `color!` (src/properties/text.rs:1265-1279). -/
def colorProp (env : Env V) (p : Long) : Option (V × Vp) → List (Decl V)
  | none => []
  | some (v, vp) =>
    if vp.isEmpty then []
    else
      let pre := env.prefixes (.long p) vp
      if pre.none then (env.fallbacks v).1.map (.set p · pre) ++ [.set p (env.fallbacks v).2 pre] else [.set p v pre]

/-- `single_property!` (src/properties/text.rs:1281-1290). -/
def single (env : Env V) (p : Long) : Option (V × Vp) → List (Decl V)
  | none => []
  | some (v, vp) => if vp.isEmpty then [] else [.set p v (env.prefixes (.long p) vp)]

/-- The shorthand with its fallbacks (src/properties/text.rs:1235-1255): `deco` is `decoration` and `prefix` the union of the prefixes. -/
def decoOut (env : Env V) (l t s c : V) (vp : Vp) : List (Decl V) :=
  let t' := if env.thickInShorthand then t else env.dflt .thick
  if vp.none && (s ≠ env.dflt .style || c ≠ env.dflt .color) then
    let pre := env.prefixes .deco Vp.plain
    (env.fallbacks c).1.map (.deco l t' s · pre) ++ [.deco l t' s (env.fallbacks c).2 pre]
  else [.deco l t' s c vp]

/-- `text-decoration` and its longhands (src/properties/text.rs:1220-1263, 1292-1312). -/
def decoration (env : Env V) (h : Handler V) : List (Decl V) :=
  let thickOut : V → List (Decl V) := fun t => match env.percent t with
    | some w => [.set .thick w Vp.plain]
    | none => [.set .thick t Vp.plain]
  match h.line, h.thick, h.style, h.color with
  | some (l, lvp), some t, some (s, svp), some (c, cvp) =>
    let u := (lvp.or svp).or cvp
    if u.isEmpty then single env .line h.line ++ single env .style h.style ++ colorProp env .color h.color ++ thickOut t
    else
      decoOut env l t s c u ++ single env .line (some (l, lvp.remove u)) ++ single env .style (some (s, svp.remove u)) ++
        colorProp env .color (some (c, cvp.remove u)) ++ (if env.thickInShorthand ∨ t = env.dflt .thick then [] else thickOut t)
  | _, _, _, _ => single env .line h.line ++ single env .style h.style ++ colorProp env .color h.color ++
      match h.thick with
      | some t => thickOut t
      | none => []

/-- `text-emphasis` and its longhands (src/properties/text.rs:1314-1337). -/
def emphasis (env : Env V) (h : Handler V) : List (Decl V) :=
  match h.emStyle, h.emColor with
  | some (s, svp), some (c, cvp) =>
    let u := svp.or cvp
    if u.isEmpty then single env .emStyle h.emStyle ++ colorProp env .emColor h.emColor
    else
      let pre := env.prefixes .emph u
      (if pre.none then (env.fallbacks c).1.map (.emph s · pre) ++ [.emph s (env.fallbacks c).2 pre] else [.emph s c pre]) ++
        single env .emStyle (some (s, svp.remove u)) ++ colorProp env .emColor (some (c, cvp.remove u))
  | _, _ => single env .emStyle h.emStyle ++ colorProp env .emColor h.emColor

/-- `text-emphasis-position` (src/properties/text.rs:1339-1349). -/
def position (env : Env V) : Option (V × Vp) → List (Decl V)
  | none => []
  | some (v, vp) =>
    if vp.isEmpty then []
    else [.set .emPosition v (if env.right v then env.prefixes (.long .emPosition) vp else Vp.plain)]

/-- `finalize` (src/properties/text.rs:1205-1351). -/
def finalize (env : Env V) (h : Handler V) : List (Decl V) × Handler V :=
  if h.any = false then ([], h) else (decoration env h ++ emphasis env h ++ position env h.emPosition, {})

/-- The field of a longhand other than thickness. -/
def Handler.get (h : Handler V) : Long → Option (V × Vp)
  | .line => h.line
  | .thick => none
  | .style => h.style
  | .color => h.color
  | .emStyle => h.emStyle
  | .emColor => h.emColor
  | .emPosition => h.emPosition

/-- A field of a longhand is written. -/
def Handler.put (h : Handler V) (p : Long) (x : V × Vp) : Handler V := match p with
  | .line => { h with line := some x, any := true }
  | .thick => h
  | .style => { h with style := some x, any := true }
  | .color => { h with color := some x, any := true }
  | .emStyle => { h with emStyle := some x, any := true }
  | .emColor => { h with emColor := some x, any := true }
  | .emPosition => { h with emPosition := some x, any := true }

/-- The output and the handler. -/
abbrev Run (V : Type) := List (Decl V) × Handler V

/-- `maybe_flush!` (src/properties/text.rs:1119-1129). -/
def maybeFlush (env : Env V) (p : Long) (v : V) (vp : Vp) (r : Run V) : Run V :=
  match r.2.get p with
  | some (w, q) => if w ≠ v ∧ q.contains vp = false then (r.1 ++ (finalize env r.2).1, (finalize env r.2).2) else r
  | none => r

/-- `property!` (src/properties/text.rs:1131-1145). -/
def property (env : Env V) (p : Long) (v : V) (vp : Vp) (r : Run V) : Run V :=
  let r := maybeFlush env p v vp r
  match r.2.get p with
  | some (_, q) => (r.1, { r.2.put p (v, q.or vp) with any := r.2.any })
  | none => (r.1, r.2.put p (v, vp))

/-- `handle_property` (src/properties/text.rs:1112-1203), without `text-align`. -/
def handle (env : Env V) (r : Run V) : Decl V → Run V
  | .set .thick v _ => (r.1, { r.2 with thick := some v, any := true })
  | .set p v vp => property env p v vp r
  | .deco l t s c vp =>
    let r := maybeFlush env .color c vp (maybeFlush env .style s vp (maybeFlush env .line l vp r))
    let r := property env .line l vp r
    let r : Run V := (r.1, { r.2 with thick := some t })
    property env .color c vp (property env .style s vp r)
  | .emph s c vp =>
    let r := maybeFlush env .emColor c vp (maybeFlush env .emStyle s vp r)
    property env .emColor c vp (property env .emStyle s vp r)
  | .raw n vp u =>
    let f := finalize env r.2
    let feature := match n with
      | .deco | .long .line | .long .thick | .long .style | .long .color => Name.deco
      | _ => Name.emph
    -- `get_prefixed` (src/properties/custom.rs:385-390); thickness has no prefixes
    (r.1 ++ f.1 ++ [.raw n (if n = .long .thick then vp else env.prefixes feature vp) u], f.2)

/-- A whole block. -/
def minify (env : Env V) (ds : List (Decl V)) : List (Decl V) :=
  let r := ds.foldl (handle env) ([], {})
  r.1 ++ (finalize env r.2).1

/-! ## `text-align` -/

/-- `TextAlign` (src/properties/text.rs:286-306). -/
inductive Align
  | start | end | left | right | center | justify | matchParent | justifyAll
deriving DecidableEq

/-- What is written for `text-align`: in the rule itself, or to the rules for each direction that come after it (`add_logical_rule`). -/
structure AlignOut where
  own : List Align
  ltr : List Align
  rtl : List Align

/-- One declaration (src/properties/text.rs:1170-1191). -/
def alignOne (compile : Bool) (o : AlignOut) (a : Align) : AlignOut := match a with
  | .start => if compile then { o with ltr := o.ltr ++ [.left], rtl := o.rtl ++ [.right] } else { o with own := o.own ++ [a] }
  | .end => if compile then { o with ltr := o.ltr ++ [.right], rtl := o.rtl ++ [.left] } else { o with own := o.own ++ [a] }
  | _ => { o with own := o.own ++ [a] }

/-- All declarations of a block. -/
def alignAll (compile : Bool) (as : List Align) : AlignOut := as.foldl (alignOne compile) ⟨[], [], []⟩

end Verif.TextDeco
