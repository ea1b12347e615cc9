/-!
# `background` (`/repo/src/properties/background.rs`)

Colours, images, lengths and keywords are an opaque type `V`; the values of the components are single items of the input, what is inside of them is not modelled here (positions: C81, colours: C42, gradients: C82–C88).
-/
namespace Verif.Background

/-- The longhands with a list of values (src/properties/background.rs:795-806). -/
inductive Field
  | image | x | y | repeat | size | attachment | origin | clip
deriving DecidableEq

/-- One layer: `Background` (src/properties/background.rs:331-348). -/
structure Layer (V : Type) where
  color : V
  f : Field → V

/-- A set of vendor prefixes of `background-clip`; `none` is the unprefixed property (src/vendor_prefix.rs:11-31). Other prefixes than `-webkit-` and `-moz-` are left out. -/
structure Vp where
  none : Bool
  webkit : Bool
  moz : Bool
deriving DecidableEq

/-- `|=`. -/
def Vp.or (a b : Vp) : Vp := ⟨a.none || b.none, a.webkit || b.webkit, a.moz || b.moz⟩
/-- `VendorPrefix::None`. -/
def Vp.plain : Vp := ⟨true, false, false⟩

/-- The properties. -/
inductive PId
  | color | list (f : Field) | position | background
deriving DecidableEq

/-- The declarations. `list` is not used for `clip`, which has prefixes. `raw` is `Unparsed`. -/
inductive Decl (V : Type)
  | color (v : V)
  | list (f : Field) (l : List V)
  | position (l : List (V × V))
  | clip (l : List V) (vp : Vp)
  | background (l : List (Layer V))
  | raw (id : PId) (u : Nat)

section
variable {V : Type}

/-- What the handler asks about values and targets: `browsers` is whether browsers are given; `colorOk` and `imagesOk` are "no browsers, or compatible" (src/properties/background.rs:832-838); `prefixed` is `has_vendor_prefix` of an image; `fb` are the fallbacks without the last; `isText` is `BackgroundClip::Text`; `prefixes` is `targets.prefixes(_, Feature::BackgroundClip)`; `noColor` and `borderBox` are the default colour and clip. -/
structure Env (V : Type) where
  browsers : Bool
  colorOk : V → Bool
  imagesOk : List V → Bool
  prefixed : V → Bool
  fb : Decl V → List (Decl V)
  isText : V → Bool
  prefixes : Vp → Vp
  noColor : V
  borderBox : V

/-- `BackgroundHandler` (src/properties/background.rs:793-808). `lists` has the values of all fields but `clip`. -/
structure Handler (V : Type) where
  color : Option V := none
  lists : Field → Option (List V) := fun _ => none
  clips : Option (List V × Vp) := none
  hasPrefix : Bool := false
  decls : List (Decl V) := []
  flushed : PId → Bool := fun _ => false
  any : Bool := false

/-- The bits of `BackgroundProperty` that a property has in common with another one (src/properties/background.rs:776-791). -/
def PId.touches : PId → PId → Bool
  | .background, _ => true
  | _, .background => true
  | .position, .position => true
  | .position, .list f => f = .x ∨ f = .y
  | .list f, .position => f = .x ∨ f = .y
  | a, b => a = b

/-- The flushed properties with another one. -/
def Handler.mark (h : Handler V) (id : PId) : Handler V := { h with flushed := fun j => h.flushed j || id.touches j }

/-- The prefixes of `background-clip` that are written (src/properties/background.rs:983-987, 1104-1108). -/
def clipPrefixes (env : Env V) (c : List V × Vp) : Vp := if c.1.any env.isText then env.prefixes c.2 else c.2

/-- The layers of the shorthand: `izip!` (src/properties/background.rs:995-1027). -/
def layers (env : Env V) (color : V) (g : Field → List V) (n : Nat) (clip : Bool) : List (Layer V) :=
  (List.range n).map fun i =>
    { color := if i = n - 1 then color else env.noColor,
      f := fun f => if f = .clip ∧ clip = false then env.borderBox else ((g f)[i]?).getD env.borderBox }

/-- All lists but `clip`. -/
def plainFields : List Field := [.image, .x, .y, .repeat, .size, .attachment, .origin]

/-- The lists, if all are there and have the same length (src/properties/background.rs:950-982). -/
def whole (h : Handler V) : Option (V × (List V × Vp)) :=
  match h.color, h.lists .image, h.clips with
  | some c, some im, some cl => if (plainFields.all fun f => (h.lists f).any fun l => l.length == im.length) && cl.1.length == im.length then some (c, cl) else none
  | _, _, _ => none

/-- The lists by field. -/
def fieldOf (h : Handler V) (cl : List V) (f : Field) : List V := if f = .clip then cl else (h.lists f).getD []

/-- The shorthand with `background-clip` after it (src/properties/background.rs:983-1046). -/
def shorthand (env : Env V) (h : Handler V) (c : V) (cl : List V × Vp) : List (Decl V) :=
  let vp := clipPrefixes env cl
  let bg := layers env c (fieldOf h cl.1) ((h.lists .image).getD []).length (vp == Vp.plain)
  (if h.flushed .background then [] else env.fb (.background bg)) ++ [.background bg] ++ (if vp == Vp.plain then [] else [.clip cl.1 vp])

/-- `push!` of an optional list. -/
def listOut (h : Handler V) (f : Field) : List (Decl V) := match h.lists f with
  | some l => [.list f l]
  | none => []

/-- The colour (src/properties/background.rs:1049-1057). -/
def colorOut (env : Env V) (h : Handler V) : List (Decl V) := match h.color with
  | some c => (if h.flushed .color then [] else env.fb (.color c)) ++ [.color c]
  | none => []

/-- The images (src/properties/background.rs:1059-1067). -/
def imageOut (env : Env V) (h : Handler V) : List (Decl V) := match h.lists .image with
  | some l => (if h.flushed (.list .image) then [] else env.fb (.list .image l)) ++ [.list .image l]
  | none => []

/-- The positions (src/properties/background.rs:1069-1085). -/
def positionOut (h : Handler V) : List (Decl V) := match h.lists .x, h.lists .y with
  | some xs, some ys => if xs.length = ys.length then [.position (xs.zip ys)] else [.list .x xs, .list .y ys]
  | _, _ => listOut h .x ++ listOut h .y

/-- `background-clip` (src/properties/background.rs:1103-1111). -/
def clipOut (env : Env V) (h : Handler V) : List (Decl V) := match h.clips with
  | some cl => [.clip cl.1 (clipPrefixes env cl)]
  | none => []

/-- What `flush` writes (src/properties/background.rs:928-1114). -/
def flushOut (env : Env V) (h : Handler V) : List (Decl V) :=
  match whole h with
  | some (c, cl) => shorthand env h c cl
  | none => colorOut env h ++ imageOut env h ++ positionOut h ++ listOut h .repeat ++ listOut h .size ++ listOut h .attachment ++ listOut h .origin ++ clipOut env h

/-- The property of a declaration. -/
def Decl.id : Decl V → PId
  | .color _ => .color
  | .list f _ => .list f
  | .position _ => .position
  | .clip _ _ => .list .clip
  | .background _ => .background
  | .raw id _ => id

/-- The handler after `flush`: `reset` (src/properties/background.rs:1116-1127). -/
def emptied (h : Handler V) (ds : List (Decl V)) : Handler V :=
  ds.foldl (fun h d => h.mark d.id) { h with color := none, lists := fun _ => none, clips := none, any := false }

/-- `BackgroundHandler::flush` (src/properties/background.rs:928-1114). -/
def flush (env : Env V) (s : Handler V × List (Decl V)) : Handler V × List (Decl V) :=
  if s.1.any then (emptied s.1 (flushOut env s.1), s.2 ++ flushOut env s.1) else s

variable [DecidableEq V]

/-- `flush!` for the colour (src/properties/background.rs:832-838). -/
def colorStep (env : Env V) (s : Handler V × List (Decl V)) (v : V) : Handler V × List (Decl V) := match s.1.color with
  | some w => if w ≠ v ∧ env.colorOk v = false then flush env s else s
  | none => s

/-- `flush!` for the images (src/properties/background.rs:832-838). -/
def imageStep (env : Env V) (s : Handler V × List (Decl V)) (l : List V) : Handler V × List (Decl V) := match s.1.lists .image with
  | some w => if w ≠ l ∧ env.imagesOk l = false then flush env s else s
  | none => s

/-- `background_image!` (src/properties/background.rs:817-830). -/
def image (env : Env V) (s : Handler V × List (Decl V)) (d : Decl V) (l : List V) : Handler V × List (Decl V) :=
  let s := imageStep env s l
  if l.any env.prefixed then ({ s.1 with hasPrefix := true, decls := s.1.decls ++ [d] }, s.2)
  else ({ s.1 with hasPrefix := false, decls := if env.browsers then [] else s.1.decls }, s.2)

/-- A list is set. -/
def setList (h : Handler V) (f : Field) (l : List V) : Handler V := { h with lists := fun g => if g = f then some l else h.lists g, any := true }

/-- The clips that `background` meets (src/properties/background.rs:880-887). -/
def clipStep (env : Env V) (s : Handler V × List (Decl V)) (cl : List V) : (Handler V × List (Decl V)) × Vp := match s.1.clips with
  | some (cur, vp) => if Vp.plain ≠ vp ∧ cur ≠ cl then (flush env s, Vp.plain) else (s, Vp.plain.or vp)
  | none => (s, Vp.plain)

/-- `BackgroundHandler::handle_property` (src/properties/background.rs:811-912). -/
def handle (env : Env V) (s : Handler V × List (Decl V)) : Decl V → Handler V × List (Decl V)
  | .color v => let s := colorStep env s v; ({ s.1 with color := some v, any := true }, s.2)
  | .list .image l => let s := image env s (.list .image l) l; (setList s.1 .image l, s.2)
  | .list f l => (setList s.1 f l, s.2)
  | .position l => (setList (setList s.1 .x (l.map (·.1))) .y (l.map (·.2)), s.2)
  | .clip l vp => match s.1.clips with
    | some (cur, cvp) =>
      if vp ≠ cvp ∧ l ≠ cur then let s := flush env s; ({ s.1 with clips := some (l, vp), any := true }, s.2)
      else ({ s.1 with clips := some (l, cvp.or vp), any := true }, s.2)
    | none => ({ s.1 with clips := some (l, vp), any := true }, s.2)
  | .background ls =>
    let s := image env s (.background ls) (ls.map (·.f .image))
    let color := (ls.getLast?.map (·.color)).getD env.noColor
    let s := colorStep env s color
    let s' := clipStep env s (ls.map (·.f .clip))
    ({ s'.1.1 with color := some color, lists := fun f => if f = .clip then s'.1.1.lists f else some (ls.map (·.f f)), clips := some (ls.map (·.f .clip), s'.2), any := true }, s'.1.2)
  | .raw id u => let s := flush env s; ({ s.1.mark id with any := true }, s.2 ++ [.raw id u])

/-- `finalize` (src/properties/background.rs:914-924). -/
def finalize (env : Env V) (s : Handler V × List (Decl V)) : Handler V × List (Decl V) :=
  let ds := if s.1.hasPrefix then s.1.decls.dropLast else s.1.decls
  flush env ({ s.1 with decls := [] }, s.2 ++ ds)

/-- The handler over the declarations of a block. -/
def run (env : Env V) (ds : List (Decl V)) : List (Decl V) := (finalize env (ds.foldl (handle env) ({}, []))).2

end
end Verif.Background
