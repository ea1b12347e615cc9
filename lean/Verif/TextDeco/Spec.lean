import Verif.TextDeco.Model
/-!
# What browsers make of text decorations

The last declaration that a browser reads decides for each longhand. This file uses the declarations of the model only.
-/
namespace Verif.TextDeco
variable {V M : Type}

/-- The value of a longhand: as before the block, a value, or that of a declaration with `var()`. -/
inductive Value (M : Type)
  | before
  | val (v : M)
  | raw (u : Nat)
deriving DecidableEq

/-- A browser: the prefixes it knows (`known.none` for the unprefixed properties), whether it reads thickness in `text-decoration`, and which
values of thickness it reads. `auto` is the initial value of thickness. -/
structure Browser (V : Type) where
  known : Vp
  thickInShorthand : Bool
  thickOk : V → Bool
  auto : V

/-- One of the written prefixes is known. -/
def meets (known vp : Vp) : Bool := (known.none && vp.none) || (known.webkit && vp.webkit) || (known.moz && vp.moz)

/-- The value that a browser takes from a declaration for a longhand; `m` says what values mean. -/
def reads [DecidableEq V] (b : Browser V) (m : V → M) (p : Long) : Decl V → Option (Value M)
  | .set q v vp => if q = p ∧ (q = .thick ∨ meets b.known vp = true) ∧ (q = .thick → b.thickOk v = true) then some (.val (m v)) else none
  | .deco l t s c vp =>
    if meets b.known vp = true ∧ (t = b.auto ∨ b.thickInShorthand = true ∧ b.thickOk t = true) then
      match p with
      | .line => some (.val (m l))
      | .thick => some (.val (m t))
      | .style => some (.val (m s))
      | .color => some (.val (m c))
      | _ => none
    else none
  | .emph s c vp =>
    if meets b.known vp = true then
      match p with
      | .emStyle => some (.val (m s))
      | .emColor => some (.val (m c))
      | _ => none
    else none
  | .raw n vp u =>
    if n = .long .thick ∨ meets b.known vp = true then
      match n with
      | .long q => if q = p then some (.raw u) else none
      | .deco => if p = .line ∨ p = .thick ∨ p = .style ∨ p = .color then some (.raw u) else none
      | .emph => if p = .emStyle ∨ p = .emColor then some (.raw u) else none
    else none

/-- The last declaration that is read decides. -/
def final [DecidableEq V] (b : Browser V) (m : V → M) (p : Long) (ds : List (Decl V)) : Value M :=
  ds.foldl (fun x d => (reads b m p d).getD x) .before

/-- A browser that knows the same prefixes and reads all values. -/
def Browser.ideal (b : Browser V) : Browser V := { b with thickInShorthand := true, thickOk := fun _ => true }

/-- The declaration has no prefix. -/
def Plain : Decl V → Prop
  | .set _ _ vp | .deco _ _ _ _ vp | .emph _ _ vp | .raw _ vp _ => vp = Vp.plain

/-- The targets are right about the browser: it knows the unprefixed properties; if thickness may be in the shorthand, it is read there with all
values; else, values of thickness that are not compiled are read, and those that are compiled are read then and mean the same. The prefixes chosen for
an unprefixed property include no prefix; a colour that is changed for the targets means the same. -/
structure Fits (env : Env V) (b : Browser V) (m : V → M) : Prop where
  known : b.known.none = true
  auto : b.auto = env.dflt .thick
  short : env.thickInShorthand = true → b.thickInShorthand = true ∧ ∀ v, b.thickOk v = true
  keep : ∀ v, env.percent v = none → b.thickOk v = true
  compile : ∀ v w, env.percent v = some w → b.thickOk w = true ∧ m w = m v
  prefixes : ∀ n, (env.prefixes n Vp.plain).none = true
  colors : ∀ v, m (env.fallbacks v).2 = m v

/-! ## `text-align` -/

/-- Where the text is, in the direction of the element. -/
def Align.meaning (rtl : Bool) : Align → Align
  | .start => if rtl then .right else .left
  | .end => if rtl then .left else .right
  | a => a

/-- The last declaration decides; `none` if there is none. -/
def lastAlign (rtl : Bool) (as : List Align) : Option Align := as.getLast?.map (Align.meaning rtl)

/-- What an element has: the rule for its direction comes after the rule itself. -/
def AlignOut.result (rtl : Bool) (o : AlignOut) : Option Align :=
  (lastAlign rtl (if rtl then o.rtl else o.ltr)).or (lastAlign rtl o.own)

end Verif.TextDeco
