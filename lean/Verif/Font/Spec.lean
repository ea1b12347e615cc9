import Verif.Font.Model
/-! # What CSS says about `font` (css-fonts-4, section 2.7) -/
namespace Verif.Font.Spec
open Verif.Font (Tok Oblique)

/-- A keyword in any letter case. -/
def word (s lit : Str) : Prop := s.map Char.toLower = lit

/-- A size. -/
inductive SizeV (L : Type)
  | len (l : L)
  | pct (q : Rat)
  | keyword (k : Str)
/-- A style; `oblique` has an angle, 14 degrees if it is left out. -/
inductive StyleV (A : Type)
  | normal | italic
  | oblique (a : A)
/-- A weight; `normal` is 400 and `bold` 700. -/
inductive WeightV
  | abs (q : Rat)
  | bolder | lighter
/-- A line height. A zero is a zero, with and without unit. -/
inductive LineV (L : Type)
  | normal
  | factor (q : Rat)
  | len (l : L)
  | pct (q : Rat)
/-- A family: a keyword, or the name of a font. -/
inductive FamilyV
  | keyword (k : Str)
  | name (s : Str)

/-- What a `font` declaration sets. The width (`font-stretch`) is in percent. -/
structure Meaning (L A : Type) where
  style : StyleV A
  smallCaps : Bool
  weight : WeightV
  width : Rat
  size : SizeV L
  line : LineV L
  families : List FamilyV

/-- The parts before the size. -/
inductive Part (A : Type)
  | style (v : StyleV A)
  | caps (small : Bool)
  | weight (v : WeightV)
  | width (q : Rat)
/-- Their kinds. -/
inductive Kind
  | style | caps | weight | width
deriving DecidableEq

/-- The kind of a part. -/
def Part.kind {A : Type} : Part A → Kind
  | .style _ => .style | .caps _ => .caps | .weight _ => .weight | .width _ => .width

/-- The keywords of `<font-width-css3>` with their percentages. -/
def widths : List (Str × Rat) :=
  [(cs!"normal", 100), (cs!"ultra-condensed", 50), (cs!"extra-condensed", 125/2), (cs!"condensed", 75), (cs!"semi-condensed", 175/2),
    (cs!"semi-expanded", 225/2), (cs!"expanded", 125), (cs!"extra-expanded", 150), (cs!"ultra-expanded", 200)]

/-- The keywords for sizes. -/
def sizes : List Str :=
  [cs!"xx-small", cs!"x-small", cs!"small", cs!"medium", cs!"large", cs!"x-large", cs!"xx-large", cs!"xxx-large", cs!"smaller", cs!"larger"]

/-- The CSS-wide keywords and `default`, which are no `<custom-ident>`. -/
def wide : List Str := [cs!"initial", cs!"inherit", cs!"unset", cs!"default", cs!"revert", cs!"revert-layer"]

/-- The generic families. -/
def generic : List Str :=
  [cs!"serif", cs!"sans-serif", cs!"cursive", cs!"fantasy", cs!"monospace", cs!"system-ui", cs!"emoji", cs!"math", cs!"fangsong",
    cs!"ui-serif", cs!"ui-sans-serif", cs!"ui-monospace", cs!"ui-rounded"]

section
variable {L A : Type}

/-- The text of a part before the size. -/
inductive PartText [Oblique A] : List (Tok L A) → Part A → Prop
  | normalStyle (s : Str) (h : word s cs!"normal") : PartText [.ident s] (.style .normal)
  | normalCaps (s : Str) (h : word s cs!"normal") : PartText [.ident s] (.caps false)
  | normalWeight (s : Str) (h : word s cs!"normal") : PartText [.ident s] (.weight (.abs 400))
  | italic (s : Str) (h : word s cs!"italic") : PartText [.ident s] (.style .italic)
  | oblique (s : Str) (h : word s cs!"oblique") : PartText [.ident s] (.style (.oblique Oblique.dflt))
  | obliqueAngle (s : Str) (h : word s cs!"oblique") (a : A) : PartText [.ident s, .angle a] (.style (.oblique a))
  | smallCaps (s : Str) (h : word s cs!"small-caps") : PartText [.ident s] (.caps true)
  | bold (s : Str) (h : word s cs!"bold") : PartText [.ident s] (.weight (.abs 700))
  | bolder (s : Str) (h : word s cs!"bolder") : PartText [.ident s] (.weight .bolder)
  | lighter (s : Str) (h : word s cs!"lighter") : PartText [.ident s] (.weight .lighter)
  | number (q : Rat) (h : 1 ≤ q ∧ q ≤ 1000) : PartText [.num q] (.weight (.abs q))
  | width (s k : Str) (q : Rat) (hk : (k, q) ∈ widths) (h : word s k) : PartText [.ident s] (.width q)

/-- A sequence of parts. -/
inductive PartsText [Oblique A] : List (Tok L A) → List (Part A) → Prop
  | nil : PartsText [] []
  | cons {t ts : List (Tok L A)} {p : Part A} {ps : List (Part A)} : PartText t p → PartsText ts ps → PartsText (t ++ ts) (p :: ps)

/-- The part of each kind of a meaning. -/
def Meaning.part (m : Meaning L A) : Kind → Part A
  | .style => .style m.style | .caps => .caps m.smallCaps | .weight => .weight m.weight | .width => .width m.width

/-- The initial values. -/
def initial : Kind → Part A
  | .style => .style .normal | .caps => .caps false | .weight => .weight (.abs 400) | .width => .width 100

/-- The tokens before the size: parts of different kinds in any order; those that are left out are initial. -/
def LeadText [Oblique A] (t : List (Tok L A)) (m : Meaning L A) : Prop :=
  ∃ ps : List (Part A), PartsText t ps ∧ (ps.map Part.kind).Nodup ∧
    ∀ k, m.part k ∈ ps ∨ (k ∉ ps.map Part.kind ∧ m.part k = initial k)

/-- The text of a size. -/
inductive SizeText [Zero L] : Tok L A → SizeV L → Prop
  | len (l : L) : SizeText (.len l) (.len l)
  | zero : SizeText (.num 0) (.len 0)
  | pct (q : Rat) : SizeText (.pct q) (.pct q)
  | keyword (s k : Str) (hk : k ∈ sizes) (h : word s k) : SizeText (.ident s) (.keyword k)

/-- The text of a line height. -/
inductive LineText [Zero L] : Tok L A → LineV L → Prop
  | normal (s : Str) (h : word s cs!"normal") : LineText (.ident s) .normal
  | factor (q : Rat) : LineText (.num q) (.factor q)
  | len (l : L) (h : l ≠ 0) : LineText (.len l) (.len l)
  | zero : LineText (.len 0) (.factor 0)
  | pct (q : Rat) : LineText (.pct q) (.pct q)

/-- The text between the size and the families. -/
inductive SlashText [Zero L] : List (Tok L A) → LineV L → Prop
  | none : SlashText [] .normal
  | slash {t : Tok L A} {v : LineV L} (h : LineText t v) : SlashText [.slash, t] v

/-- The text of a family: a keyword, a string, or identifiers that are no CSS-wide keywords and not just a generic family. -/
inductive FamilyText : List (Tok L A) → FamilyV → Prop
  | keyword (s k : Str) (hk : k ∈ generic ++ wide) (h : word s k) : FamilyText [.ident s] (.keyword k)
  | str (s : Str) : FamilyText [.str s] (.name s)
  | idents (ws : List Str) (h : ws ≠ []) (hw : ∀ w ∈ ws, ∀ k ∈ wide, ¬word w k) (hg : ∀ w, ws = [w] → ∀ k ∈ generic, ¬word w k) :
      FamilyText (ws.map .ident) (.name (List.intercalate [' '] ws))

/-- The text of a list of families. -/
inductive FamiliesText : List (Tok L A) → List FamilyV → Prop
  | one {t : List (Tok L A)} {f : FamilyV} (h : FamilyText t f) : FamiliesText t [f]
  | cons {t ts : List (Tok L A)} {f : FamilyV} {fs : List FamilyV} (h : FamilyText t f) (hs : FamiliesText ts fs) : FamiliesText (t ++ .comma :: ts) (f :: fs)

/-- The `font` shorthand, without the system fonts (`caption`, ...). -/
def Shorthand [Zero L] [Oblique A] (toks : List (Tok L A)) (m : Meaning L A) : Prop :=
  ∃ lead size slash fams, toks = lead ++ size :: (slash ++ fams) ∧ LeadText lead m ∧ SizeText size m.size ∧ SlashText slash m.line ∧
    FamiliesText fams m.families

end
end Verif.Font.Spec
