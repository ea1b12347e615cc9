import Verif.Common.Chars
import Verif.Transition.Easing
/-!
# Fonts: values (`/repo/src/properties/font.rs`)

A value is a list of tokens (`Tok`). Lengths other than percentages (with units, or `calc()`) are an opaque type `L`, angles an opaque type `A` with the default `14deg`; numbers and percentages are rational numbers (in the code `f32`). Names are without escapes, as the tokenizer gives them.
-/
namespace Verif.Font
open Verif.Transition (kw)

/-- The tokens of a value. -/
inductive Tok (L A : Type)
  | ident (s : Str)
  | str (s : Str)
  | num (q : Rat)
  | pct (q : Rat)
  | len (l : L)
  | angle (a : A)
  | slash
  | comma
deriving DecidableEq

/-- `AbsoluteFontSize` (src/properties/font.rs:109-125). -/
inductive AbsSize
  | xxSmall | xSmall | small | medium | large | xLarge | xxLarge | xxxLarge
deriving DecidableEq

/-- `FontSize` (src/properties/font.rs:150-168) with `RelativeFontSize` (137-148). -/
inductive Size (L : Type)
  | len (l : L)
  | pct (q : Rat)
  | abs (a : AbsSize)
  | smaller | larger
deriving DecidableEq

/-- `FontStyle` (src/properties/font.rs:459-479). -/
inductive Style (A : Type)
  | normal | italic
  | oblique (a : A)
deriving DecidableEq

/-- `FontWeight` and `AbsoluteFontWeight` (src/properties/font.rs:22-82). -/
inductive Weight
  | num (q : Rat)
  | normal | bold | bolder | lighter
deriving DecidableEq

/-- `FontStretchKeyword` (src/properties/font.rs:182-208). -/
inductive StretchKw
  | normal | ultraCondensed | extraCondensed | condensed | semiCondensed | semiExpanded | expanded | extraExpanded | ultraExpanded
deriving DecidableEq

/-- `FontStretch` (src/properties/font.rs:234-250). -/
inductive Stretch
  | kw (k : StretchKw)
  | pct (q : Rat)
deriving DecidableEq

/-- `LineHeight` (src/properties/font.rs:577-596). -/
inductive LineHeight (L : Type)
  | normal
  | num (q : Rat)
  | len (l : L)
  | pct (q : Rat)
deriving DecidableEq

/-- `FontVariantCaps` (src/properties/font.rs:532-552). -/
inductive Caps
  | normal | smallCaps | allSmallCaps | petiteCaps | allPetiteCaps | unicase | titlingCaps
deriving DecidableEq

/-- `GenericFontFamily` (src/properties/font.rs:292-333). -/
inductive Generic
  | serif | sansSerif | cursive | fantasy | monospace | systemUi | emoji | math | fangsong | uiSerif | uiSansSerif | uiMonospace | uiRounded
  | initial | inherit | unset | default | revert | revertLayer
deriving DecidableEq

/-- `FontFamily` (src/properties/font.rs:347-360). -/
inductive Family
  | generic (g : Generic)
  | name (s : Str)
deriving DecidableEq

/-- `Font` (src/properties/font.rs:659-679). -/
structure Font (L A : Type) where
  family : List Family
  size : Size L
  style : Style A
  weight : Weight
  stretch : Stretch
  lineHeight : LineHeight L
  caps : Caps
deriving DecidableEq

/-! ### Keywords -/

/-- The keywords of `AbsoluteFontSize` (src/properties/font.rs:109-125). -/
def AbsSize.text : AbsSize → Str
  | .xxSmall => cs!"xx-small" | .xSmall => cs!"x-small" | .small => cs!"small" | .medium => cs!"medium" | .large => cs!"large"
  | .xLarge => cs!"x-large" | .xxLarge => cs!"xx-large" | .xxxLarge => cs!"xxx-large"
/-- The keywords of `FontStretchKeyword` (src/properties/font.rs:182-208). -/
def StretchKw.text : StretchKw → Str
  | .normal => cs!"normal" | .ultraCondensed => cs!"ultra-condensed" | .extraCondensed => cs!"extra-condensed" | .condensed => cs!"condensed"
  | .semiCondensed => cs!"semi-condensed" | .semiExpanded => cs!"semi-expanded" | .expanded => cs!"expanded" | .extraExpanded => cs!"extra-expanded"
  | .ultraExpanded => cs!"ultra-expanded"
/-- The keywords of `FontVariantCaps` (src/properties/font.rs:532-552). -/
def Caps.text : Caps → Str
  | .normal => cs!"normal" | .smallCaps => cs!"small-caps" | .allSmallCaps => cs!"all-small-caps" | .petiteCaps => cs!"petite-caps"
  | .allPetiteCaps => cs!"all-petite-caps" | .unicase => cs!"unicase" | .titlingCaps => cs!"titling-caps"
/-- The keywords of `GenericFontFamily` (src/properties/font.rs:292-333). -/
def Generic.text : Generic → Str
  | .serif => cs!"serif" | .sansSerif => cs!"sans-serif" | .cursive => cs!"cursive" | .fantasy => cs!"fantasy" | .monospace => cs!"monospace"
  | .systemUi => cs!"system-ui" | .emoji => cs!"emoji" | .math => cs!"math" | .fangsong => cs!"fangsong" | .uiSerif => cs!"ui-serif"
  | .uiSansSerif => cs!"ui-sans-serif" | .uiMonospace => cs!"ui-monospace" | .uiRounded => cs!"ui-rounded" | .initial => cs!"initial"
  | .inherit => cs!"inherit" | .unset => cs!"unset" | .default => cs!"default" | .revert => cs!"revert" | .revertLayer => cs!"revert-layer"

/-- All values of the enums, in the order of the declaration. -/
def AbsSize.all : List AbsSize := [.xxSmall, .xSmall, .small, .medium, .large, .xLarge, .xxLarge, .xxxLarge]
/-- All values of the enum. -/
def StretchKw.all : List StretchKw :=
  [.normal, .ultraCondensed, .extraCondensed, .condensed, .semiCondensed, .semiExpanded, .expanded, .extraExpanded, .ultraExpanded]
/-- All values of the enum. -/
def Caps.all : List Caps := [.normal, .smallCaps, .allSmallCaps, .petiteCaps, .allPetiteCaps, .unicase, .titlingCaps]
/-- All values of the enum. -/
def Generic.all : List Generic :=
  [.serif, .sansSerif, .cursive, .fantasy, .monospace, .systemUi, .emoji, .math, .fangsong, .uiSerif, .uiSansSerif, .uiMonospace, .uiRounded,
    .initial, .inherit, .unset, .default, .revert, .revertLayer]

/-- `enum_property!`: `match_ignore_ascii_case!` over the keywords (src/macros.rs:58-71). -/
def parseKw {K : Type} (all : List K) (text : K → Str) (s : Str) : Option K := all.find? fun k => kw s (text k)

section
variable {L A : Type}

/-! ### Parsers. Each takes the tokens, and gives the value with the tokens that are left. -/

/-- The derived `FontSize::parse`: a length or percentage (a bare `0` is a length), or a keyword. -/
def parseSize [Zero L] : List (Tok L A) → Option (Size L × List (Tok L A))
  | .len l :: r => some (.len l, r)
  | .pct q :: r => some (.pct q, r)
  | .num q :: r => if q = 0 then some (.len 0, r) else none
  | .ident s :: r => match parseKw AbsSize.all AbsSize.text s with
    | some a => some (.abs a, r)
    | none => if kw s cs!"smaller" then some (.smaller, r) else if kw s cs!"larger" then some (.larger, r) else none
  | _ => none

/-- The default angle `14deg` (src/properties/font.rs:487-491). -/
class Oblique (A : Type) where
  dflt : A

/-- `FontStyle::parse` (src/properties/font.rs:494-510). -/
def parseStyle [Oblique A] : List (Tok L A) → Option (Style A × List (Tok L A))
  | .ident s :: r =>
    if kw s cs!"normal" then some (.normal, r)
    else if kw s cs!"italic" then some (.italic, r)
    else if kw s cs!"oblique" then match r with
      | .angle a :: r' => some (.oblique a, r')
      | r => some (.oblique Oblique.dflt, r)
    else none
  | _ => none

/-- The derived `FontWeight::parse` and `AbsoluteFontWeight::parse`. -/
def parseWeight : List (Tok L A) → Option (Weight × List (Tok L A))
  | .num q :: r => some (.num q, r)
  | .ident s :: r =>
    if kw s cs!"normal" then some (.normal, r)
    else if kw s cs!"bold" then some (.bold, r)
    else if kw s cs!"bolder" then some (.bolder, r)
    else if kw s cs!"lighter" then some (.lighter, r)
    else none
  | _ => none

/-- `FontVariantCaps::is_css2` (src/properties/font.rs:561-563). -/
def Caps.isCss2 : Caps → Bool
  | .normal => true
  | .smallCaps => true
  | _ => false

/-- `FontVariantCaps::parse_css2` (src/properties/font.rs:565-571). -/
def parseCaps2 : List (Tok L A) → Option (Caps × List (Tok L A))
  | .ident s :: r => match parseKw Caps.all Caps.text s with
    | some c => if c.isCss2 then some (c, r) else none
    | none => none
  | _ => none

/-- `FontStretchKeyword::parse`. -/
def parseStretch : List (Tok L A) → Option (StretchKw × List (Tok L A))
  | .ident s :: r => (parseKw StretchKw.all StretchKw.text s).map (·, r)
  | _ => none

/-- The derived `LineHeight::parse`. -/
def parseLineHeight : List (Tok L A) → Option (LineHeight L × List (Tok L A))
  | .ident s :: r => if kw s cs!"normal" then some (.normal, r) else none
  | .num q :: r => some (.num q, r)
  | .len l :: r => some (.len l, r)
  | .pct q :: r => some (.pct q, r)
  | _ => none

/-- The identifiers at the start (src/properties/font.rs:402-411). -/
def takeIdents : List (Tok L A) → List Str × List (Tok L A)
  | .ident s :: r => (s :: (takeIdents r).1, (takeIdents r).2)
  | r => ([], r)

/-- The identifiers, with spaces between them (src/properties/font.rs:400-417). -/
def joinSp : List Str → Str
  | [] => []
  | [s] => s
  | s :: t :: r => s ++ ' ' :: joinSp (t :: r)

/-- `FamilyName::parse` (src/properties/font.rs:393-420). -/
def parseName : List (Tok L A) → Option (Str × List (Tok L A))
  | .str s :: r => some (s, r)
  | .ident s :: r => some (joinSp (s :: (takeIdents r).1), (takeIdents r).2)
  | _ => none

/-- `FontFamily::parse` (src/properties/font.rs:362-371). -/
def parseFamily (l : List (Tok L A)) : Option (Family × List (Tok L A)) :=
  match l with
  | .ident s :: r => match parseKw Generic.all Generic.text s with
    | some g => some (.generic g, r)
    | none => (parseName l).map fun x => (.name x.1, x.2)
  | _ => (parseName l).map fun x => (.name x.1, x.2)

/-- `parse_comma_separated` (cssparser): the items are cut at the commas, and each must be read completely. `fuel` is at least the number of tokens. -/
def parseFamilies : Nat → List (Tok L A) → Option (List Family)
  | 0, _ => none
  | fuel + 1, l => match parseFamily l with
    | some (f, []) => some [f]
    | some (f, .comma :: r) => (parseFamilies fuel r).map (f :: ·)
    | _ => none

/-- The variables of the loop in `Font::parse` (src/properties/font.rs:684-689). -/
structure Slots (A : Type) where
  style : Option (Style A) := none
  weight : Option Weight := none
  caps : Option Caps := none
  stretch : Option StretchKw := none
  count : Nat := 0

/-- One round of the loop in `Font::parse`, without the size (src/properties/font.rs:691-726); `none` is the way to the size. -/
def Slots.step [Oblique A] (s : Slots A) (l : List (Tok L A)) : Option (Slots A × List (Tok L A)) :=
  match (match l with
    | .ident n :: r => if kw n cs!"normal" then some r else none
    | _ => none) with
  | some r => some ({ s with count := s.count + 1 }, r)
  | none =>
  match (if s.style.isNone then parseStyle l else none) with
  | some (v, r) => some ({ s with style := some v, count := s.count + 1 }, r)
  | none =>
  match (if s.weight.isNone then parseWeight l else none) with
  | some (v, r) => some ({ s with weight := some v, count := s.count + 1 }, r)
  | none =>
  match (if s.caps.isNone then parseCaps2 l else none) with
  | some (v, r) => some ({ s with caps := some v, count := s.count + 1 }, r)
  | none =>
  match (if s.stretch.isNone then parseStretch l else none) with
  | some (v, r) => some ({ s with stretch := some v, count := s.count + 1 }, r)
  | none => none

/-- The loop (src/properties/font.rs:691-728). `fuel` is at least the number of tokens. -/
def Slots.loop [Oblique A] : Nat → Slots A → List (Tok L A) → Slots A × List (Tok L A)
  | 0, s, l => (s, l)
  | fuel + 1, s, l => match s.step l with
    | some (s', r) => Slots.loop fuel s' r
    | none => (s, l)

/-- The line height after the size (src/properties/font.rs:739-743). -/
def parseSlash : List (Tok L A) → Option (LineHeight L × List (Tok L A))
  | .slash :: r => parseLineHeight r
  | r => some (.normal, r)

/-- `Font::parse` (src/properties/font.rs:682-756). -/
def Font.parse [Zero L] [Oblique A] (l : List (Tok L A)) : Option (Font L A) :=
  let x := Slots.loop l.length {} l
  match parseSize x.2 with
  | none => none
  | some (size, r) =>
    if x.1.count > 4 then none
    else match parseSlash r with
      | none => none
      | some (lh, r) => (parseFamilies (r.length + 1) r).map fun fams =>
        { family := fams, size := size, style := x.1.style.getD .normal, weight := x.1.weight.getD .normal,
          stretch := .kw (x.1.stretch.getD .normal), lineHeight := lh, caps := x.1.caps.getD .normal }

/-! ### Printers -/

/-- `FontSize::to_css`; the length zero is written as `0`. -/
def Size.print [Zero L] [DecidableEq L] : Size L → Tok L A
  | .len l => if l = 0 then .num 0 else .len l
  | .pct q => .pct q
  | .abs a => .ident a.text
  | .smaller => .ident cs!"smaller"
  | .larger => .ident cs!"larger"

/-- `FontStyle::to_css` (src/properties/font.rs:513-530). -/
def Style.print [Oblique A] [DecidableEq A] : Style A → List (Tok L A)
  | .normal => [.ident cs!"normal"]
  | .italic => [.ident cs!"italic"]
  | .oblique a => .ident cs!"oblique" :: (if a ≠ Oblique.dflt then [.angle a] else [])

/-- `FontWeight::to_css` and `AbsoluteFontWeight::to_css` (src/properties/font.rs:84-96). -/
def Weight.print (minify : Bool) : Weight → Tok L A
  | .num q => .num q
  | .normal => if minify then .num 400 else .ident cs!"normal"
  | .bold => if minify then .num 700 else .ident cs!"bold"
  | .bolder => .ident cs!"bolder"
  | .lighter => .ident cs!"lighter"

/-- `Into<Percentage>` (src/properties/font.rs:216-232), in percent. -/
def StretchKw.percent : StretchKw → Rat
  | .ultraCondensed => 50 | .extraCondensed => 125/2 | .condensed => 75 | .semiCondensed => 175/2 | .normal => 100
  | .semiExpanded => 225/2 | .expanded => 125 | .extraExpanded => 150 | .ultraExpanded => 200

/-- `FontStretch::to_css` (src/properties/font.rs:267-281). -/
def Stretch.print (minify : Bool) : Stretch → Tok L A
  | .pct q => .pct q
  | .kw k => if minify then .pct k.percent else .ident k.text

/-- `LineHeight::to_css`. -/
def LineHeight.print [Zero L] [DecidableEq L] : LineHeight L → Tok L A
  | .normal => .ident cs!"normal"
  | .num q => .num q
  | .len l => if l = 0 then .num 0 else .len l
  | .pct q => .pct q

/-- `val.split(' ')`. -/
def splitSp : Str → List Str
  | [] => [[]]
  | c :: s => if c = ' ' then [] :: splitSp s else match splitSp s with
    | [] => [[c]]
    | w :: ws => (c :: w) :: ws

/-- `val.contains("  ")`. -/
def hasTwoSp : Str → Bool
  | ' ' :: ' ' :: _ => true
  | _ :: s => hasTwoSp s
  | [] => false

/-- `FamilyName::to_css` (src/properties/font.rs:422-448). `idLen` is the length of what `serialize_identifier` writes; for the empty string it writes nothing. -/
def printName (idLen : Str → Nat) (val : Str) : List (Tok L A) :=
  if val ≠ [] ∧ (parseKw Generic.all Generic.text val).isNone then
    if hasTwoSp val then [.str val]
    else
      let words := splitSp val
      if (words.map idLen).sum + (words.length - 1) < val.length + 2 then (words.filter (· ≠ [])).map .ident
      else [.str val]
  else [.str val]

/-- `FontFamily::to_css` (src/properties/font.rs:373-383). -/
def Family.print (idLen : Str → Nat) : Family → List (Tok L A)
  | .generic g => [.ident g.text]
  | .name s => printName idLen s

/-- The list of families (src/properties/font.rs:793-799). -/
def printFamilies (idLen : Str → Nat) : List Family → List (Tok L A)
  | [] => []
  | [f] => f.print idLen
  | f :: g :: r => f.print idLen ++ .comma :: printFamilies idLen (g :: r)

/-- `Font::to_css` (src/properties/font.rs:759-802). -/
def Font.print [Zero L] [DecidableEq L] [Oblique A] [DecidableEq A] (minify : Bool) (idLen : Str → Nat) (f : Font L A) : List (Tok L A) :=
  (if f.style ≠ .normal then f.style.print else []) ++
  ((if f.caps ≠ .normal then [.ident f.caps.text] else []) ++
  ((if f.weight ≠ .normal then [f.weight.print minify] else []) ++
  ((if f.stretch ≠ .kw .normal then [f.stretch.print minify] else []) ++
  (f.size.print ::
  ((if f.lineHeight ≠ .normal then [.slash, f.lineHeight.print] else []) ++
  printFamilies idLen f.family)))))

end
end Verif.Font
