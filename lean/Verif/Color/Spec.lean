import Verif.Color.Model
/-!
What a colour notation means (CSS Color 4 § 5.2 hexadecimal notation, § 6.1 named colours, § 6.3
`transparent`, § 5.1 legacy `rgba()`). Uses nothing of the model but the type `RGBA`.
-/
namespace Verif.Color

/-- The value of a hexadecimal digit. -/
def hexVal (c : Char) : Option (Fin 16) :=
  if '0' ≤ c ∧ c ≤ '9' then some (Fin.ofNat 16 (c.toNat - 48))
  else if 'a' ≤ c ∧ c ≤ 'f' then some (Fin.ofNat 16 (c.toNat - 87))
  else if 'A' ≤ c ∧ c ≤ 'F' then some (Fin.ofNat 16 (c.toNat - 55))
  else none

/-- The byte of two hexadecimal digits. -/
def byte (h l : Fin 16) : Fin 256 := ⟨16 * h.1 + l.1, by omega⟩

/-- CSS Color 4 § 5.2: three, four, six or eight digits. -/
def ofDigits : List (Fin 16) → Option RGBA
  | [r, g, b] => some ⟨byte r r, byte g g, byte b b, 255⟩
  | [r, g, b, a] => some ⟨byte r r, byte g g, byte b b, byte a a⟩
  | [r, r', g, g', b, b'] => some ⟨byte r r', byte g g', byte b b', 255⟩
  | [r, r', g, g', b, b', a, a'] => some ⟨byte r r', byte g g', byte b b', byte a a'⟩
  | _ => none

/-- The named colours of CSS Color 4 § 6.1. -/
def namedColors : List (Str × Nat) :=
  [(cs!"aliceblue", 0xf0f8ff), (cs!"antiquewhite", 0xfaebd7), (cs!"aqua", 0x00ffff),
   (cs!"aquamarine", 0x7fffd4), (cs!"azure", 0xf0ffff), (cs!"beige", 0xf5f5dc), (cs!"bisque", 0xffe4c4),
   (cs!"black", 0x000000), (cs!"blanchedalmond", 0xffebcd), (cs!"blue", 0x0000ff),
   (cs!"blueviolet", 0x8a2be2), (cs!"brown", 0xa52a2a), (cs!"burlywood", 0xdeb887),
   (cs!"cadetblue", 0x5f9ea0), (cs!"chartreuse", 0x7fff00), (cs!"chocolate", 0xd2691e),
   (cs!"coral", 0xff7f50), (cs!"cornflowerblue", 0x6495ed), (cs!"cornsilk", 0xfff8dc),
   (cs!"crimson", 0xdc143c), (cs!"cyan", 0x00ffff), (cs!"darkblue", 0x00008b), (cs!"darkcyan", 0x008b8b),
   (cs!"darkgoldenrod", 0xb8860b), (cs!"darkgray", 0xa9a9a9), (cs!"darkgreen", 0x006400),
   (cs!"darkgrey", 0xa9a9a9), (cs!"darkkhaki", 0xbdb76b), (cs!"darkmagenta", 0x8b008b),
   (cs!"darkolivegreen", 0x556b2f), (cs!"darkorange", 0xff8c00), (cs!"darkorchid", 0x9932cc),
   (cs!"darkred", 0x8b0000), (cs!"darksalmon", 0xe9967a), (cs!"darkseagreen", 0x8fbc8f),
   (cs!"darkslateblue", 0x483d8b), (cs!"darkslategray", 0x2f4f4f), (cs!"darkslategrey", 0x2f4f4f),
   (cs!"darkturquoise", 0x00ced1), (cs!"darkviolet", 0x9400d3), (cs!"deeppink", 0xff1493),
   (cs!"deepskyblue", 0x00bfff), (cs!"dimgray", 0x696969), (cs!"dimgrey", 0x696969),
   (cs!"dodgerblue", 0x1e90ff), (cs!"firebrick", 0xb22222), (cs!"floralwhite", 0xfffaf0),
   (cs!"forestgreen", 0x228b22), (cs!"fuchsia", 0xff00ff), (cs!"gainsboro", 0xdcdcdc),
   (cs!"ghostwhite", 0xf8f8ff), (cs!"gold", 0xffd700), (cs!"goldenrod", 0xdaa520), (cs!"gray", 0x808080),
   (cs!"green", 0x008000), (cs!"greenyellow", 0xadff2f), (cs!"grey", 0x808080), (cs!"honeydew", 0xf0fff0),
   (cs!"hotpink", 0xff69b4), (cs!"indianred", 0xcd5c5c), (cs!"indigo", 0x4b0082), (cs!"ivory", 0xfffff0),
   (cs!"khaki", 0xf0e68c), (cs!"lavender", 0xe6e6fa), (cs!"lavenderblush", 0xfff0f5),
   (cs!"lawngreen", 0x7cfc00), (cs!"lemonchiffon", 0xfffacd), (cs!"lightblue", 0xadd8e6),
   (cs!"lightcoral", 0xf08080), (cs!"lightcyan", 0xe0ffff), (cs!"lightgoldenrodyellow", 0xfafad2),
   (cs!"lightgray", 0xd3d3d3), (cs!"lightgreen", 0x90ee90), (cs!"lightgrey", 0xd3d3d3),
   (cs!"lightpink", 0xffb6c1), (cs!"lightsalmon", 0xffa07a), (cs!"lightseagreen", 0x20b2aa),
   (cs!"lightskyblue", 0x87cefa), (cs!"lightslategray", 0x778899), (cs!"lightslategrey", 0x778899),
   (cs!"lightsteelblue", 0xb0c4de), (cs!"lightyellow", 0xffffe0), (cs!"lime", 0x00ff00),
   (cs!"limegreen", 0x32cd32), (cs!"linen", 0xfaf0e6), (cs!"magenta", 0xff00ff), (cs!"maroon", 0x800000),
   (cs!"mediumaquamarine", 0x66cdaa), (cs!"mediumblue", 0x0000cd), (cs!"mediumorchid", 0xba55d3),
   (cs!"mediumpurple", 0x9370db), (cs!"mediumseagreen", 0x3cb371), (cs!"mediumslateblue", 0x7b68ee),
   (cs!"mediumspringgreen", 0x00fa9a), (cs!"mediumturquoise", 0x48d1cc), (cs!"mediumvioletred", 0xc71585),
   (cs!"midnightblue", 0x191970), (cs!"mintcream", 0xf5fffa), (cs!"mistyrose", 0xffe4e1),
   (cs!"moccasin", 0xffe4b5), (cs!"navajowhite", 0xffdead), (cs!"navy", 0x000080), (cs!"oldlace", 0xfdf5e6),
   (cs!"olive", 0x808000), (cs!"olivedrab", 0x6b8e23), (cs!"orange", 0xffa500), (cs!"orangered", 0xff4500),
   (cs!"orchid", 0xda70d6), (cs!"palegoldenrod", 0xeee8aa), (cs!"palegreen", 0x98fb98),
   (cs!"paleturquoise", 0xafeeee), (cs!"palevioletred", 0xdb7093), (cs!"papayawhip", 0xffefd5),
   (cs!"peachpuff", 0xffdab9), (cs!"peru", 0xcd853f), (cs!"pink", 0xffc0cb), (cs!"plum", 0xdda0dd),
   (cs!"powderblue", 0xb0e0e6), (cs!"purple", 0x800080), (cs!"rebeccapurple", 0x663399), (cs!"red", 0xff0000),
   (cs!"rosybrown", 0xbc8f8f), (cs!"royalblue", 0x4169e1), (cs!"saddlebrown", 0x8b4513),
   (cs!"salmon", 0xfa8072), (cs!"sandybrown", 0xf4a460), (cs!"seagreen", 0x2e8b57), (cs!"seashell", 0xfff5ee),
   (cs!"sienna", 0xa0522d), (cs!"silver", 0xc0c0c0), (cs!"skyblue", 0x87ceeb), (cs!"slateblue", 0x6a5acd),
   (cs!"slategray", 0x708090), (cs!"slategrey", 0x708090), (cs!"snow", 0xfffafa), (cs!"springgreen", 0x00ff7f),
   (cs!"steelblue", 0x4682b4), (cs!"tan", 0xd2b48c), (cs!"teal", 0x008080), (cs!"thistle", 0xd8bfd8),
   (cs!"tomato", 0xff6347), (cs!"turquoise", 0x40e0d0), (cs!"violet", 0xee82ee), (cs!"wheat", 0xf5deb3),
   (cs!"white", 0xffffff), (cs!"whitesmoke", 0xf5f5f5), (cs!"yellow", 0xffff00), (cs!"yellowgreen", 0x9acd32)]

/-- The opaque colour of a number 0xRRGGBB. -/
def ofRgb (v : Nat) : RGBA := ⟨Fin.ofNat 256 (v / 65536), Fin.ofNat 256 (v / 256), Fin.ofNat 256 v, 255⟩

/-- The byte of a decimal number: a channel between 0 and 255. -/
def readChannel (s : Str) : Option (Fin 256) := do
  let n ← readNat s
  if h : n < 256 then some ⟨n, h⟩ else none

/-- The byte of an alpha value `n / d`: 255 times the value, rounded (CSS Color 4 § 15.1 serializes the
other way). -/
def alphaByte (n d : Nat) : Fin 256 := Fin.ofNat 256 (min ((255 * 2 * n + d) / (2 * d)) 255)

/-- An alpha value: an integer, or a point and decimals (an integer part before the point is not needed
here). -/
def readAlpha : Str → Option (Fin 256)
  | '.' :: s => do
    let n ← readNat s
    some (alphaByte n (10 ^ s.length))
  | s => do
    let n ← readNat s
    some (alphaByte n 1)

/-- The pieces between commas. -/
def splitCommas : Str → List Str
  | [] => [[]]
  | ',' :: s => [] :: splitCommas s
  | c :: s => match splitCommas s with
      | p :: ps => (c :: p) :: ps
      | [] => [[c]]

/-- The text after white space. -/
def trimStart (s : Str) : Str := s.dropWhile (· == ' ')

/-- The meaning of a colour notation. -/
def readColor (s : Str) : Option RGBA :=
  match s with
  | '#' :: ds => do ofDigits (← ds.mapM hexVal)
  | _ =>
    if s = cs!"transparent" then some ⟨0, 0, 0, 0⟩
    else match namedColors.find? (·.1 == s) with
      | some (_, v) => some (ofRgb v)
      | none =>
        if s.take 5 = cs!"rgba(" ∧ s.getLast? = some ')' then
          match (splitCommas (s.drop 5).dropLast).map trimStart with
          | [r, g, b, a] => do
            some ⟨← readChannel r, ← readChannel g, ← readChannel b, ← readAlpha a⟩
          | _ => none
        else none

end Verif.Color
