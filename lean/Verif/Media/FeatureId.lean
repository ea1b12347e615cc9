import Verif.Common.Chars
/-
Copyright: verification model of parcel-bundler/lightningcss.

Media feature identifiers. Models `define_query_features! { pub enum MediaFeatureId ... }`,
src/media_query.rs:1404-1493, one constructor per table row, with the printed name and value type of the row.
Strings are modelled as `List Char` throughout (Rust `&str`).
-/
namespace Verif.Media




/-- ASCII lower-casing of one character. -/
def lowerChar (c : Char) : Char := if 'A' ≤ c ∧ c ≤ 'Z' then Char.ofNat (c.toNat + 32) else c

/-- ASCII lower-casing (CSS keywords are compared ASCII case-insensitively). -/
def lowerAscii (s : Str) : Str := s.map lowerChar

/-- src/media_query.rs:1338-1355 `MediaFeatureType`. -/
inductive FType where
  | length | number | integer | boolean | resolution | ratio | ident | unknown
deriving DecidableEq, Repr

/-- src/media_query.rs:1358-1370 `MediaFeatureType::allows_ranges`. -/
def FType.allowsRanges : FType → Bool
  | .length => true
  | .number => true
  | .integer => true
  | .boolean => false
  | .resolution => true
  | .ratio => true
  | .ident => false
  | .unknown => true

/-- src/media_query.rs:1404-1493 `MediaFeatureId`. -/
inductive FeatureId where
  | width
  | height
  | aspectRatio
  | orientation
  | overflowBlock
  | overflowInline
  | horizontalViewportSegments
  | verticalViewportSegments
  | displayMode
  | resolution
  | scan
  | grid
  | update
  | environmentBlending
  | color
  | colorIndex
  | monochrome
  | colorGamut
  | dynamicRange
  | invertedColors
  | pointer
  | hover
  | anyPointer
  | anyHover
  | navControls
  | videoColorGamut
  | videoDynamicRange
  | scripting
  | prefersReducedMotion
  | prefersReducedTransparency
  | prefersContrast
  | forcedColors
  | prefersColorScheme
  | prefersReducedData
  | deviceWidth
  | deviceHeight
  | deviceAspectRatio
  | webKitDevicePixelRatio
  | mozDevicePixelRatio
deriving DecidableEq, Repr

/-- All feature identifiers, in table order. -/
def FeatureId.all : List FeatureId := [
  .width, .height, .aspectRatio, .orientation, .overflowBlock, .overflowInline, .horizontalViewportSegments, .verticalViewportSegments, .displayMode, .resolution, .scan, .grid, .update, .environmentBlending, .color, .colorIndex, .monochrome, .colorGamut, .dynamicRange, .invertedColors, .pointer, .hover, .anyPointer, .anyHover, .navControls, .videoColorGamut, .videoDynamicRange, .scripting, .prefersReducedMotion, .prefersReducedTransparency, .prefersContrast, .forcedColors, .prefersColorScheme, .prefersReducedData, .deviceWidth, .deviceHeight, .deviceAspectRatio, .webKitDevicePixelRatio, .mozDevicePixelRatio]

/-- The string column of the table (`enum_property!` serialisation, src/macros.rs). -/
def FeatureId.name : FeatureId → Str
  | .width => cs!"width"
  | .height => cs!"height"
  | .aspectRatio => cs!"aspect-ratio"
  | .orientation => cs!"orientation"
  | .overflowBlock => cs!"overflow-block"
  | .overflowInline => cs!"overflow-inline"
  | .horizontalViewportSegments => cs!"horizontal-viewport-segments"
  | .verticalViewportSegments => cs!"vertical-viewport-segments"
  | .displayMode => cs!"display-mode"
  | .resolution => cs!"resolution"
  | .scan => cs!"scan"
  | .grid => cs!"grid"
  | .update => cs!"update"
  | .environmentBlending => cs!"environment-blending"
  | .color => cs!"color"
  | .colorIndex => cs!"color-index"
  | .monochrome => cs!"monochrome"
  | .colorGamut => cs!"color-gamut"
  | .dynamicRange => cs!"dynamic-range"
  | .invertedColors => cs!"inverted-colors"
  | .pointer => cs!"pointer"
  | .hover => cs!"hover"
  | .anyPointer => cs!"any-pointer"
  | .anyHover => cs!"any-hover"
  | .navControls => cs!"nav-controls"
  | .videoColorGamut => cs!"video-color-gamut"
  | .videoDynamicRange => cs!"video-dynamic-range"
  | .scripting => cs!"scripting"
  | .prefersReducedMotion => cs!"prefers-reduced-motion"
  | .prefersReducedTransparency => cs!"prefers-reduced-transparency"
  | .prefersContrast => cs!"prefers-contrast"
  | .forcedColors => cs!"forced-colors"
  | .prefersColorScheme => cs!"prefers-color-scheme"
  | .prefersReducedData => cs!"prefers-reduced-data"
  | .deviceWidth => cs!"device-width"
  | .deviceHeight => cs!"device-height"
  | .deviceAspectRatio => cs!"device-aspect-ratio"
  | .webKitDevicePixelRatio => cs!"-webkit-device-pixel-ratio"
  | .mozDevicePixelRatio => cs!"-moz-device-pixel-ratio"

/-- The type column of the table: `ValueType for MediaFeatureId`. -/
def FeatureId.ftype : FeatureId → FType
  | .width => .length
  | .height => .length
  | .aspectRatio => .ratio
  | .orientation => .ident
  | .overflowBlock => .ident
  | .overflowInline => .ident
  | .horizontalViewportSegments => .integer
  | .verticalViewportSegments => .integer
  | .displayMode => .ident
  | .resolution => .resolution
  | .scan => .ident
  | .grid => .boolean
  | .update => .ident
  | .environmentBlending => .ident
  | .color => .integer
  | .colorIndex => .integer
  | .monochrome => .integer
  | .colorGamut => .ident
  | .dynamicRange => .ident
  | .invertedColors => .ident
  | .pointer => .ident
  | .hover => .ident
  | .anyPointer => .ident
  | .anyHover => .ident
  | .navControls => .ident
  | .videoColorGamut => .ident
  | .videoDynamicRange => .ident
  | .scripting => .ident
  | .prefersReducedMotion => .ident
  | .prefersReducedTransparency => .ident
  | .prefersContrast => .ident
  | .forcedColors => .ident
  | .prefersColorScheme => .ident
  | .prefersReducedData => .ident
  | .deviceWidth => .length
  | .deviceHeight => .length
  | .deviceAspectRatio => .ratio
  | .webKitDevicePixelRatio => .number
  | .mozDevicePixelRatio => .number

end Verif.Media
