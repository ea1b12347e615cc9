import Verif.Targets.Browsers
/-! Generated by tools/gen_props.py from /repo/src/properties/*.rs: the properties and their shorthands. -/
namespace Verif.Declarations

/-- src/properties/mod.rs:1202-1622, the arguments of `define_properties!`. -/
inductive Pr where
  | backgroundColor
  | backgroundImage
  | backgroundPositionX
  | backgroundPositionY
  | backgroundPosition
  | backgroundSize
  | backgroundRepeat
  | backgroundAttachment
  | backgroundClip
  | backgroundOrigin
  | background
  | boxShadow
  | opacity
  | color
  | display
  | visibility
  | width
  | height
  | minWidth
  | minHeight
  | maxWidth
  | maxHeight
  | blockSize
  | inlineSize
  | minBlockSize
  | minInlineSize
  | maxBlockSize
  | maxInlineSize
  | boxSizing
  | aspectRatio
  | overflow
  | overflowX
  | overflowY
  | textOverflow
  | position
  | top
  | bottom
  | left
  | right
  | insetBlockStart
  | insetBlockEnd
  | insetInlineStart
  | insetInlineEnd
  | insetBlock
  | insetInline
  | inset
  | borderSpacing
  | borderTopColor
  | borderBottomColor
  | borderLeftColor
  | borderRightColor
  | borderBlockStartColor
  | borderBlockEndColor
  | borderInlineStartColor
  | borderInlineEndColor
  | borderTopStyle
  | borderBottomStyle
  | borderLeftStyle
  | borderRightStyle
  | borderBlockStartStyle
  | borderBlockEndStyle
  | borderInlineStartStyle
  | borderInlineEndStyle
  | borderTopWidth
  | borderBottomWidth
  | borderLeftWidth
  | borderRightWidth
  | borderBlockStartWidth
  | borderBlockEndWidth
  | borderInlineStartWidth
  | borderInlineEndWidth
  | borderTopLeftRadius
  | borderTopRightRadius
  | borderBottomLeftRadius
  | borderBottomRightRadius
  | borderStartStartRadius
  | borderStartEndRadius
  | borderEndStartRadius
  | borderEndEndRadius
  | borderRadius
  | borderImageSource
  | borderImageOutset
  | borderImageRepeat
  | borderImageWidth
  | borderImageSlice
  | borderImage
  | borderColor
  | borderStyle
  | borderWidth
  | borderBlockColor
  | borderBlockStyle
  | borderBlockWidth
  | borderInlineColor
  | borderInlineStyle
  | borderInlineWidth
  | border
  | borderTop
  | borderBottom
  | borderLeft
  | borderRight
  | borderBlock
  | borderBlockStart
  | borderBlockEnd
  | borderInline
  | borderInlineStart
  | borderInlineEnd
  | outline
  | outlineColor
  | outlineStyle
  | outlineWidth
  | flexDirection
  | flexWrap
  | flexFlow
  | flexGrow
  | flexShrink
  | flexBasis
  | flex
  | order
  | alignContent
  | justifyContent
  | placeContent
  | alignSelf
  | justifySelf
  | placeSelf
  | alignItems
  | justifyItems
  | placeItems
  | rowGap
  | columnGap
  | gap
  | boxOrient
  | boxDirection
  | boxOrdinalGroup
  | boxAlign
  | boxFlex
  | boxFlexGroup
  | boxPack
  | boxLines
  | flexPack
  | flexOrder
  | flexAlign
  | flexItemAlign
  | flexLinePack
  | flexPositive
  | flexNegative
  | flexPreferredSize
  | gridTemplateColumns
  | gridTemplateRows
  | gridAutoColumns
  | gridAutoRows
  | gridAutoFlow
  | gridTemplateAreas
  | gridTemplate
  | grid
  | gridRowStart
  | gridRowEnd
  | gridColumnStart
  | gridColumnEnd
  | gridRow
  | gridColumn
  | gridArea
  | marginTop
  | marginBottom
  | marginLeft
  | marginRight
  | marginBlockStart
  | marginBlockEnd
  | marginInlineStart
  | marginInlineEnd
  | marginBlock
  | marginInline
  | margin
  | paddingTop
  | paddingBottom
  | paddingLeft
  | paddingRight
  | paddingBlockStart
  | paddingBlockEnd
  | paddingInlineStart
  | paddingInlineEnd
  | paddingBlock
  | paddingInline
  | padding
  | scrollMarginTop
  | scrollMarginBottom
  | scrollMarginLeft
  | scrollMarginRight
  | scrollMarginBlockStart
  | scrollMarginBlockEnd
  | scrollMarginInlineStart
  | scrollMarginInlineEnd
  | scrollMarginBlock
  | scrollMarginInline
  | scrollMargin
  | scrollPaddingTop
  | scrollPaddingBottom
  | scrollPaddingLeft
  | scrollPaddingRight
  | scrollPaddingBlockStart
  | scrollPaddingBlockEnd
  | scrollPaddingInlineStart
  | scrollPaddingInlineEnd
  | scrollPaddingBlock
  | scrollPaddingInline
  | scrollPadding
  | fontWeight
  | fontSize
  | fontStretch
  | fontFamily
  | fontStyle
  | fontVariantCaps
  | lineHeight
  | font
  | verticalAlign
  | fontPalette
  | transitionProperty
  | transitionDuration
  | transitionDelay
  | transitionTimingFunction
  | transition
  | animationName
  | animationDuration
  | animationTimingFunction
  | animationIterationCount
  | animationDirection
  | animationPlayState
  | animationDelay
  | animationFillMode
  | animationComposition
  | animationTimeline
  | animationRangeStart
  | animationRangeEnd
  | animationRange
  | animation
  | transform
  | transformStyle
  | transformBox
  | backfaceVisibility
  | perspective
  | perspectiveOrigin
  | translate
  | rotate
  | scale
  | textTransform
  | whiteSpace
  | tabSize
  | wordBreak
  | lineBreak
  | hyphens
  | overflowWrap
  | wordWrap
  | textAlign
  | textAlignLast
  | textJustify
  | wordSpacing
  | letterSpacing
  | textIndent
  | textDecorationLine
  | textDecorationStyle
  | textDecorationColor
  | textDecorationThickness
  | textDecoration
  | textDecorationSkipInk
  | textEmphasisStyle
  | textEmphasisColor
  | textEmphasis
  | textEmphasisPosition
  | textShadow
  | textSizeAdjust
  | direction
  | unicodeBidi
  | boxDecorationBreak
  | resize
  | cursor
  | caretColor
  | caretShape
  | caret
  | userSelect
  | accentColor
  | appearance
  | listStyleType
  | listStyleImage
  | listStylePosition
  | listStyle
  | markerSide
  | composes
  | fill
  | fillRule
  | fillOpacity
  | stroke
  | strokeOpacity
  | strokeWidth
  | strokeLinecap
  | strokeLinejoin
  | strokeMiterlimit
  | strokeDasharray
  | strokeDashoffset
  | markerStart
  | markerMid
  | markerEnd
  | marker
  | colorInterpolation
  | colorInterpolationFilters
  | colorRendering
  | shapeRendering
  | textRendering
  | imageRendering
  | clipPath
  | clipRule
  | maskImage
  | maskMode
  | maskRepeat
  | maskPositionX
  | maskPositionY
  | maskPosition
  | maskClip
  | maskOrigin
  | maskSize
  | maskComposite
  | maskType
  | mask
  | maskBorderSource
  | maskBorderMode
  | maskBorderSlice
  | maskBorderWidth
  | maskBorderOutset
  | maskBorderRepeat
  | maskBorder
  | webKitMaskComposite
  | webKitMaskSourceType
  | webKitMaskBoxImage
  | webKitMaskBoxImageSource
  | webKitMaskBoxImageSlice
  | webKitMaskBoxImageWidth
  | webKitMaskBoxImageOutset
  | webKitMaskBoxImageRepeat
  | filter
  | backdropFilter
  | mixBlendMode
  | zIndex
  | containerType
  | containerName
  | container
  | viewTransitionName
  | viewTransitionClass
  | viewTransitionGroup
  | colorScheme
  | printColorAdjust
deriving DecidableEq, Repr

/-- Whether the property id carries a vendor prefix (the second field of the property in `define_properties!`). -/
def Pr.hasVp : Pr → Bool
  | .backgroundClip => true
  | .boxShadow => true
  | .boxSizing => true
  | .textOverflow => true
  | .borderTopLeftRadius => true
  | .borderTopRightRadius => true
  | .borderBottomLeftRadius => true
  | .borderBottomRightRadius => true
  | .borderRadius => true
  | .borderImage => true
  | .flexDirection => true
  | .flexWrap => true
  | .flexFlow => true
  | .flexGrow => true
  | .flexShrink => true
  | .flexBasis => true
  | .flex => true
  | .order => true
  | .alignContent => true
  | .justifyContent => true
  | .alignSelf => true
  | .alignItems => true
  | .boxOrient => true
  | .boxDirection => true
  | .boxOrdinalGroup => true
  | .boxAlign => true
  | .boxFlex => true
  | .boxFlexGroup => true
  | .boxPack => true
  | .boxLines => true
  | .flexPack => true
  | .flexOrder => true
  | .flexAlign => true
  | .flexItemAlign => true
  | .flexLinePack => true
  | .flexPositive => true
  | .flexNegative => true
  | .flexPreferredSize => true
  | .transitionProperty => true
  | .transitionDuration => true
  | .transitionDelay => true
  | .transitionTimingFunction => true
  | .transition => true
  | .animationName => true
  | .animationDuration => true
  | .animationTimingFunction => true
  | .animationIterationCount => true
  | .animationDirection => true
  | .animationPlayState => true
  | .animationDelay => true
  | .animationFillMode => true
  | .animation => true
  | .transform => true
  | .transformStyle => true
  | .backfaceVisibility => true
  | .perspective => true
  | .perspectiveOrigin => true
  | .tabSize => true
  | .hyphens => true
  | .textAlignLast => true
  | .textDecorationLine => true
  | .textDecorationStyle => true
  | .textDecorationColor => true
  | .textDecoration => true
  | .textDecorationSkipInk => true
  | .textEmphasisStyle => true
  | .textEmphasisColor => true
  | .textEmphasis => true
  | .textEmphasisPosition => true
  | .textSizeAdjust => true
  | .boxDecorationBreak => true
  | .userSelect => true
  | .appearance => true
  | .clipPath => true
  | .maskImage => true
  | .maskRepeat => true
  | .maskPosition => true
  | .maskClip => true
  | .maskOrigin => true
  | .maskSize => true
  | .mask => true
  | .webKitMaskSourceType => true
  | .webKitMaskBoxImage => true
  | .webKitMaskBoxImageSource => true
  | .webKitMaskBoxImageSlice => true
  | .webKitMaskBoxImageWidth => true
  | .webKitMaskBoxImageOutset => true
  | .webKitMaskBoxImageRepeat => true
  | .filter => true
  | .backdropFilter => true
  | .printColorAdjust => true
  | _ => false

/-- src/logical.rs `LogicalGroup`. -/
inductive Group where
  | borderColor | borderRadius | borderStyle | borderWidth | inset | margin | maxSize | minSize | padding | scrollMargin | scrollPadding | size
deriving DecidableEq, Repr

/-- `logical_group:` of `define_properties!`. -/
def Pr.group : Pr → Option Group
  | .width => some .size
  | .height => some .size
  | .minWidth => some .minSize
  | .minHeight => some .minSize
  | .maxWidth => some .maxSize
  | .maxHeight => some .maxSize
  | .blockSize => some .size
  | .inlineSize => some .size
  | .minBlockSize => some .minSize
  | .minInlineSize => some .minSize
  | .maxBlockSize => some .maxSize
  | .maxInlineSize => some .maxSize
  | .top => some .inset
  | .bottom => some .inset
  | .left => some .inset
  | .right => some .inset
  | .insetBlockStart => some .inset
  | .insetBlockEnd => some .inset
  | .insetInlineStart => some .inset
  | .insetInlineEnd => some .inset
  | .borderTopColor => some .borderColor
  | .borderBottomColor => some .borderColor
  | .borderLeftColor => some .borderColor
  | .borderRightColor => some .borderColor
  | .borderBlockStartColor => some .borderColor
  | .borderBlockEndColor => some .borderColor
  | .borderInlineStartColor => some .borderColor
  | .borderInlineEndColor => some .borderColor
  | .borderTopStyle => some .borderStyle
  | .borderBottomStyle => some .borderStyle
  | .borderLeftStyle => some .borderStyle
  | .borderRightStyle => some .borderStyle
  | .borderBlockStartStyle => some .borderStyle
  | .borderBlockEndStyle => some .borderStyle
  | .borderInlineStartStyle => some .borderStyle
  | .borderInlineEndStyle => some .borderStyle
  | .borderTopWidth => some .borderWidth
  | .borderBottomWidth => some .borderWidth
  | .borderLeftWidth => some .borderWidth
  | .borderRightWidth => some .borderWidth
  | .borderBlockStartWidth => some .borderWidth
  | .borderBlockEndWidth => some .borderWidth
  | .borderInlineStartWidth => some .borderWidth
  | .borderInlineEndWidth => some .borderWidth
  | .borderTopLeftRadius => some .borderRadius
  | .borderTopRightRadius => some .borderRadius
  | .borderBottomLeftRadius => some .borderRadius
  | .borderBottomRightRadius => some .borderRadius
  | .borderStartStartRadius => some .borderRadius
  | .borderStartEndRadius => some .borderRadius
  | .borderEndStartRadius => some .borderRadius
  | .borderEndEndRadius => some .borderRadius
  | .marginTop => some .margin
  | .marginBottom => some .margin
  | .marginLeft => some .margin
  | .marginRight => some .margin
  | .marginBlockStart => some .margin
  | .marginBlockEnd => some .margin
  | .marginInlineStart => some .margin
  | .marginInlineEnd => some .margin
  | .paddingTop => some .padding
  | .paddingBottom => some .padding
  | .paddingLeft => some .padding
  | .paddingRight => some .padding
  | .paddingBlockStart => some .padding
  | .paddingBlockEnd => some .padding
  | .paddingInlineStart => some .padding
  | .paddingInlineEnd => some .padding
  | .scrollMarginTop => some .scrollMargin
  | .scrollMarginBottom => some .scrollMargin
  | .scrollMarginLeft => some .scrollMargin
  | .scrollMarginRight => some .scrollMargin
  | .scrollMarginBlockStart => some .scrollMargin
  | .scrollMarginBlockEnd => some .scrollMargin
  | .scrollMarginInlineStart => some .scrollMargin
  | .scrollMarginInlineEnd => some .scrollMargin
  | .scrollPaddingTop => some .scrollPadding
  | .scrollPaddingBottom => some .scrollPadding
  | .scrollPaddingLeft => some .scrollPadding
  | .scrollPaddingRight => some .scrollPadding
  | .scrollPaddingBlockStart => some .scrollPadding
  | .scrollPaddingBlockEnd => some .scrollPadding
  | .scrollPaddingInlineStart => some .scrollPadding
  | .scrollPaddingInlineEnd => some .scrollPadding
  | _ => none

/-- src/logical.rs `PropertyCategory`. -/
inductive Category where
  | logical | physical
deriving DecidableEq, Repr

/-- `category:` of `define_properties!`. -/
def Pr.category : Pr → Option Category
  | .width => some .physical
  | .height => some .physical
  | .minWidth => some .physical
  | .minHeight => some .physical
  | .maxWidth => some .physical
  | .maxHeight => some .physical
  | .blockSize => some .logical
  | .inlineSize => some .logical
  | .minBlockSize => some .logical
  | .minInlineSize => some .logical
  | .maxBlockSize => some .logical
  | .maxInlineSize => some .logical
  | .top => some .physical
  | .bottom => some .physical
  | .left => some .physical
  | .right => some .physical
  | .insetBlockStart => some .logical
  | .insetBlockEnd => some .logical
  | .insetInlineStart => some .logical
  | .insetInlineEnd => some .logical
  | .borderTopColor => some .physical
  | .borderBottomColor => some .physical
  | .borderLeftColor => some .physical
  | .borderRightColor => some .physical
  | .borderBlockStartColor => some .logical
  | .borderBlockEndColor => some .logical
  | .borderInlineStartColor => some .logical
  | .borderInlineEndColor => some .logical
  | .borderTopStyle => some .physical
  | .borderBottomStyle => some .physical
  | .borderLeftStyle => some .physical
  | .borderRightStyle => some .physical
  | .borderBlockStartStyle => some .logical
  | .borderBlockEndStyle => some .logical
  | .borderInlineStartStyle => some .logical
  | .borderInlineEndStyle => some .logical
  | .borderTopWidth => some .physical
  | .borderBottomWidth => some .physical
  | .borderLeftWidth => some .physical
  | .borderRightWidth => some .physical
  | .borderBlockStartWidth => some .logical
  | .borderBlockEndWidth => some .logical
  | .borderInlineStartWidth => some .logical
  | .borderInlineEndWidth => some .logical
  | .borderTopLeftRadius => some .physical
  | .borderTopRightRadius => some .physical
  | .borderBottomLeftRadius => some .physical
  | .borderBottomRightRadius => some .physical
  | .borderStartStartRadius => some .logical
  | .borderStartEndRadius => some .logical
  | .borderEndStartRadius => some .logical
  | .borderEndEndRadius => some .logical
  | .marginTop => some .physical
  | .marginBottom => some .physical
  | .marginLeft => some .physical
  | .marginRight => some .physical
  | .marginBlockStart => some .logical
  | .marginBlockEnd => some .logical
  | .marginInlineStart => some .logical
  | .marginInlineEnd => some .logical
  | .paddingTop => some .physical
  | .paddingBottom => some .physical
  | .paddingLeft => some .physical
  | .paddingRight => some .physical
  | .paddingBlockStart => some .logical
  | .paddingBlockEnd => some .logical
  | .paddingInlineStart => some .logical
  | .paddingInlineEnd => some .logical
  | .scrollMarginTop => some .physical
  | .scrollMarginBottom => some .physical
  | .scrollMarginLeft => some .physical
  | .scrollMarginRight => some .physical
  | .scrollMarginBlockStart => some .logical
  | .scrollMarginBlockEnd => some .logical
  | .scrollMarginInlineStart => some .logical
  | .scrollMarginInlineEnd => some .logical
  | .scrollPaddingTop => some .physical
  | .scrollPaddingBottom => some .physical
  | .scrollPaddingLeft => some .physical
  | .scrollPaddingRight => some .physical
  | .scrollPaddingBlockStart => some .logical
  | .scrollPaddingBlockEnd => some .logical
  | .scrollPaddingInlineStart => some .logical
  | .scrollPaddingInlineEnd => some .logical
  | _ => none

/-- A shorthand: its fields, each with the longhands that share it, and whether it is a comma separated list
(`define_list_shorthand!`). -/
structure ShInfo where
  groups : List (List Pr)
  isList : Bool
deriving DecidableEq, Repr

/-- The shorthands (`impl_shorthand!`, `define_shorthand!`, `define_list_shorthand!`, `rect_shorthand!`, `size_shorthand!`).
`background` has its own implementation (src/properties/background.rs:550-800) and is left out: it is treated as a
property without longhands. -/
def Pr.sh : Pr → Option ShInfo
  -- background.rs:277
  | .backgroundPosition => some ⟨[[.backgroundPositionX], [.backgroundPositionY]], true⟩
  -- overflow.rs:32
  | .overflow => some ⟨[[.overflowX], [.overflowY]], false⟩
  -- margin_padding.rs:145
  | .insetBlock => some ⟨[[.insetBlockStart], [.insetBlockEnd]], false⟩
  -- margin_padding.rs:155
  | .insetInline => some ⟨[[.insetInlineStart], [.insetInlineEnd]], false⟩
  -- margin_padding.rs:55
  | .inset => some ⟨[[.top], [.right], [.bottom], [.left]], false⟩
  -- border_radius.rs:20
  | .borderRadius => some ⟨[[.borderTopLeftRadius], [.borderTopRightRadius], [.borderBottomRightRadius], [.borderBottomLeftRadius]], false⟩
  -- border_image.rs:190
  | .borderImage => some ⟨[[.borderImageSource], [.borderImageSlice], [.borderImageWidth], [.borderImageOutset], [.borderImageRepeat]], false⟩
  -- border.rs:398
  | .borderColor => some ⟨[[.borderTopColor], [.borderRightColor], [.borderBottomColor], [.borderLeftColor]], false⟩
  -- border.rs:408
  | .borderStyle => some ⟨[[.borderTopStyle], [.borderRightStyle], [.borderBottomStyle], [.borderLeftStyle]], false⟩
  -- border.rs:418
  | .borderWidth => some ⟨[[.borderTopWidth], [.borderRightWidth], [.borderBottomWidth], [.borderLeftWidth]], false⟩
  -- border.rs:338
  | .borderBlockColor => some ⟨[[.borderBlockStartColor], [.borderBlockEndColor]], false⟩
  -- border.rs:348
  | .borderBlockStyle => some ⟨[[.borderBlockStartStyle], [.borderBlockEndStyle]], false⟩
  -- border.rs:358
  | .borderBlockWidth => some ⟨[[.borderBlockStartWidth], [.borderBlockEndWidth]], false⟩
  -- border.rs:368
  | .borderInlineColor => some ⟨[[.borderInlineStartColor], [.borderInlineEndColor]], false⟩
  -- border.rs:378
  | .borderInlineStyle => some ⟨[[.borderInlineStartStyle], [.borderInlineEndStyle]], false⟩
  -- border.rs:388
  | .borderInlineWidth => some ⟨[[.borderInlineStartWidth], [.borderInlineEndWidth]], false⟩
  -- border.rs:330
  | .border => some ⟨[[.borderTopWidth, .borderRightWidth, .borderBottomWidth, .borderLeftWidth], [.borderTopStyle, .borderRightStyle, .borderBottomStyle, .borderLeftStyle], [.borderTopColor, .borderRightColor, .borderBottomColor, .borderLeftColor]], false⟩
  -- border.rs:250
  | .borderTop => some ⟨[[.borderTopWidth], [.borderTopStyle], [.borderTopColor]], false⟩
  -- border.rs:266
  | .borderBottom => some ⟨[[.borderBottomWidth], [.borderBottomStyle], [.borderBottomColor]], false⟩
  -- border.rs:274
  | .borderLeft => some ⟨[[.borderLeftWidth], [.borderLeftStyle], [.borderLeftColor]], false⟩
  -- border.rs:258
  | .borderRight => some ⟨[[.borderRightWidth], [.borderRightStyle], [.borderRightColor]], false⟩
  -- border.rs:314
  | .borderBlock => some ⟨[[.borderBlockStartWidth, .borderBlockEndWidth], [.borderBlockStartStyle, .borderBlockEndStyle], [.borderBlockStartColor, .borderBlockEndColor]], false⟩
  -- border.rs:282
  | .borderBlockStart => some ⟨[[.borderBlockStartWidth], [.borderBlockStartStyle], [.borderBlockStartColor]], false⟩
  -- border.rs:290
  | .borderBlockEnd => some ⟨[[.borderBlockEndWidth], [.borderBlockEndStyle], [.borderBlockEndColor]], false⟩
  -- border.rs:322
  | .borderInline => some ⟨[[.borderInlineStartWidth, .borderInlineEndWidth], [.borderInlineStartStyle, .borderInlineEndStyle], [.borderInlineStartColor, .borderInlineEndColor]], false⟩
  -- border.rs:298
  | .borderInlineStart => some ⟨[[.borderInlineStartWidth], [.borderInlineStartStyle], [.borderInlineStartColor]], false⟩
  -- border.rs:306
  | .borderInlineEnd => some ⟨[[.borderInlineEndWidth], [.borderInlineEndStyle], [.borderInlineEndColor]], false⟩
  -- outline.rs:49
  | .outline => some ⟨[[.outlineWidth], [.outlineStyle], [.outlineColor]], false⟩
  -- flex.rs:68
  | .flexFlow => some ⟨[[.flexDirection], [.flexWrap]], false⟩
  -- flex.rs:127
  | .flex => some ⟨[[.flexGrow], [.flexShrink], [.flexBasis]], false⟩
  -- align.rs:243
  | .placeContent => some ⟨[[.alignContent], [.justifyContent]], false⟩
  -- align.rs:468
  | .placeSelf => some ⟨[[.alignSelf], [.justifySelf]], false⟩
  -- align.rs:738
  | .placeItems => some ⟨[[.alignItems], [.justifyItems]], false⟩
  -- align.rs:816
  | .gap => some ⟨[[.rowGap], [.columnGap]], false⟩
  -- grid.rs:926
  | .gridTemplate => some ⟨[[.gridTemplateRows], [.gridTemplateColumns], [.gridTemplateAreas]], false⟩
  -- grid.rs:1332
  | .grid => some ⟨[[.gridTemplateRows], [.gridTemplateColumns], [.gridTemplateAreas], [.gridAutoRows], [.gridAutoColumns], [.gridAutoFlow]], false⟩
  -- grid.rs:1517
  | .gridRow => some ⟨[[.gridRowStart], [.gridRowEnd]], false⟩
  -- grid.rs:1529
  | .gridColumn => some ⟨[[.gridColumnStart], [.gridColumnEnd]], false⟩
  -- grid.rs:1544
  | .gridArea => some ⟨[[.gridRowStart], [.gridColumnStart], [.gridRowEnd], [.gridColumnEnd]], false⟩
  -- margin_padding.rs:65
  | .marginBlock => some ⟨[[.marginBlockStart], [.marginBlockEnd]], false⟩
  -- margin_padding.rs:75
  | .marginInline => some ⟨[[.marginInlineStart], [.marginInlineEnd]], false⟩
  -- margin_padding.rs:15
  | .margin => some ⟨[[.marginTop], [.marginRight], [.marginBottom], [.marginLeft]], false⟩
  -- margin_padding.rs:85
  | .paddingBlock => some ⟨[[.paddingBlockStart], [.paddingBlockEnd]], false⟩
  -- margin_padding.rs:95
  | .paddingInline => some ⟨[[.paddingInlineStart], [.paddingInlineEnd]], false⟩
  -- margin_padding.rs:25
  | .padding => some ⟨[[.paddingTop], [.paddingRight], [.paddingBottom], [.paddingLeft]], false⟩
  -- margin_padding.rs:105
  | .scrollMarginBlock => some ⟨[[.scrollMarginBlockStart], [.scrollMarginBlockEnd]], false⟩
  -- margin_padding.rs:115
  | .scrollMarginInline => some ⟨[[.scrollMarginInlineStart], [.scrollMarginInlineEnd]], false⟩
  -- margin_padding.rs:35
  | .scrollMargin => some ⟨[[.scrollMarginTop], [.scrollMarginRight], [.scrollMarginBottom], [.scrollMarginLeft]], false⟩
  -- margin_padding.rs:125
  | .scrollPaddingBlock => some ⟨[[.scrollPaddingBlockStart], [.scrollPaddingBlockEnd]], false⟩
  -- margin_padding.rs:135
  | .scrollPaddingInline => some ⟨[[.scrollPaddingInlineStart], [.scrollPaddingInlineEnd]], false⟩
  -- margin_padding.rs:45
  | .scrollPadding => some ⟨[[.scrollPaddingTop], [.scrollPaddingRight], [.scrollPaddingBottom], [.scrollPaddingLeft]], false⟩
  -- font.rs:660
  | .font => some ⟨[[.fontFamily], [.fontSize], [.fontStyle], [.fontWeight], [.fontStretch], [.lineHeight], [.fontVariantCaps]], false⟩
  -- transition.rs:22
  | .transition => some ⟨[[.transitionProperty], [.transitionDuration], [.transitionDelay], [.transitionTimingFunction]], true⟩
  -- animation.rs:584
  | .animation => some ⟨[[.animationName], [.animationDuration], [.animationTimingFunction], [.animationIterationCount], [.animationDirection], [.animationPlayState], [.animationDelay], [.animationFillMode], [.animationTimeline]], true⟩
  -- text.rs:725
  | .textDecoration => some ⟨[[.textDecorationLine], [.textDecorationThickness], [.textDecorationStyle], [.textDecorationColor]], false⟩
  -- text.rs:949
  | .textEmphasis => some ⟨[[.textEmphasisStyle], [.textEmphasisColor]], false⟩
  -- ui.rs:245
  | .caret => some ⟨[[.caretColor], [.caretShape]], false⟩
  -- list.rs:332
  | .listStyle => some ⟨[[.listStylePosition], [.listStyleImage], [.listStyleType]], false⟩
  -- masking.rs:200
  | .mask => some ⟨[[.maskImage], [.maskPosition], [.maskSize], [.maskRepeat], [.maskClip], [.maskOrigin], [.maskComposite], [.maskMode]], true⟩
  -- masking.rs:469
  | .maskBorder => some ⟨[[.maskBorderSource], [.maskBorderSlice], [.maskBorderWidth], [.maskBorderOutset], [.maskBorderRepeat], [.maskBorderMode]], false⟩
  -- contain.rs:122
  | .container => some ⟨[[.containerName], [.containerType]], false⟩
  | _ => none

/-- All properties. -/
def Pr.all : List Pr := [.backgroundColor, .backgroundImage, .backgroundPositionX, .backgroundPositionY, .backgroundPosition, .backgroundSize, .backgroundRepeat, .backgroundAttachment, .backgroundClip, .backgroundOrigin, .background, .boxShadow, .opacity, .color, .display, .visibility, .width, .height, .minWidth, .minHeight, .maxWidth, .maxHeight, .blockSize, .inlineSize, .minBlockSize, .minInlineSize, .maxBlockSize, .maxInlineSize, .boxSizing, .aspectRatio, .overflow, .overflowX, .overflowY, .textOverflow, .position, .top, .bottom, .left, .right, .insetBlockStart, .insetBlockEnd, .insetInlineStart, .insetInlineEnd, .insetBlock, .insetInline, .inset, .borderSpacing, .borderTopColor, .borderBottomColor, .borderLeftColor, .borderRightColor, .borderBlockStartColor, .borderBlockEndColor, .borderInlineStartColor, .borderInlineEndColor, .borderTopStyle, .borderBottomStyle, .borderLeftStyle, .borderRightStyle, .borderBlockStartStyle, .borderBlockEndStyle, .borderInlineStartStyle, .borderInlineEndStyle, .borderTopWidth, .borderBottomWidth, .borderLeftWidth, .borderRightWidth, .borderBlockStartWidth, .borderBlockEndWidth, .borderInlineStartWidth, .borderInlineEndWidth, .borderTopLeftRadius, .borderTopRightRadius, .borderBottomLeftRadius, .borderBottomRightRadius, .borderStartStartRadius, .borderStartEndRadius, .borderEndStartRadius, .borderEndEndRadius, .borderRadius, .borderImageSource, .borderImageOutset, .borderImageRepeat, .borderImageWidth, .borderImageSlice, .borderImage, .borderColor, .borderStyle, .borderWidth, .borderBlockColor, .borderBlockStyle, .borderBlockWidth, .borderInlineColor, .borderInlineStyle, .borderInlineWidth, .border, .borderTop, .borderBottom, .borderLeft, .borderRight, .borderBlock, .borderBlockStart, .borderBlockEnd, .borderInline, .borderInlineStart, .borderInlineEnd, .outline, .outlineColor, .outlineStyle, .outlineWidth, .flexDirection, .flexWrap, .flexFlow, .flexGrow, .flexShrink, .flexBasis, .flex, .order, .alignContent, .justifyContent, .placeContent, .alignSelf, .justifySelf, .placeSelf, .alignItems, .justifyItems, .placeItems, .rowGap, .columnGap, .gap, .boxOrient, .boxDirection, .boxOrdinalGroup, .boxAlign, .boxFlex, .boxFlexGroup, .boxPack, .boxLines, .flexPack, .flexOrder, .flexAlign, .flexItemAlign, .flexLinePack, .flexPositive, .flexNegative, .flexPreferredSize, .gridTemplateColumns, .gridTemplateRows, .gridAutoColumns, .gridAutoRows, .gridAutoFlow, .gridTemplateAreas, .gridTemplate, .grid, .gridRowStart, .gridRowEnd, .gridColumnStart, .gridColumnEnd, .gridRow, .gridColumn, .gridArea, .marginTop, .marginBottom, .marginLeft, .marginRight, .marginBlockStart, .marginBlockEnd, .marginInlineStart, .marginInlineEnd, .marginBlock, .marginInline, .margin, .paddingTop, .paddingBottom, .paddingLeft, .paddingRight, .paddingBlockStart, .paddingBlockEnd, .paddingInlineStart, .paddingInlineEnd, .paddingBlock, .paddingInline, .padding, .scrollMarginTop, .scrollMarginBottom, .scrollMarginLeft, .scrollMarginRight, .scrollMarginBlockStart, .scrollMarginBlockEnd, .scrollMarginInlineStart, .scrollMarginInlineEnd, .scrollMarginBlock, .scrollMarginInline, .scrollMargin, .scrollPaddingTop, .scrollPaddingBottom, .scrollPaddingLeft, .scrollPaddingRight, .scrollPaddingBlockStart, .scrollPaddingBlockEnd, .scrollPaddingInlineStart, .scrollPaddingInlineEnd, .scrollPaddingBlock, .scrollPaddingInline, .scrollPadding, .fontWeight, .fontSize, .fontStretch, .fontFamily, .fontStyle, .fontVariantCaps, .lineHeight, .font, .verticalAlign, .fontPalette, .transitionProperty, .transitionDuration, .transitionDelay, .transitionTimingFunction, .transition, .animationName, .animationDuration, .animationTimingFunction, .animationIterationCount, .animationDirection, .animationPlayState, .animationDelay, .animationFillMode, .animationComposition, .animationTimeline, .animationRangeStart, .animationRangeEnd, .animationRange, .animation, .transform, .transformStyle, .transformBox, .backfaceVisibility, .perspective, .perspectiveOrigin, .translate, .rotate, .scale, .textTransform, .whiteSpace, .tabSize, .wordBreak, .lineBreak, .hyphens, .overflowWrap, .wordWrap, .textAlign, .textAlignLast, .textJustify, .wordSpacing, .letterSpacing, .textIndent, .textDecorationLine, .textDecorationStyle, .textDecorationColor, .textDecorationThickness, .textDecoration, .textDecorationSkipInk, .textEmphasisStyle, .textEmphasisColor, .textEmphasis, .textEmphasisPosition, .textShadow, .textSizeAdjust, .direction, .unicodeBidi, .boxDecorationBreak, .resize, .cursor, .caretColor, .caretShape, .caret, .userSelect, .accentColor, .appearance, .listStyleType, .listStyleImage, .listStylePosition, .listStyle, .markerSide, .composes, .fill, .fillRule, .fillOpacity, .stroke, .strokeOpacity, .strokeWidth, .strokeLinecap, .strokeLinejoin, .strokeMiterlimit, .strokeDasharray, .strokeDashoffset, .markerStart, .markerMid, .markerEnd, .marker, .colorInterpolation, .colorInterpolationFilters, .colorRendering, .shapeRendering, .textRendering, .imageRendering, .clipPath, .clipRule, .maskImage, .maskMode, .maskRepeat, .maskPositionX, .maskPositionY, .maskPosition, .maskClip, .maskOrigin, .maskSize, .maskComposite, .maskType, .mask, .maskBorderSource, .maskBorderMode, .maskBorderSlice, .maskBorderWidth, .maskBorderOutset, .maskBorderRepeat, .maskBorder, .webKitMaskComposite, .webKitMaskSourceType, .webKitMaskBoxImage, .webKitMaskBoxImageSource, .webKitMaskBoxImageSlice, .webKitMaskBoxImageWidth, .webKitMaskBoxImageOutset, .webKitMaskBoxImageRepeat, .filter, .backdropFilter, .mixBlendMode, .zIndex, .containerType, .containerName, .container, .viewTransitionName, .viewTransitionClass, .viewTransitionGroup, .colorScheme, .printColorAdjust]

end Verif.Declarations
