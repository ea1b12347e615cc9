import Verif.Targets.Browsers
/-! Generated by tools/gen_tables.py from /repo/src/prefixes.rs. -/
namespace Verif.Targets

/-- src/prefixes.rs:7-192 `Feature`. -/
inductive PrefixFeature where
  | alignContent
  | alignItems
  | alignSelf
  | animation
  | animationDelay
  | animationDirection
  | animationDuration
  | animationFillMode
  | animationIterationCount
  | animationName
  | animationPlayState
  | animationTimingFunction
  | anyPseudo
  | appearance
  | atKeyframes
  | atResolution
  | atViewport
  | backdropFilter
  | backfaceVisibility
  | backgroundClip
  | backgroundOrigin
  | backgroundSize
  | borderBlockEnd
  | borderBlockStart
  | borderBottomLeftRadius
  | borderBottomRightRadius
  | borderImage
  | borderInlineEnd
  | borderInlineStart
  | borderRadius
  | borderTopLeftRadius
  | borderTopRightRadius
  | boxDecorationBreak
  | boxShadow
  | boxSizing
  | breakAfter
  | breakBefore
  | breakInside
  | calc
  | clipPath
  | colorAdjust
  | columnCount
  | columnFill
  | columnGap
  | columnRule
  | columnRuleColor
  | columnRuleStyle
  | columnRuleWidth
  | columnSpan
  | columnWidth
  | columns
  | crossFade
  | displayFlex
  | displayGrid
  | element
  | fill
  | fillAvailable
  | filter
  | filterFunction
  | fitContent
  | flex
  | flexBasis
  | flexDirection
  | flexFlow
  | flexGrow
  | flexShrink
  | flexWrap
  | flowFrom
  | flowInto
  | fontFeatureSettings
  | fontKerning
  | fontLanguageOverride
  | fontVariantLigatures
  | grab
  | grabbing
  | gridArea
  | gridColumn
  | gridColumnAlign
  | gridColumnEnd
  | gridColumnStart
  | gridRow
  | gridRowAlign
  | gridRowEnd
  | gridRowStart
  | gridTemplate
  | gridTemplateAreas
  | gridTemplateColumns
  | gridTemplateRows
  | hyphens
  | imageRendering
  | imageSet
  | inlineFlex
  | inlineGrid
  | isolate
  | isolateOverride
  | justifyContent
  | linearGradient
  | marginBlockEnd
  | marginBlockStart
  | marginInlineEnd
  | marginInlineStart
  | mask
  | maskBorder
  | maskBorderOutset
  | maskBorderRepeat
  | maskBorderSlice
  | maskBorderSource
  | maskBorderWidth
  | maskClip
  | maskComposite
  | maskImage
  | maskOrigin
  | maskPosition
  | maskRepeat
  | maskSize
  | maxContent
  | minContent
  | objectFit
  | objectPosition
  | order
  | overscrollBehavior
  | paddingBlockEnd
  | paddingBlockStart
  | paddingInlineEnd
  | paddingInlineStart
  | perspective
  | perspectiveOrigin
  | pixelated
  | placeSelf
  | plaintext
  | printColorAdjust
  | pseudoClassAnyLink
  | pseudoClassAutofill
  | pseudoClassFullscreen
  | pseudoClassPlaceholderShown
  | pseudoClassReadOnly
  | pseudoClassReadWrite
  | pseudoElementBackdrop
  | pseudoElementFileSelectorButton
  | pseudoElementPlaceholder
  | pseudoElementSelection
  | radialGradient
  | regionFragment
  | repeatingLinearGradient
  | repeatingRadialGradient
  | scrollSnapCoordinate
  | scrollSnapDestination
  | scrollSnapPointsX
  | scrollSnapPointsY
  | scrollSnapType
  | shapeImageThreshold
  | shapeMargin
  | shapeOutside
  | sticky
  | stretch
  | tabSize
  | textAlignLast
  | textDecoration
  | textDecorationColor
  | textDecorationLine
  | textDecorationSkip
  | textDecorationSkipInk
  | textDecorationStyle
  | textEmphasis
  | textEmphasisColor
  | textEmphasisPosition
  | textEmphasisStyle
  | textOrientation
  | textOverflow
  | textSizeAdjust
  | textSpacing
  | touchAction
  | transform
  | transformOrigin
  | transformStyle
  | transition
  | transitionDelay
  | transitionDuration
  | transitionProperty
  | transitionTimingFunction
  | userSelect
  | writingMode
  | zoomIn
  | zoomOut
deriving DecidableEq, Repr

/-- src/prefixes.rs:195-2240, the body of `prefixes_for`: one rule per `prefixes |= ..` statement, in order. `version <= b` has lower bound 0, `version == a` has both bounds `a`, `is_some()` has bounds 0 and none. -/
def PrefixFeature.rules : PrefixFeature → List PrefixRule
  -- lines 198-228
  | .borderRadius | .borderTopLeftRadius | .borderTopRightRadius | .borderBottomRightRadius | .borderBottomLeftRadius =>
    [⟨.android, 0, (some 131328), .webkit⟩, ⟨.chrome, 0, (some 262144), .webkit⟩, ⟨.firefox, 131072, (some 198144), .moz⟩, ⟨.iosSaf, 0, (some 197120), .webkit⟩, ⟨.safari, 196864, (some 262144), .webkit⟩]
  -- lines 229-255
  | .boxShadow =>
    [⟨.android, 131328, (some 196608), .webkit⟩, ⟨.chrome, 262144, (some 589824), .webkit⟩, ⟨.firefox, 197888, (some 198144), .moz⟩, ⟨.iosSaf, 197120, (some 262656), .webkit⟩, ⟨.safari, 196864, (some 327680), .webkit⟩]
  -- lines 256-299
  | .animation | .animationName | .animationDuration | .animationDelay | .animationDirection | .animationFillMode | .animationIterationCount | .animationPlayState | .animationTimingFunction | .atKeyframes =>
    [⟨.android, 131328, (some 263171), .webkit⟩, ⟨.chrome, 262144, (some 2752512), .webkit⟩, ⟨.firefox, 327680, (some 983040), .moz⟩, ⟨.iosSaf, 197120, (some 524544), .webkit⟩, ⟨.opera, 786432, (some 786432), .o⟩, ⟨.opera, 983040, (some 1900544), .webkit⟩, ⟨.safari, 262144, (some 524288), .webkit⟩]
  -- lines 300-335
  | .transition | .transitionProperty | .transitionDuration | .transitionDelay | .transitionTimingFunction =>
    [⟨.android, 131328, (some 262656), .webkit⟩, ⟨.chrome, 262144, (some 1638400), .webkit⟩, ⟨.firefox, 262144, (some 983040), .moz⟩, ⟨.iosSaf, 197120, (some 393216), .webkit⟩, ⟨.opera, 655360, (some 786432), .o⟩, ⟨.safari, 196864, (some 393216), .webkit⟩]
  -- lines 336-375
  | .transform | .transformOrigin =>
    [⟨.android, 131328, (some 263171), .webkit⟩, ⟨.chrome, 262144, (some 2293760), .webkit⟩, ⟨.firefox, 197888, (some 983040), .moz⟩, ⟨.ie, 0, (some 589824), .ms⟩, ⟨.iosSaf, 197120, (some 524544), .webkit⟩, ⟨.opera, 656640, (some 786432), .o⟩, ⟨.opera, 983040, (some 1441792), .webkit⟩, ⟨.safari, 196864, (some 524288), .webkit⟩]
  -- lines 376-407
  | .perspective | .perspectiveOrigin | .transformStyle =>
    [⟨.android, 196608, (some 263171), .webkit⟩, ⟨.chrome, 786432, (some 2293760), .webkit⟩, ⟨.firefox, 655360, (some 983040), .moz⟩, ⟨.iosSaf, 197120, (some 524544), .webkit⟩, ⟨.opera, 983040, (some 1441792), .webkit⟩, ⟨.safari, 262144, (some 524288), .webkit⟩]
  -- lines 408-439
  | .backfaceVisibility =>
    [⟨.android, 196608, (some 263171), .webkit⟩, ⟨.chrome, 786432, (some 2293760), .webkit⟩, ⟨.firefox, 655360, (some 983040), .moz⟩, ⟨.iosSaf, 197120, (some 983552), .webkit⟩, ⟨.opera, 983040, (some 1441792), .webkit⟩, ⟨.safari, 262144, (some 983552), .webkit⟩]
  -- lines 440-474
  | .linearGradient | .repeatingLinearGradient | .radialGradient | .repeatingRadialGradient =>
    [⟨.android, 131328, (some 262656), .webkit⟩, ⟨.chrome, 262144, (some 1638400), .webkit⟩, ⟨.firefox, 198144, (some 983040), .moz⟩, ⟨.iosSaf, 197120, (some 393216), .webkit⟩, ⟨.opera, 721152, (some 786432), .o⟩, ⟨.safari, 262144, (some 393216), .webkit⟩]
  -- lines 475-501
  | .boxSizing =>
    [⟨.android, 131328, (some 196608), .webkit⟩, ⟨.chrome, 262144, (some 589824), .webkit⟩, ⟨.firefox, 131072, (some 1835008), .moz⟩, ⟨.iosSaf, 197120, (some 262656), .webkit⟩, ⟨.safari, 196864, (some 327680), .webkit⟩]
  -- lines 502-533
  | .filter =>
    [⟨.android, 263168, (some 263171), .webkit⟩, ⟨.chrome, 1179648, (some 3407872), .webkit⟩, ⟨.iosSaf, 393216, (some 589824), .webkit⟩, ⟨.opera, 983040, (some 2555904), .webkit⟩, ⟨.safari, 393216, (some 589824), .webkit⟩, ⟨.samsung, 262144, (some 393728), .webkit⟩]
  -- lines 534-545
  | .filterFunction =>
    [⟨.iosSaf, 589824, (some 590592), .webkit⟩, ⟨.safari, 0, (some 589824), .webkit⟩]
  -- lines 546-562
  | .backdropFilter =>
    [⟨.edge, 1114112, (some 1179648), .webkit⟩, ⟨.iosSaf, 589824, (some 1115648), .webkit⟩, ⟨.safari, 589824, (some 1115648), .webkit⟩]
  -- lines 563-569
  | .element =>
    [⟨.firefox, 131072, none, .moz⟩]
  -- lines 570-615
  | .columns | .columnWidth | .columnGap | .columnRule | .columnRuleColor | .columnRuleWidth | .columnCount | .columnRuleStyle | .columnSpan | .columnFill =>
    [⟨.android, 131328, (some 263171), .webkit⟩, ⟨.chrome, 262144, (some 3211264), .webkit⟩, ⟨.firefox, 131072, (some 3342336), .moz⟩, ⟨.iosSaf, 197120, (some 524544), .webkit⟩, ⟨.opera, 983040, (some 2359296), .webkit⟩, ⟨.safari, 196864, (some 524288), .webkit⟩, ⟨.samsung, 0, (some 262144), .webkit⟩]
  -- lines 616-647
  | .breakBefore | .breakAfter | .breakInside =>
    [⟨.android, 131328, (some 263171), .webkit⟩, ⟨.chrome, 262144, (some 3211264), .webkit⟩, ⟨.iosSaf, 197120, (some 524544), .webkit⟩, ⟨.opera, 983040, (some 2359296), .webkit⟩, ⟨.safari, 196864, (some 524288), .webkit⟩, ⟨.samsung, 0, (some 262144), .webkit⟩]
  -- lines 648-694
  | .userSelect =>
    [⟨.android, 131328, (some 263171), .webkit⟩, ⟨.chrome, 262144, (some 3473408), .webkit⟩, ⟨.edge, 786432, (some 1179648), .ms⟩, ⟨.firefox, 131072, (some 4456448), .moz⟩, ⟨.ie, 655360, none, .ms⟩, ⟨.iosSaf, 197120, none, .webkit⟩, ⟨.opera, 983040, (some 2621440), .webkit⟩, ⟨.safari, 196864, none, .webkit⟩, ⟨.samsung, 262144, (some 327680), .webkit⟩]
  -- lines 695-744
  | .displayFlex | .inlineFlex | .flex | .flexGrow | .flexShrink | .flexBasis | .flexDirection | .flexWrap | .flexFlow | .justifyContent | .order | .alignItems | .alignSelf | .alignContent =>
    [⟨.android, 131328, (some 262656), .webkit⟩, ⟨.chrome, 262144, (some 1835008), .webkit⟩, ⟨.firefox, 131072, (some 1376256), .moz⟩, ⟨.ie, 655360, (some 655360), .ms⟩, ⟨.iosSaf, 197120, (some 524544), .webkit⟩, ⟨.opera, 983040, (some 1048576), .webkit⟩, ⟨.safari, 196864, (some 524288), .webkit⟩]
  -- lines 745-766
  | .calc =>
    [⟨.chrome, 1245184, (some 1638400), .webkit⟩, ⟨.firefox, 262144, (some 983040), .moz⟩, ⟨.iosSaf, 0, (some 393216), .webkit⟩, ⟨.safari, 0, (some 393216), .webkit⟩]
  -- lines 767-783
  | .backgroundOrigin | .backgroundSize =>
    [⟨.android, 131328, (some 131840), .webkit⟩, ⟨.firefox, 0, (some 198144), .moz⟩, ⟨.opera, 0, (some 655360), .o⟩]
  -- lines 784-823
  | .backgroundClip =>
    [⟨.android, 262144, (some 263171), .webkit⟩, ⟨.chrome, 262144, (some 7798784), .webkit⟩, ⟨.edge, 786432, (some 917504), .ms⟩, ⟨.edge, 5177344, (some 7798784), .webkit⟩, ⟨.opera, 983040, (some 6881280), .webkit⟩, ⟨.safari, 197120, (some 851968), .webkit⟩, ⟨.samsung, 262144, (some 1572864), .webkit⟩, ⟨.iosSaf, 262144, (some 851968), .webkit⟩]
  -- lines 824-850
  | .fontFeatureSettings | .fontVariantLigatures | .fontLanguageOverride =>
    [⟨.android, 263168, (some 263171), .webkit⟩, ⟨.chrome, 1048576, (some 3080192), .webkit⟩, ⟨.firefox, 262144, (some 2162688), .moz⟩, ⟨.opera, 983040, (some 2228224), .webkit⟩, ⟨.samsung, 0, (some 262144), .webkit⟩]
  -- lines 851-877
  | .fontKerning =>
    [⟨.android, 0, (some 263168), .webkit⟩, ⟨.chrome, 1900544, (some 2097152), .webkit⟩, ⟨.iosSaf, 524288, (some 721664), .webkit⟩, ⟨.opera, 1048576, (some 1245184), .webkit⟩, ⟨.safari, 458752, (some 589824), .webkit⟩]
  -- lines 878-909
  | .borderImage =>
    [⟨.android, 131328, (some 262656), .webkit⟩, ⟨.chrome, 262144, (some 917504), .webkit⟩, ⟨.firefox, 197888, (some 917504), .moz⟩, ⟨.iosSaf, 197120, (some 327680), .webkit⟩, ⟨.opera, 720896, (some 786688), .o⟩, ⟨.safari, 196864, (some 327936), .webkit⟩]
  -- lines 910-916
  | .pseudoElementSelection =>
    [⟨.firefox, 131072, (some 3997696), .moz⟩]
  -- lines 917-963
  | .pseudoElementPlaceholder =>
    [⟨.android, 131328, (some 263171), .webkit⟩, ⟨.chrome, 262144, (some 3670016), .webkit⟩, ⟨.edge, 786432, (some 1179648), .ms⟩, ⟨.firefox, 1179648, (some 3276800), .moz⟩, ⟨.ie, 655360, none, .ms⟩, ⟨.iosSaf, 262656, (some 655360), .webkit⟩, ⟨.opera, 983040, (some 2818048), .webkit⟩, ⟨.safari, 327680, (some 655360), .webkit⟩, ⟨.samsung, 262144, (some 393728), .webkit⟩]
  -- lines 964-975
  | .pseudoClassPlaceholderShown =>
    [⟨.firefox, 262144, (some 3276800), .moz⟩, ⟨.ie, 655360, none, .ms⟩]
  -- lines 976-1002
  | .hyphens =>
    [⟨.edge, 786432, (some 1179648), .ms⟩, ⟨.firefox, 393216, (some 2752512), .moz⟩, ⟨.ie, 655360, none, .ms⟩, ⟨.iosSaf, 262656, (some 1050112), .webkit⟩, ⟨.safari, 327936, (some 1050112), .webkit⟩]
  -- lines 1003-1034
  | .pseudoClassFullscreen =>
    [⟨.chrome, 983040, (some 4587520), .webkit⟩, ⟨.firefox, 655360, (some 4128768), .moz⟩, ⟨.ie, 720896, none, .ms⟩, ⟨.opera, 983040, (some 4128768), .webkit⟩, ⟨.safari, 327936, (some 1049344), .webkit⟩, ⟨.samsung, 262144, (some 590336), .webkit⟩]
  -- lines 1035-1059
  | .pseudoElementBackdrop =>
    [⟨.android, 263168, (some 263171), .webkit⟩, ⟨.chrome, 2097152, (some 2359296), .webkit⟩, ⟨.edge, 786432, (some 1179648), .ms⟩, ⟨.ie, 0, none, .ms⟩, ⟨.opera, 1245184, (some 1507328), .webkit⟩]
  -- lines 1060-1104
  | .pseudoElementFileSelectorButton =>
    [⟨.android, 263168, (some 263171), .webkit⟩, ⟨.chrome, 262144, (some 5767168), .webkit⟩, ⟨.edge, 786432, (some 1179648), .ms⟩, ⟨.edge, 5177344, (some 5767168), .webkit⟩, ⟨.ie, 655360, none, .ms⟩, ⟨.iosSaf, 197120, (some 917504), .webkit⟩, ⟨.opera, 983040, (some 4849664), .webkit⟩, ⟨.safari, 196864, (some 917504), .webkit⟩, ⟨.samsung, 262144, (some 917504), .webkit⟩]
  -- lines 1105-1141
  | .pseudoClassAutofill =>
    [⟨.android, 263168, (some 263171), .webkit⟩, ⟨.chrome, 262144, (some 7143424), .webkit⟩, ⟨.edge, 5177344, (some 7143424), .webkit⟩, ⟨.iosSaf, 197120, (some 918784), .webkit⟩, ⟨.opera, 983040, (some 6225920), .webkit⟩, ⟨.safari, 196864, (some 917760), .webkit⟩, ⟨.samsung, 262144, (some 1310720), .webkit⟩]
  -- lines 1142-1153
  | .tabSize =>
    [⟨.firefox, 262144, (some 5898240), .moz⟩, ⟨.opera, 656896, (some 786688), .o⟩]
  -- lines 1154-1190
  | .maxContent | .minContent =>
    [⟨.android, 263168, (some 263171), .webkit⟩, ⟨.chrome, 1441792, (some 2949120), .webkit⟩, ⟨.firefox, 196608, (some 4259840), .moz⟩, ⟨.iosSaf, 458752, (some 852992), .webkit⟩, ⟨.opera, 983040, (some 2097152), .webkit⟩, ⟨.safari, 393472, (some 655616), .webkit⟩, ⟨.samsung, 0, (some 262144), .webkit⟩]
  -- lines 1191-1232
  | .fill | .fillAvailable =>
    [⟨.chrome, 1441792, none, .webkit⟩, ⟨.android, 263168, none, .webkit⟩, ⟨.edge, 5177344, none, .webkit⟩, ⟨.firefox, 196608, (some 4259840), .moz⟩, ⟨.iosSaf, 458752, (some 852992), .webkit⟩, ⟨.opera, 983040, none, .webkit⟩, ⟨.safari, 393472, (some 655616), .webkit⟩, ⟨.samsung, 262144, none, .webkit⟩]
  -- lines 1233-1269
  | .fitContent =>
    [⟨.android, 263168, (some 263171), .webkit⟩, ⟨.chrome, 1441792, (some 2949120), .webkit⟩, ⟨.firefox, 196608, (some 6094848), .moz⟩, ⟨.iosSaf, 458752, (some 852992), .webkit⟩, ⟨.opera, 983040, (some 2097152), .webkit⟩, ⟨.safari, 393472, (some 655616), .webkit⟩, ⟨.samsung, 0, (some 262144), .webkit⟩]
  -- lines 1270-1311
  | .stretch =>
    [⟨.firefox, 196608, none, .moz⟩, ⟨.android, 263168, (some 263171), .webkit⟩, ⟨.chrome, 1441792, (some 8978432), .webkit⟩, ⟨.edge, 5177344, (some 8978432), .webkit⟩, ⟨.iosSaf, 458752, none, .webkit⟩, ⟨.opera, 983040, none, .webkit⟩, ⟨.safari, 393472, none, .webkit⟩, ⟨.samsung, 262144, none, .webkit⟩]
  -- lines 1312-1333
  | .zoomIn | .zoomOut =>
    [⟨.chrome, 262144, (some 2359296), .webkit⟩, ⟨.firefox, 131072, (some 1507328), .moz⟩, ⟨.opera, 983040, (some 1507328), .webkit⟩, ⟨.safari, 196864, (some 524288), .webkit⟩]
  -- lines 1334-1355
  | .grab | .grabbing =>
    [⟨.chrome, 262144, (some 4390912), .webkit⟩, ⟨.firefox, 131072, (some 1703936), .moz⟩, ⟨.opera, 983040, (some 3538944), .webkit⟩, ⟨.safari, 196864, (some 655616), .webkit⟩]
  -- lines 1356-1367
  | .sticky =>
    [⟨.iosSaf, 393216, (some 786944), .webkit⟩, ⟨.safari, 393472, (some 786688), .webkit⟩]
  -- lines 1368-1374
  | .touchAction =>
    [⟨.ie, 655360, (some 655360), .ms⟩]
  -- lines 1375-1386
  | .textDecorationSkip | .textDecorationSkipInk =>
    [⟨.iosSaf, 524288, none, .webkit⟩, ⟨.safari, 459008, (some 786432), .webkit⟩]
  -- lines 1387-1398
  | .textDecoration =>
    [⟨.iosSaf, 524288, (some 1704192), .webkit⟩, ⟨.safari, 524288, (some 1704192), .webkit⟩]
  -- lines 1399-1415
  | .textDecorationColor | .textDecorationLine | .textDecorationStyle =>
    [⟨.firefox, 393216, (some 2293760), .moz⟩, ⟨.iosSaf, 524288, (some 786432), .webkit⟩, ⟨.safari, 524288, (some 786432), .webkit⟩]
  -- lines 1416-1435
  | .textSizeAdjust =>
    [⟨.firefox, 0, none, .moz⟩, ⟨.edge, 786432, (some 1179648), .ms⟩, ⟨.ie, 655360, none, .ms⟩, ⟨.iosSaf, 327680, none, .webkit⟩]
  -- lines 1436-1485
  | .maskClip | .maskComposite | .maskImage | .maskOrigin | .maskRepeat | .maskBorderRepeat | .maskBorderSource | .mask | .maskPosition | .maskSize | .maskBorder | .maskBorderOutset | .maskBorderWidth | .maskBorderSlice =>
    [⟨.android, 131328, (some 263171), .webkit⟩, ⟨.chrome, 262144, (some 7798784), .webkit⟩, ⟨.edge, 5177344, (some 7798784), .webkit⟩, ⟨.iosSaf, 197120, (some 983552), .webkit⟩, ⟨.opera, 983040, (some 6881280), .webkit⟩, ⟨.safari, 262144, (some 983552), .webkit⟩, ⟨.samsung, 262144, (some 1572864), .webkit⟩]
  -- lines 1486-1517
  | .clipPath =>
    [⟨.android, 263168, (some 263171), .webkit⟩, ⟨.chrome, 1572864, (some 3538944), .webkit⟩, ⟨.iosSaf, 458752, (some 589824), .webkit⟩, ⟨.opera, 983040, (some 2686976), .webkit⟩, ⟨.safari, 458752, (some 589824), .webkit⟩, ⟨.samsung, 262144, (some 327680), .webkit⟩]
  -- lines 1518-1554
  | .boxDecorationBreak =>
    [⟨.android, 263168, (some 263171), .webkit⟩, ⟨.chrome, 1441792, (some 8454144), .webkit⟩, ⟨.edge, 5177344, (some 8454144), .webkit⟩, ⟨.iosSaf, 458752, none, .webkit⟩, ⟨.opera, 983040, none, .webkit⟩, ⟨.safari, 393472, none, .webkit⟩, ⟨.samsung, 262144, none, .webkit⟩]
  -- lines 1555-1561
  | .objectFit | .objectPosition =>
    [⟨.opera, 656896, (some 786688), .o⟩]
  -- lines 1562-1573
  | .shapeMargin | .shapeOutside | .shapeImageThreshold =>
    [⟨.iosSaf, 524288, (some 655360), .webkit⟩, ⟨.safari, 459008, (some 655360), .webkit⟩]
  -- lines 1574-1580
  | .textOverflow =>
    [⟨.opera, 589824, (some 786432), .o⟩]
  -- lines 1581-1597
  | .atViewport =>
    [⟨.edge, 786432, (some 1179648), .ms⟩, ⟨.ie, 655360, none, .ms⟩, ⟨.opera, 720896, (some 786688), .o⟩]
  -- lines 1598-1629
  | .atResolution =>
    [⟨.android, 131840, (some 262656), .webkit⟩, ⟨.chrome, 262144, (some 1835008), .webkit⟩, ⟨.firefox, 197888, (some 983040), .moz⟩, ⟨.iosSaf, 262144, (some 984576), .webkit⟩, ⟨.opera, 591104, (some 786432), .o⟩, ⟨.safari, 262144, (some 984576), .webkit⟩]
  -- lines 1630-1636
  | .textAlignLast =>
    [⟨.firefox, 786432, (some 3145728), .moz⟩]
  -- lines 1637-1658
  | .pixelated =>
    [⟨.firefox, 198144, (some 4194304), .moz⟩, ⟨.iosSaf, 327680, (some 393216), .webkit⟩, ⟨.opera, 722432, (some 786688), .o⟩, ⟨.safari, 0, (some 393216), .webkit⟩]
  -- lines 1659-1665
  | .imageRendering =>
    [⟨.ie, 458752, none, .ms⟩]
  -- lines 1666-1707
  | .borderInlineStart | .borderInlineEnd | .marginInlineStart | .marginInlineEnd | .paddingInlineStart | .paddingInlineEnd =>
    [⟨.android, 131328, (some 263171), .webkit⟩, ⟨.chrome, 262144, (some 4456448), .webkit⟩, ⟨.firefox, 196608, (some 2621440), .moz⟩, ⟨.iosSaf, 197120, (some 786432), .webkit⟩, ⟨.opera, 983040, (some 3604480), .webkit⟩, ⟨.safari, 196864, (some 786432), .webkit⟩, ⟨.samsung, 262144, (some 590336), .webkit⟩]
  -- lines 1708-1744
  | .borderBlockStart | .borderBlockEnd | .marginBlockStart | .marginBlockEnd | .paddingBlockStart | .paddingBlockEnd =>
    [⟨.android, 131328, (some 263171), .webkit⟩, ⟨.chrome, 262144, (some 4456448), .webkit⟩, ⟨.iosSaf, 197120, (some 786432), .webkit⟩, ⟨.opera, 983040, (some 3604480), .webkit⟩, ⟨.safari, 196864, (some 786432), .webkit⟩, ⟨.samsung, 262144, (some 590336), .webkit⟩]
  -- lines 1745-1792
  | .appearance =>
    [⟨.android, 131328, (some 263171), .webkit⟩, ⟨.chrome, 262144, (some 5439488), .webkit⟩, ⟨.edge, 786432, (some 1179648), .ms⟩, ⟨.edge, 5177344, (some 5439488), .webkit⟩, ⟨.firefox, 131072, (some 5177344), .moz⟩, ⟨.ie, 0, none, .ms⟩, ⟨.iosSaf, 197120, (some 983552), .webkit⟩, ⟨.opera, 983040, (some 4718592), .webkit⟩, ⟨.safari, 196864, (some 983552), .webkit⟩, ⟨.samsung, 262144, (some 851968), .webkit⟩]
  -- lines 1793-1818
  | .scrollSnapType | .scrollSnapCoordinate | .scrollSnapDestination | .scrollSnapPointsX | .scrollSnapPointsY =>
    [⟨.edge, 786432, (some 1179648), .ms⟩, ⟨.ie, 655360, none, .ms⟩, ⟨.iosSaf, 589824, (some 656128), .webkit⟩, ⟨.safari, 589824, (some 655616), .webkit⟩]
  -- lines 1819-1845
  | .flowInto | .flowFrom | .regionFragment =>
    [⟨.chrome, 983040, (some 1179648), .webkit⟩, ⟨.edge, 786432, (some 1179648), .ms⟩, ⟨.ie, 655360, none, .ms⟩, ⟨.iosSaf, 458752, (some 720896), .webkit⟩, ⟨.safari, 393472, (some 720896), .webkit⟩]
  -- lines 1846-1882
  | .imageSet =>
    [⟨.android, 263168, (some 263171), .webkit⟩, ⟨.chrome, 1376256, (some 7340032), .webkit⟩, ⟨.edge, 5177344, (some 7340032), .webkit⟩, ⟨.iosSaf, 393216, (some 590592), .webkit⟩, ⟨.opera, 983040, (some 6422528), .webkit⟩, ⟨.safari, 393216, (some 590080), .webkit⟩, ⟨.samsung, 262144, (some 1441792), .webkit⟩]
  -- lines 1883-1919
  | .writingMode =>
    [⟨.android, 196608, (some 263171), .webkit⟩, ⟨.chrome, 524288, (some 3080192), .webkit⟩, ⟨.ie, 328960, none, .ms⟩, ⟨.iosSaf, 327680, (some 656128), .webkit⟩, ⟨.opera, 983040, (some 2228224), .webkit⟩, ⟨.safari, 327936, (some 655616), .webkit⟩, ⟨.samsung, 0, (some 262144), .webkit⟩]
  -- lines 1920-1956
  | .crossFade =>
    [⟨.chrome, 1114112, none, .webkit⟩, ⟨.android, 263168, none, .webkit⟩, ⟨.edge, 5177344, none, .webkit⟩, ⟨.iosSaf, 327680, (some 590592), .webkit⟩, ⟨.opera, 983040, none, .webkit⟩, ⟨.safari, 327936, (some 590080), .webkit⟩, ⟨.samsung, 262144, none, .webkit⟩]
  -- lines 1957-1963
  | .pseudoClassReadOnly | .pseudoClassReadWrite =>
    [⟨.firefox, 196608, (some 5046272), .moz⟩]
  -- lines 1964-1998
  | .textEmphasis | .textEmphasisPosition | .textEmphasisStyle | .textEmphasisColor =>
    [⟨.android, 263168, (some 263171), .webkit⟩, ⟨.chrome, 1638400, (some 6422528), .webkit⟩, ⟨.edge, 5177344, (some 6422528), .webkit⟩, ⟨.opera, 983040, (some 5570560), .webkit⟩, ⟨.safari, 393472, (some 458752), .webkit⟩, ⟨.samsung, 262144, (some 1114112), .webkit⟩]
  -- lines 1999-2025
  | .displayGrid | .inlineGrid | .gridTemplateColumns | .gridTemplateRows | .gridRowStart | .gridColumnStart | .gridRowEnd | .gridColumnEnd | .gridRow | .gridColumn | .gridArea | .gridTemplate | .gridTemplateAreas | .placeSelf | .gridColumnAlign | .gridRowAlign =>
    [⟨.edge, 786432, (some 983040), .ms⟩, ⟨.ie, 655360, none, .ms⟩]
  -- lines 2026-2037
  | .textSpacing =>
    [⟨.edge, 786432, (some 1179648), .ms⟩, ⟨.ie, 524288, none, .ms⟩]
  -- lines 2038-2074
  | .pseudoClassAnyLink =>
    [⟨.android, 263168, (some 263171), .webkit⟩, ⟨.chrome, 983040, (some 4194304), .webkit⟩, ⟨.firefox, 196608, (some 3211264), .moz⟩, ⟨.iosSaf, 393216, (some 524544), .webkit⟩, ⟨.opera, 983040, (some 3342336), .webkit⟩, ⟨.safari, 393472, (some 524288), .webkit⟩, ⟨.samsung, 327680, (some 524800), .webkit⟩]
  -- lines 2075-2101
  | .isolate =>
    [⟨.chrome, 1048576, (some 3080192), .webkit⟩, ⟨.firefox, 655360, (some 3211264), .moz⟩, ⟨.iosSaf, 393216, (some 656128), .webkit⟩, ⟨.opera, 983040, (some 2228224), .webkit⟩, ⟨.safari, 393216, (some 655616), .webkit⟩]
  -- lines 2102-2118
  | .plaintext =>
    [⟨.firefox, 655360, (some 3211264), .moz⟩, ⟨.iosSaf, 393216, (some 656128), .webkit⟩, ⟨.safari, 393216, (some 655616), .webkit⟩]
  -- lines 2119-2135
  | .isolateOverride =>
    [⟨.firefox, 1114112, (some 3211264), .moz⟩, ⟨.iosSaf, 458752, (some 656128), .webkit⟩, ⟨.safari, 458752, (some 655616), .webkit⟩]
  -- lines 2136-2147
  | .overscrollBehavior =>
    [⟨.edge, 786432, (some 1114112), .ms⟩, ⟨.ie, 655360, none, .ms⟩]
  -- lines 2148-2154
  | .textOrientation =>
    [⟨.safari, 655616, (some 852224), .webkit⟩]
  -- lines 2155-2196
  | .printColorAdjust | .colorAdjust =>
    [⟨.android, 263168, (some 263171), .webkit⟩, ⟨.chrome, 1114112, (some 8847360), .webkit⟩, ⟨.edge, 5177344, (some 8847360), .webkit⟩, ⟨.firefox, 3145728, (some 6291456), .moz⟩, ⟨.iosSaf, 393216, (some 983552), .webkit⟩, ⟨.opera, 983040, none, .webkit⟩, ⟨.safari, 393216, (some 983552), .webkit⟩, ⟨.samsung, 262144, (some 1835008), .webkit⟩]
  -- lines 2197-2238
  | .anyPseudo =>
    [⟨.chrome, 786432, (some 5701632), .webkit⟩, ⟨.edge, 5177344, (some 5701632), .webkit⟩, ⟨.firefox, 262144, (some 5111808), .moz⟩, ⟨.opera, 917504, (some 4784128), .webkit⟩, ⟨.safari, 327680, (some 851968), .webkit⟩, ⟨.iosSaf, 327680, (some 851968), .webkit⟩, ⟨.samsung, 65536, (some 917504), .webkit⟩, ⟨.android, 263168, (some 5701632), .webkit⟩]

end Verif.Targets
