import Verif.Targets.Browsers
/-! Generated by tools/gen_tables.py from /repo/src/compat.rs. -/
namespace Verif.Targets

/-- src/compat.rs:7-230 `Feature`. -/
inductive CompatFeature where
  | absFunction
  | accentSystemColor
  | afarListStyleType
  | amharicAbegedeListStyleType
  | amharicListStyleType
  | anchorSizeSize
  | animationTimelineShorthand
  | anyLink
  | anyPseudo
  | arabicIndicListStyleType
  | armenianListStyleType
  | asterisksListStyleType
  | autoSize
  | autofill
  | bengaliListStyleType
  | binaryListStyleType
  | borderImageRepeatRound
  | borderImageRepeatSpace
  | calcFunction
  | cambodianListStyleType
  | capUnit
  | caseInsensitive
  | chUnit
  | checkmark
  | circleListStyleType
  | cjkDecimalListStyleType
  | cjkEarthlyBranchListStyleType
  | cjkHeavenlyStemListStyleType
  | clampFunction
  | colorFunction
  | conicGradient
  | containerQueryLengthUnits
  | cue
  | cueFunction
  | customMediaQueries
  | decimalLeadingZeroListStyleType
  | decimalListStyleType
  | defaultPseudo
  | detailsContent
  | devanagariListStyleType
  | dialog
  | dirSelector
  | discListStyleType
  | disclosureClosedListStyleType
  | disclosureOpenListStyleType
  | doublePositionGradients
  | emUnit
  | ethiopicAbegedeAmEtListStyleType
  | ethiopicAbegedeGezListStyleType
  | ethiopicAbegedeListStyleType
  | ethiopicAbegedeTiErListStyleType
  | ethiopicAbegedeTiEtListStyleType
  | ethiopicHalehameAaErListStyleType
  | ethiopicHalehameAaEtListStyleType
  | ethiopicHalehameAmEtListStyleType
  | ethiopicHalehameGezListStyleType
  | ethiopicHalehameOmEtListStyleType
  | ethiopicHalehameSidEtListStyleType
  | ethiopicHalehameSoEtListStyleType
  | ethiopicHalehameTigListStyleType
  | ethiopicListStyleType
  | ethiopicNumericListStyleType
  | exUnit
  | extendedSystemFonts
  | firstLetter
  | firstLine
  | fitContentFunctionSize
  | fitContentSize
  | focusVisible
  | focusWithin
  | fontFamilySystemUi
  | fontSizeRem
  | fontSizeXXXLarge
  | fontStretchPercentage
  | fontStyleObliqueAngle
  | fontWeightNumber
  | footnotesListStyleType
  | formValidation
  | fullscreen
  | gencontent
  | georgianListStyleType
  | gradientInterpolationHints
  | grammarError
  | gujaratiListStyleType
  | gurmukhiListStyleType
  | hasSelector
  | hebrewListStyleType
  | hexAlphaColors
  | hiraganaIrohaListStyleType
  | hiraganaListStyleType
  | hypotFunction
  | icUnit
  | imageSet
  | inOutOfRange
  | indeterminatePseudo
  | isSelector
  | japaneseFormalListStyleType
  | japaneseInformalListStyleType
  | kannadaListStyleType
  | katakanaIrohaListStyleType
  | katakanaListStyleType
  | khmerListStyleType
  | koreanHangulFormalListStyleType
  | koreanHanjaFormalListStyleType
  | koreanHanjaInformalListStyleType
  | labColors
  | langSelectorList
  | laoListStyleType
  | lhUnit
  | lightDark
  | linearGradient
  | logicalBorderRadius
  | logicalBorderShorthand
  | logicalBorders
  | logicalInset
  | logicalMargin
  | logicalMarginShorthand
  | logicalPadding
  | logicalPaddingShorthand
  | logicalSize
  | logicalTextAlign
  | lowerAlphaListStyleType
  | lowerArmenianListStyleType
  | lowerGreekListStyleType
  | lowerHexadecimalListStyleType
  | lowerLatinListStyleType
  | lowerNorwegianListStyleType
  | lowerRomanListStyleType
  | malayalamListStyleType
  | markerPseudo
  | maxContentSize
  | maxFunction
  | mediaIntervalSyntax
  | mediaRangeSyntax
  | minContentSize
  | minFunction
  | modFunction
  | mongolianListStyleType
  | myanmarListStyleType
  | namespaces
  | nesting
  | noneListStyleType
  | notSelectorList
  | nthChildOf
  | octalListStyleType
  | oklabColors
  | optionalPseudo
  | oriyaListStyleType
  | oromoListStyleType
  | overflowShorthand
  | p3Colors
  | partPseudo
  | persianListStyleType
  | picker
  | pickerIcon
  | placeContent
  | placeItems
  | placeSelf
  | placeholder
  | placeholderShown
  | qUnit
  | radialGradient
  | rcapUnit
  | rchUnit
  | readOnlyWrite
  | remFunction
  | remUnit
  | repeatingConicGradient
  | repeatingLinearGradient
  | repeatingRadialGradient
  | rexUnit
  | ricUnit
  | rlhUnit
  | roundFunction
  | selection
  | selectors2
  | selectors3
  | shadowdomv1
  | sidamaListStyleType
  | signFunction
  | simpChineseFormalListStyleType
  | simpChineseInformalListStyleType
  | somaliListStyleType
  | spaceSeparatedColorNotation
  | spellingError
  | squareListStyleType
  | statePseudoClass
  | stretchSize
  | stringListStyleType
  | symbolsListStyleType
  | tamilListStyleType
  | targetText
  | teluguListStyleType
  | textDecorationThicknessPercent
  | textDecorationThicknessShorthand
  | thaiListStyleType
  | tibetanListStyleType
  | tigreListStyleType
  | tigrinyaErAbegedeListStyleType
  | tigrinyaErListStyleType
  | tigrinyaEtAbegedeListStyleType
  | tigrinyaEtListStyleType
  | tradChineseFormalListStyleType
  | tradChineseInformalListStyleType
  | upperAlphaListStyleType
  | upperArmenianListStyleType
  | upperHexadecimalListStyleType
  | upperLatinListStyleType
  | upperNorwegianListStyleType
  | upperRomanListStyleType
  | vbUnit
  | vhUnit
  | viUnit
  | viewTransition
  | viewportPercentageUnitsDynamic
  | viewportPercentageUnitsLarge
  | viewportPercentageUnitsSmall
  | vmaxUnit
  | vminUnit
  | vwUnit
  | webkitFillAvailableSize
  | xResolutionUnit
deriving DecidableEq, Repr

/-- src/compat.rs:233-5730, the body of `is_compatible`, one list of guards per arm (`if .. { return false }`, in order). -/
def CompatFeature.guards : CompatFeature → List Guard
  -- lines 235-281
  | .selectors2 =>
    [.atLeast .ie 458752, .atLeast .edge 786432, .atLeast .firefox 131072, .atLeast .chrome 262144, .atLeast .safari 196864, .atLeast .opera 589824, .atLeast .iosSaf 197120, .atLeast .android 131328, .atLeast .samsung 262144]
  -- lines 282-328
  | .selectors3 =>
    [.atLeast .ie 589824, .atLeast .edge 786432, .atLeast .firefox 197888, .atLeast .chrome 262144, .atLeast .safari 197120, .atLeast .opera 591104, .atLeast .iosSaf 197120, .atLeast .android 131328, .atLeast .samsung 262144]
  -- lines 329-375
  | .gencontent | .firstLine =>
    [.atLeast .ie 589824, .atLeast .edge 786432, .atLeast .firefox 131072, .atLeast .chrome 262144, .atLeast .safari 196864, .atLeast .opera 589824, .atLeast .iosSaf 197120, .atLeast .android 131328, .atLeast .samsung 262144]
  -- lines 376-422
  | .firstLetter =>
    [.atLeast .ie 589824, .atLeast .edge 786432, .atLeast .firefox 197888, .atLeast .chrome 589824, .atLeast .safari 327936, .atLeast .opera 722432, .atLeast .iosSaf 327680, .atLeast .android 196608, .atLeast .samsung 262144]
  -- lines 423-467
  | .inOutOfRange =>
    [.atLeast .edge 5177344, .atLeast .firefox 3276800, .atLeast .chrome 3473408, .atLeast .safari 655616, .atLeast .opera 2621440, .atLeast .iosSaf 656128, .atLeast .android 9371648, .atLeast .samsung 327680, .absent [.ie]]
  -- lines 468-514
  | .formValidation =>
    [.atLeast .ie 655360, .atLeast .edge 786432, .atLeast .firefox 262144, .atLeast .chrome 655360, .atLeast .safari 655616, .atLeast .opera 655360, .atLeast .iosSaf 656128, .atLeast .android 263171, .atLeast .samsung 262144]
  -- lines 515-559
  | .anyLink =>
    [.atLeast .edge 5177344, .atLeast .firefox 3276800, .atLeast .chrome 4259840, .atLeast .safari 589824, .atLeast .opera 3407872, .atLeast .iosSaf 589824, .atLeast .android 9371648, .atLeast .samsung 590336, .absent [.ie]]
  -- lines 560-604
  | .defaultPseudo =>
    [.atLeast .edge 5177344, .atLeast .firefox 262144, .atLeast .chrome 3342336, .atLeast .safari 655616, .atLeast .opera 2490368, .atLeast .iosSaf 656128, .atLeast .android 9371648, .atLeast .samsung 327680, .absent [.ie]]
  -- lines 605-649
  | .dirSelector =>
    [.atLeast .edge 7864320, .atLeast .firefox 3211264, .atLeast .chrome 7864320, .atLeast .safari 1049600, .atLeast .opera 6946816, .atLeast .iosSaf 1049600, .atLeast .android 9371648, .atLeast .samsung 1638400, .absent [.ie]]
  -- lines 650-694
  | .focusWithin =>
    [.atLeast .edge 5177344, .atLeast .firefox 3407872, .atLeast .chrome 3932160, .atLeast .safari 655616, .atLeast .opera 3080192, .atLeast .iosSaf 656128, .atLeast .android 9371648, .atLeast .samsung 524800, .absent [.ie]]
  -- lines 695-739
  | .focusVisible =>
    [.atLeast .edge 5636096, .atLeast .firefox 5570560, .atLeast .chrome 5636096, .atLeast .safari 984064, .atLeast .opera 4718592, .atLeast .iosSaf 984064, .atLeast .android 9371648, .atLeast .samsung 917504, .absent [.ie]]
  -- lines 740-784
  | .indeterminatePseudo =>
    [.atLeast .edge 5177344, .atLeast .firefox 3342336, .atLeast .chrome 2555904, .atLeast .safari 655616, .atLeast .opera 1703936, .atLeast .iosSaf 656128, .atLeast .android 9371648, .atLeast .samsung 262144, .absent [.ie]]
  -- lines 785-829
  | .isSelector =>
    [.atLeast .edge 5767168, .atLeast .firefox 5111808, .atLeast .chrome 5767168, .atLeast .safari 917504, .atLeast .opera 4915200, .atLeast .iosSaf 917504, .atLeast .android 9371648, .atLeast .samsung 983040, .absent [.ie]]
  -- lines 830-876
  | .optionalPseudo =>
    [.atLeast .ie 655360, .atLeast .edge 786432, .atLeast .firefox 262144, .atLeast .chrome 983040, .atLeast .safari 327680, .atLeast .opera 983040, .atLeast .iosSaf 327680, .atLeast .android 131840, .atLeast .samsung 262144]
  -- lines 877-921
  | .placeholderShown =>
    [.atLeast .edge 5177344, .atLeast .firefox 3342336, .atLeast .chrome 3080192, .atLeast .safari 589824, .atLeast .opera 2228224, .atLeast .iosSaf 589824, .atLeast .android 9371648, .atLeast .samsung 327680, .absent [.ie]]
  -- lines 922-966
  | .dialog =>
    [.atLeast .edge 5177344, .atLeast .firefox 6422528, .atLeast .chrome 2424832, .atLeast .safari 984064, .atLeast .opera 1572864, .atLeast .iosSaf 984064, .atLeast .android 9371648, .atLeast .samsung 262144, .absent [.ie]]
  -- lines 967-1001
  | .fullscreen =>
    [.atLeast .edge 5177344, .atLeast .firefox 4194304, .atLeast .chrome 4653056, .atLeast .safari 1049600, .atLeast .opera 786688, .atLeast .samsung 655616, .absent [.android, .ie, .iosSaf]]
  -- lines 1002-1036
  | .markerPseudo =>
    [.atLeast .edge 5636096, .atLeast .firefox 4456448, .atLeast .chrome 5636096, .atLeast .opera 4718592, .atLeast .android 9371648, .atLeast .samsung 917504, .absent [.ie, .iosSaf, .safari]]
  -- lines 1037-1081
  | .placeholder =>
    [.atLeast .edge 5177344, .atLeast .firefox 3342336, .atLeast .chrome 3735552, .atLeast .safari 655616, .atLeast .opera 2883584, .atLeast .iosSaf 656128, .atLeast .android 9371648, .atLeast .samsung 459264, .absent [.ie]]
  -- lines 1082-1126
  | .selection =>
    [.atLeast .ie 589824, .atLeast .edge 786432, .atLeast .firefox 4063232, .atLeast .chrome 262144, .atLeast .safari 196864, .atLeast .opera 591104, .atLeast .android 263168, .atLeast .samsung 262144, .absent [.iosSaf]]
  -- lines 1127-1171
  | .caseInsensitive =>
    [.atLeast .edge 5177344, .atLeast .firefox 3080192, .atLeast .chrome 3211264, .atLeast .safari 589824, .atLeast .opera 2359296, .atLeast .iosSaf 589824, .atLeast .android 9371648, .atLeast .samsung 327680, .absent [.ie]]
  -- lines 1172-1216
  | .readOnlyWrite =>
    [.atLeast .edge 851968, .atLeast .firefox 5111808, .atLeast .chrome 2359296, .atLeast .safari 589824, .atLeast .opera 1507328, .atLeast .iosSaf 589824, .atLeast .android 9371648, .atLeast .samsung 262144, .absent [.ie]]
  -- lines 1217-1261
  | .autofill =>
    [.atLeast .chrome 7208960, .atLeast .edge 7208960, .atLeast .firefox 5636096, .atLeast .opera 6291456, .atLeast .safari 983040, .atLeast .iosSaf 983040, .atLeast .samsung 1376256, .atLeast .android 9371648, .absent [.ie]]
  -- lines 1262-1308
  | .namespaces =>
    [.atLeast .ie 589824, .atLeast .edge 786432, .atLeast .firefox 131072, .atLeast .chrome 262144, .atLeast .safari 262144, .atLeast .opera 589824, .atLeast .iosSaf 262656, .atLeast .android 131328, .atLeast .samsung 262144]
  -- lines 1309-1353
  | .shadowdomv1 =>
    [.atLeast .edge 5177344, .atLeast .firefox 4128768, .atLeast .chrome 3473408, .atLeast .safari 655360, .atLeast .opera 2621440, .atLeast .iosSaf 720896, .atLeast .android 9371648, .atLeast .samsung 393728, .absent [.ie]]
  -- lines 1354-1398
  | .hexAlphaColors =>
    [.atLeast .edge 5177344, .atLeast .firefox 3211264, .atLeast .chrome 4063232, .atLeast .safari 655360, .atLeast .opera 3407872, .atLeast .iosSaf 655360, .atLeast .android 9371648, .atLeast .samsung 524800, .absent [.ie]]
  -- lines 1399-1443
  | .nesting =>
    [.atLeast .edge 7864320, .atLeast .firefox 7667712, .atLeast .chrome 7864320, .atLeast .safari 1114624, .atLeast .opera 6946816, .atLeast .iosSaf 1114624, .atLeast .android 9371648, .atLeast .samsung 1638400, .absent [.ie]]
  -- lines 1444-1488
  | .notSelectorList =>
    [.atLeast .edge 5767168, .atLeast .firefox 5505024, .atLeast .chrome 5767168, .atLeast .safari 589824, .atLeast .opera 4915200, .atLeast .iosSaf 589824, .atLeast .android 9371648, .atLeast .samsung 983040, .absent [.ie]]
  -- lines 1489-1533
  | .hasSelector =>
    [.atLeast .edge 6881280, .atLeast .firefox 7929856, .atLeast .chrome 6881280, .atLeast .safari 984064, .atLeast .opera 5963776, .atLeast .iosSaf 984064, .atLeast .android 9371648, .atLeast .samsung 1310720, .absent [.ie]]
  -- lines 1534-1578
  | .fontFamilySystemUi =>
    [.atLeast .edge 5177344, .atLeast .firefox 6029312, .atLeast .chrome 3670016, .atLeast .safari 720896, .atLeast .opera 2818048, .atLeast .iosSaf 720896, .atLeast .android 9371648, .atLeast .samsung 393728, .absent [.ie]]
  -- lines 1579-1600
  | .extendedSystemFonts =>
    [.atLeast .safari 852224, .atLeast .iosSaf 852992, .absent [.android, .chrome, .edge, .firefox, .ie, .opera, .samsung]]
  -- lines 1601-1645
  | .calcFunction =>
    [.atLeast .edge 786432, .atLeast .firefox 1048576, .atLeast .chrome 1703936, .atLeast .safari 393472, .atLeast .opera 983040, .atLeast .iosSaf 458752, .atLeast .android 9371648, .atLeast .samsung 262144, .absent [.ie]]
  -- lines 1646-1646
  | .customMediaQueries | .fitContentFunctionSize =>
    [.never]
  -- lines 1647-1691
  | .doublePositionGradients =>
    [.atLeast .chrome 4653056, .atLeast .edge 5177344, .atLeast .firefox 4194304, .atLeast .opera 3276800, .atLeast .safari 786688, .atLeast .iosSaf 786944, .atLeast .samsung 655360, .atLeast .android 4653056, .absent [.ie]]
  -- lines 1692-1736
  | .clampFunction =>
    [.atLeast .chrome 5177344, .atLeast .edge 5177344, .atLeast .firefox 5177344, .atLeast .opera 3735552, .atLeast .safari 852224, .atLeast .iosSaf 852992, .atLeast .samsung 786432, .atLeast .android 5177344, .absent [.ie]]
  -- lines 1737-1781
  | .placeSelf | .placeItems =>
    [.atLeast .chrome 3866624, .atLeast .edge 5177344, .atLeast .firefox 2949120, .atLeast .opera 2818048, .atLeast .safari 720896, .atLeast .iosSaf 720896, .atLeast .samsung 458752, .atLeast .android 3866624, .absent [.ie]]
  -- lines 1782-1826
  | .placeContent =>
    [.atLeast .chrome 3866624, .atLeast .edge 5177344, .atLeast .firefox 2949120, .atLeast .opera 2818048, .atLeast .safari 589824, .atLeast .iosSaf 589824, .atLeast .samsung 458752, .atLeast .android 3866624, .absent [.ie]]
  -- lines 1827-1871
  | .overflowShorthand =>
    [.atLeast .chrome 4456448, .atLeast .edge 5177344, .atLeast .firefox 3997696, .atLeast .opera 3145728, .atLeast .safari 852224, .atLeast .iosSaf 852992, .atLeast .samsung 655360, .atLeast .android 4456448, .absent [.ie]]
  -- lines 1872-1916
  | .mediaRangeSyntax =>
    [.atLeast .chrome 6815744, .atLeast .edge 6815744, .atLeast .firefox 4128768, .atLeast .opera 4653056, .atLeast .safari 1049600, .atLeast .iosSaf 1049600, .atLeast .samsung 1310720, .atLeast .android 6815744, .absent [.ie]]
  -- lines 1917-1961
  | .mediaIntervalSyntax =>
    [.atLeast .chrome 6815744, .atLeast .edge 6815744, .atLeast .firefox 6684672, .atLeast .opera 4653056, .atLeast .safari 1049600, .atLeast .iosSaf 1049600, .atLeast .samsung 1310720, .atLeast .android 6815744, .absent [.ie]]
  -- lines 1962-2006
  | .logicalBorders =>
    [.atLeast .chrome 4521984, .atLeast .edge 5177344, .atLeast .firefox 2686976, .atLeast .opera 3145728, .atLeast .safari 786688, .atLeast .iosSaf 786944, .atLeast .samsung 655360, .atLeast .android 4521984, .absent [.ie]]
  -- lines 2007-2051
  | .logicalBorderShorthand | .logicalMarginShorthand | .logicalPaddingShorthand =>
    [.atLeast .chrome 5701632, .atLeast .edge 5701632, .atLeast .firefox 4325376, .atLeast .opera 4063232, .atLeast .safari 917760, .atLeast .iosSaf 918784, .atLeast .samsung 917504, .atLeast .android 5701632, .absent [.ie]]
  -- lines 2052-2096
  | .logicalBorderRadius =>
    [.atLeast .chrome 5832704, .atLeast .edge 5832704, .atLeast .firefox 4325376, .atLeast .opera 4128768, .atLeast .safari 983040, .atLeast .iosSaf 983040, .atLeast .samsung 983040, .atLeast .android 5832704, .absent [.ie]]
  -- lines 2097-2141
  | .logicalMargin | .logicalPadding =>
    [.atLeast .chrome 4521984, .atLeast .edge 5177344, .atLeast .firefox 2686976, .atLeast .opera 3145728, .atLeast .safari 786688, .atLeast .iosSaf 786944, .atLeast .samsung 655360, .atLeast .android 5701632, .absent [.ie]]
  -- lines 2142-2186
  | .logicalInset =>
    [.atLeast .chrome 5701632, .atLeast .edge 5701632, .atLeast .firefox 4128768, .atLeast .opera 4063232, .atLeast .safari 917760, .atLeast .iosSaf 918784, .atLeast .samsung 917504, .atLeast .android 5701632, .absent [.ie]]
  -- lines 2187-2231
  | .logicalSize =>
    [.atLeast .chrome 3735552, .atLeast .edge 5177344, .atLeast .firefox 2686976, .atLeast .opera 2818048, .atLeast .safari 786688, .atLeast .iosSaf 786944, .atLeast .samsung 458752, .atLeast .android 3735552, .absent [.ie]]
  -- lines 2232-2276
  | .logicalTextAlign =>
    [.atLeast .chrome 1179648, .atLeast .edge 5177344, .atLeast .firefox 262144, .atLeast .opera 917504, .atLeast .safari 196864, .atLeast .iosSaf 131072, .atLeast .samsung 65536, .atLeast .android 2424832, .absent [.ie]]
  -- lines 2277-2321
  | .labColors =>
    [.atLeast .chrome 7274496, .atLeast .edge 7274496, .atLeast .firefox 7405568, .atLeast .opera 4915200, .atLeast .safari 983040, .atLeast .iosSaf 983040, .atLeast .samsung 1441792, .atLeast .android 7274496, .absent [.ie]]
  -- lines 2322-2366
  | .oklabColors =>
    [.atLeast .chrome 7274496, .atLeast .edge 7274496, .atLeast .firefox 7405568, .atLeast .opera 4915200, .atLeast .safari 984064, .atLeast .iosSaf 984064, .atLeast .samsung 1441792, .atLeast .android 7274496, .absent [.ie]]
  -- lines 2367-2411
  | .colorFunction =>
    [.atLeast .chrome 7274496, .atLeast .edge 7274496, .atLeast .firefox 7405568, .atLeast .opera 4915200, .atLeast .safari 655616, .atLeast .iosSaf 656128, .atLeast .samsung 1441792, .atLeast .android 7274496, .absent [.ie]]
  -- lines 2412-2456
  | .spaceSeparatedColorNotation =>
    [.atLeast .chrome 4259840, .atLeast .edge 5177344, .atLeast .firefox 3407872, .atLeast .opera 3080192, .atLeast .safari 786688, .atLeast .iosSaf 786944, .atLeast .samsung 589824, .atLeast .android 4259840, .absent [.ie]]
  -- lines 2457-2501
  | .textDecorationThicknessPercent =>
    [.atLeast .chrome 5701632, .atLeast .edge 5701632, .atLeast .firefox 5177344, .atLeast .opera 4063232, .atLeast .safari 1115136, .atLeast .iosSaf 1115136, .atLeast .samsung 917504, .atLeast .android 5701632, .absent [.ie]]
  -- lines 2502-2546
  | .textDecorationThicknessShorthand =>
    [.atLeast .chrome 5701632, .atLeast .edge 5701632, .atLeast .firefox 5177344, .atLeast .opera 4063232, .atLeast .safari 1704448, .atLeast .iosSaf 1704448, .atLeast .samsung 917504, .atLeast .android 5701632, .absent [.ie]]
  -- lines 2547-2591
  | .cue =>
    [.atLeast .chrome 1703936, .atLeast .edge 5177344, .atLeast .firefox 3604480, .atLeast .opera 917504, .atLeast .safari 458752, .atLeast .iosSaf 458752, .atLeast .samsung 66816, .atLeast .android 263168, .absent [.ie]]
  -- lines 2592-2631
  | .cueFunction =>
    [.atLeast .chrome 1703936, .atLeast .edge 5177344, .atLeast .opera 917504, .atLeast .safari 458752, .atLeast .iosSaf 458752, .atLeast .samsung 66816, .atLeast .android 263168, .absent [.firefox, .ie]]
  -- lines 2632-2676
  | .anyPseudo =>
    [.atLeast .chrome 1179648, .atLeast .edge 5177344, .atLeast .firefox 262144, .atLeast .opera 917504, .atLeast .safari 327680, .atLeast .iosSaf 327680, .atLeast .samsung 65536, .atLeast .android 263168, .absent [.ie]]
  -- lines 2677-2721
  | .partPseudo =>
    [.atLeast .chrome 4784128, .atLeast .edge 5177344, .atLeast .firefox 5177344, .atLeast .opera 3407872, .atLeast .safari 852224, .atLeast .iosSaf 852992, .atLeast .samsung 720896, .atLeast .android 4784128, .absent [.ie]]
  -- lines 2722-2766
  | .imageSet =>
    [.atLeast .chrome 1638400, .atLeast .edge 5177344, .atLeast .firefox 5767168, .atLeast .opera 917504, .atLeast .safari 393216, .atLeast .iosSaf 393216, .atLeast .samsung 66816, .atLeast .android 263168, .absent [.ie]]
  -- lines 2767-2811
  | .xResolutionUnit =>
    [.atLeast .chrome 4456448, .atLeast .edge 5177344, .atLeast .firefox 4063232, .atLeast .opera 3145728, .atLeast .safari 1048576, .atLeast .iosSaf 1048576, .atLeast .samsung 655360, .atLeast .android 4456448, .absent [.ie]]
  -- lines 2812-2856
  | .nthChildOf =>
    [.atLeast .chrome 7274496, .atLeast .edge 7274496, .atLeast .firefox 7405568, .atLeast .opera 4915200, .atLeast .safari 589824, .atLeast .iosSaf 589824, .atLeast .samsung 1441792, .atLeast .android 7274496, .absent [.ie]]
  -- lines 2857-2901
  | .minFunction | .maxFunction =>
    [.atLeast .chrome 5177344, .atLeast .edge 5177344, .atLeast .firefox 5177344, .atLeast .opera 3735552, .atLeast .safari 721152, .atLeast .iosSaf 721664, .atLeast .samsung 786432, .atLeast .android 5177344, .absent [.ie]]
  -- lines 2902-2946
  | .roundFunction | .remFunction | .modFunction =>
    [.atLeast .chrome 8192000, .atLeast .edge 8192000, .atLeast .firefox 7733248, .atLeast .opera 5439488, .atLeast .safari 984064, .atLeast .iosSaf 984064, .atLeast .samsung 1769472, .atLeast .android 8192000, .absent [.ie]]
  -- lines 2947-2986
  | .absFunction | .signFunction =>
    [.atLeast .chrome 9043968, .atLeast .edge 9043968, .atLeast .firefox 7733248, .atLeast .opera 5963776, .atLeast .safari 984064, .atLeast .iosSaf 984064, .atLeast .android 9043968, .absent [.ie, .samsung]]
  -- lines 2987-3031
  | .hypotFunction =>
    [.atLeast .chrome 7864320, .atLeast .edge 7864320, .atLeast .firefox 7733248, .atLeast .opera 5242880, .atLeast .safari 984064, .atLeast .iosSaf 984064, .atLeast .samsung 1638400, .atLeast .android 7864320, .absent [.ie]]
  -- lines 3032-3076
  | .gradientInterpolationHints =>
    [.atLeast .chrome 2621440, .atLeast .edge 5177344, .atLeast .firefox 2359296, .atLeast .opera 1769472, .atLeast .safari 458752, .atLeast .iosSaf 458752, .atLeast .samsung 262144, .atLeast .android 2621440, .absent [.ie]]
  -- lines 3077-3123
  | .borderImageRepeatRound =>
    [.atLeast .chrome 1966080, .atLeast .edge 786432, .atLeast .firefox 983040, .atLeast .ie 720896, .atLeast .opera 1179648, .atLeast .safari 590080, .atLeast .iosSaf 590592, .atLeast .samsung 131072, .atLeast .android 263168]
  -- lines 3124-3170
  | .borderImageRepeatSpace =>
    [.atLeast .chrome 3670016, .atLeast .edge 786432, .atLeast .firefox 3276800, .atLeast .ie 720896, .atLeast .opera 2818048, .atLeast .safari 590080, .atLeast .iosSaf 590592, .atLeast .samsung 393216, .atLeast .android 3670016]
  -- lines 3171-3217
  | .fontSizeRem =>
    [.atLeast .chrome 2752512, .atLeast .edge 786432, .atLeast .firefox 2031616, .atLeast .ie 589824, .atLeast .opera 1835008, .atLeast .safari 458752, .atLeast .iosSaf 458752, .atLeast .samsung 262144, .atLeast .android 2752512]
  -- lines 3218-3262
  | .fontSizeXXXLarge =>
    [.atLeast .chrome 5177344, .atLeast .edge 5177344, .atLeast .firefox 5177344, .atLeast .opera 3735552, .atLeast .safari 1049600, .atLeast .iosSaf 1049600, .atLeast .samsung 786432, .atLeast .android 5177344, .absent [.ie]]
  -- lines 3263-3307
  | .fontStyleObliqueAngle =>
    [.atLeast .chrome 4063232, .atLeast .edge 5177344, .atLeast .firefox 3997696, .atLeast .opera 3014656, .atLeast .safari 721152, .atLeast .iosSaf 721664, .atLeast .samsung 524288, .atLeast .android 4063232, .absent [.ie]]
  -- lines 3308-3352
  | .fontWeightNumber =>
    [.atLeast .chrome 4063232, .atLeast .edge 1114112, .atLeast .firefox 3997696, .atLeast .opera 3014656, .atLeast .safari 720896, .atLeast .iosSaf 720896, .atLeast .samsung 524288, .atLeast .android 4063232, .absent [.ie]]
  -- lines 3353-3397
  | .fontStretchPercentage =>
    [.atLeast .chrome 4063232, .atLeast .edge 1179648, .atLeast .firefox 3997696, .atLeast .opera 3014656, .atLeast .safari 721152, .atLeast .iosSaf 721664, .atLeast .samsung 524288, .atLeast .android 4063232, .absent [.ie]]
  -- lines 3398-3442
  | .lightDark =>
    [.atLeast .chrome 8060928, .atLeast .edge 8060928, .atLeast .firefox 7864320, .atLeast .opera 5373952, .atLeast .safari 1115392, .atLeast .iosSaf 1115392, .atLeast .samsung 1769472, .atLeast .android 8060928, .absent [.ie]]
  -- lines 3443-3468
  | .accentSystemColor =>
    [.atLeast .firefox 6750208, .atLeast .safari 1049856, .atLeast .iosSaf 1049856, .absent [.android, .chrome, .edge, .ie, .opera, .samsung]]
  -- lines 3469-3502
  | .animationTimelineShorthand =>
    [.atLeast .chrome 7536640, .atLeast .edge 7536640, .atLeast .opera 5046272, .atLeast .samsung 1507328, .atLeast .android 7536640, .absent [.firefox, .ie, .iosSaf, .safari]]
  -- lines 3503-3547
  | .viewTransition =>
    [.atLeast .chrome 7143424, .atLeast .edge 7143424, .atLeast .firefox 9437184, .atLeast .opera 4849664, .atLeast .safari 1179648, .atLeast .iosSaf 1179648, .atLeast .samsung 1376256, .atLeast .android 7143424, .absent [.ie]]
  -- lines 3548-3592
  | .detailsContent =>
    [.atLeast .chrome 8585216, .atLeast .edge 8585216, .atLeast .firefox 9371648, .atLeast .opera 5701632, .atLeast .safari 1180672, .atLeast .iosSaf 1180672, .atLeast .samsung 1900544, .atLeast .android 8585216, .absent [.ie]]
  -- lines 3593-3637
  | .targetText =>
    [.atLeast .chrome 5832704, .atLeast .edge 5832704, .atLeast .firefox 8585216, .atLeast .opera 4128768, .atLeast .safari 1180160, .atLeast .iosSaf 1180160, .atLeast .samsung 983040, .atLeast .android 5832704, .absent [.ie]]
  -- lines 3638-3671
  | .picker =>
    [.atLeast .chrome 8847360, .atLeast .edge 8847360, .atLeast .opera 5832704, .atLeast .samsung 1900544, .atLeast .android 8847360, .absent [.firefox, .ie, .iosSaf, .safari]]
  -- lines 3672-3705
  | .pickerIcon | .checkmark =>
    [.atLeast .chrome 8716288, .atLeast .edge 8716288, .atLeast .opera 5767168, .atLeast .samsung 1900544, .atLeast .android 8716288, .absent [.firefox, .ie, .iosSaf, .safari]]
  -- lines 3706-3745
  | .grammarError | .spellingError =>
    [.atLeast .chrome 7929856, .atLeast .edge 7929856, .atLeast .opera 5308416, .atLeast .safari 1115136, .atLeast .iosSaf 1115136, .atLeast .samsung 1638400, .atLeast .android 7929856, .absent [.firefox, .ie]]
  -- lines 3746-3790
  | .statePseudoClass =>
    [.atLeast .chrome 8192000, .atLeast .edge 8192000, .atLeast .firefox 8257536, .atLeast .opera 5439488, .atLeast .safari 1115136, .atLeast .iosSaf 1115136, .atLeast .samsung 1769472, .atLeast .android 8192000, .absent [.ie]]
  -- lines 3791-3835
  | .qUnit =>
    [.atLeast .chrome 4128768, .atLeast .edge 5177344, .atLeast .firefox 3211264, .atLeast .opera 3014656, .atLeast .safari 852224, .atLeast .iosSaf 852992, .atLeast .samsung 524288, .atLeast .android 4128768, .absent [.ie]]
  -- lines 3836-3880
  | .capUnit =>
    [.atLeast .chrome 7733248, .atLeast .edge 7733248, .atLeast .firefox 6356992, .atLeast .opera 5177344, .atLeast .safari 1114624, .atLeast .iosSaf 1114624, .atLeast .samsung 1638400, .atLeast .android 7733248, .absent [.ie]]
  -- lines 3881-3927
  | .chUnit =>
    [.atLeast .chrome 1769472, .atLeast .edge 786432, .atLeast .firefox 262144, .atLeast .ie 589824, .atLeast .opera 983040, .atLeast .safari 458752, .atLeast .iosSaf 458752, .atLeast .samsung 66816, .atLeast .android 263168]
  -- lines 3928-3972
  | .containerQueryLengthUnits =>
    [.atLeast .chrome 6881280, .atLeast .edge 6881280, .atLeast .firefox 7208960, .atLeast .opera 4718592, .atLeast .safari 1048576, .atLeast .iosSaf 1048576, .atLeast .samsung 1310720, .atLeast .android 6881280, .absent [.ie]]
  -- lines 3973-4019
  | .emUnit =>
    [.atLeast .chrome 1179648, .atLeast .edge 786432, .atLeast .firefox 262144, .atLeast .ie 196608, .atLeast .opera 655616, .atLeast .safari 65536, .atLeast .iosSaf 65536, .atLeast .samsung 65536, .atLeast .android 65536]
  -- lines 4020-4070
  | .exUnit | .circleListStyleType | .decimalListStyleType | .discListStyleType | .squareListStyleType =>
    [.atLeast .chrome 1179648, .atLeast .edge 786432, .atLeast .firefox 262144, .atLeast .ie 262144, .atLeast .opera 655616, .atLeast .safari 65536, .atLeast .iosSaf 65536, .atLeast .samsung 65536, .atLeast .android 263168]
  -- lines 4071-4115
  | .icUnit =>
    [.atLeast .chrome 6946816, .atLeast .edge 6946816, .atLeast .firefox 6356992, .atLeast .opera 4718592, .atLeast .safari 984064, .atLeast .iosSaf 984064, .atLeast .samsung 1310720, .atLeast .android 6946816, .absent [.ie]]
  -- lines 4116-4160
  | .lhUnit =>
    [.atLeast .chrome 7143424, .atLeast .edge 7143424, .atLeast .firefox 7864320, .atLeast .opera 4849664, .atLeast .safari 1049600, .atLeast .iosSaf 1049600, .atLeast .samsung 1376256, .atLeast .android 7143424, .absent [.ie]]
  -- lines 4161-4205
  | .rcapUnit =>
    [.atLeast .chrome 7733248, .atLeast .edge 7733248, .atLeast .firefox 9633792, .atLeast .opera 5177344, .atLeast .safari 1114624, .atLeast .iosSaf 1114624, .atLeast .samsung 1638400, .atLeast .android 7733248, .absent [.ie]]
  -- lines 4206-4250
  | .rchUnit | .rexUnit | .ricUnit =>
    [.atLeast .chrome 7274496, .atLeast .edge 7274496, .atLeast .firefox 9633792, .atLeast .opera 4915200, .atLeast .safari 1114624, .atLeast .iosSaf 1114624, .atLeast .samsung 1441792, .atLeast .android 7274496, .absent [.ie]]
  -- lines 4251-4297
  | .remUnit =>
    [.atLeast .chrome 1179648, .atLeast .edge 786432, .atLeast .firefox 262144, .atLeast .ie 589824, .atLeast .opera 786432, .atLeast .safari 327680, .atLeast .iosSaf 262144, .atLeast .samsung 65536, .atLeast .android 131072]
  -- lines 4298-4342
  | .rlhUnit =>
    [.atLeast .chrome 7274496, .atLeast .edge 7274496, .atLeast .firefox 7864320, .atLeast .opera 4915200, .atLeast .safari 1049600, .atLeast .iosSaf 1049600, .atLeast .samsung 1441792, .atLeast .android 7274496, .absent [.ie]]
  -- lines 4343-4391
  | .vbUnit | .viUnit | .viewportPercentageUnitsDynamic | .viewportPercentageUnitsLarge | .viewportPercentageUnitsSmall =>
    [.atLeast .chrome 7077888, .atLeast .edge 7077888, .atLeast .firefox 6619136, .atLeast .opera 4784128, .atLeast .safari 984064, .atLeast .iosSaf 984064, .atLeast .samsung 1376256, .atLeast .android 7077888, .absent [.ie]]
  -- lines 4392-4438
  | .vhUnit | .vwUnit =>
    [.atLeast .chrome 1638400, .atLeast .edge 786432, .atLeast .firefox 1245184, .atLeast .ie 589824, .atLeast .opera 917504, .atLeast .safari 393216, .atLeast .iosSaf 393216, .atLeast .samsung 66816, .atLeast .android 263168]
  -- lines 4439-4483
  | .vmaxUnit =>
    [.atLeast .chrome 1703936, .atLeast .edge 1048576, .atLeast .firefox 1245184, .atLeast .opera 917504, .atLeast .safari 458752, .atLeast .iosSaf 458752, .atLeast .samsung 66816, .atLeast .android 66816, .absent [.ie]]
  -- lines 4484-4530
  | .vminUnit =>
    [.atLeast .chrome 1703936, .atLeast .edge 786432, .atLeast .firefox 1245184, .atLeast .ie 655360, .atLeast .opera 917504, .atLeast .safari 458752, .atLeast .iosSaf 458752, .atLeast .samsung 66816, .atLeast .android 263168]
  -- lines 4531-4575
  | .conicGradient | .repeatingConicGradient =>
    [.atLeast .chrome 4521984, .atLeast .edge 5177344, .atLeast .firefox 5439488, .atLeast .opera 3145728, .atLeast .safari 786688, .atLeast .iosSaf 786944, .atLeast .samsung 655360, .atLeast .android 4521984, .absent [.ie]]
  -- lines 4576-4622
  | .linearGradient | .repeatingLinearGradient =>
    [.atLeast .chrome 1179648, .atLeast .edge 786432, .atLeast .firefox 262144, .atLeast .ie 655360, .atLeast .opera 720896, .atLeast .safari 327936, .atLeast .iosSaf 327680, .atLeast .samsung 65536, .atLeast .android 263168]
  -- lines 4623-4669
  | .radialGradient =>
    [.atLeast .chrome 1179648, .atLeast .edge 786432, .atLeast .firefox 262144, .atLeast .ie 655360, .atLeast .opera 786432, .atLeast .safari 327936, .atLeast .iosSaf 327680, .atLeast .samsung 65536, .atLeast .android 263168]
  -- lines 4670-4716
  | .repeatingRadialGradient =>
    [.atLeast .chrome 1179648, .atLeast .edge 786432, .atLeast .firefox 655360, .atLeast .ie 655360, .atLeast .opera 786432, .atLeast .safari 327936, .atLeast .iosSaf 327680, .atLeast .samsung 65536, .atLeast .android 263168]
  -- lines 4717-4776
  | .afarListStyleType | .amharicListStyleType | .amharicAbegedeListStyleType | .ethiopicListStyleType | .ethiopicAbegedeListStyleType | .ethiopicAbegedeAmEtListStyleType | .ethiopicAbegedeGezListStyleType | .ethiopicAbegedeTiErListStyleType | .ethiopicAbegedeTiEtListStyleType | .ethiopicHalehameAaErListStyleType | .ethiopicHalehameAaEtListStyleType | .ethiopicHalehameAmEtListStyleType | .ethiopicHalehameGezListStyleType | .ethiopicHalehameOmEtListStyleType | .ethiopicHalehameSidEtListStyleType | .ethiopicHalehameSoEtListStyleType | .ethiopicHalehameTigListStyleType | .lowerHexadecimalListStyleType | .lowerNorwegianListStyleType | .upperHexadecimalListStyleType | .upperNorwegianListStyleType =>
    [.atLeast .chrome 1179648, .atLeast .edge 5963776, .atLeast .opera 917504, .atLeast .safari 327680, .atLeast .iosSaf 262656, .atLeast .samsung 65536, .atLeast .android 196608, .absent [.firefox, .ie]]
  -- lines 4777-4836
  | .arabicIndicListStyleType | .bengaliListStyleType | .cjkEarthlyBranchListStyleType | .cjkHeavenlyStemListStyleType | .devanagariListStyleType | .gujaratiListStyleType | .gurmukhiListStyleType | .kannadaListStyleType | .khmerListStyleType | .laoListStyleType | .malayalamListStyleType | .myanmarListStyleType | .oriyaListStyleType | .persianListStyleType | .teluguListStyleType | .thaiListStyleType =>
    [.atLeast .chrome 1179648, .atLeast .edge 5177344, .atLeast .firefox 262144, .atLeast .opera 917504, .atLeast .safari 327680, .atLeast .iosSaf 262656, .atLeast .samsung 65536, .atLeast .android 263168, .absent [.ie]]
  -- lines 4837-4891
  | .armenianListStyleType | .decimalLeadingZeroListStyleType | .georgianListStyleType | .lowerAlphaListStyleType | .lowerGreekListStyleType | .lowerRomanListStyleType | .upperAlphaListStyleType | .upperLatinListStyleType | .upperRomanListStyleType =>
    [.atLeast .chrome 1179648, .atLeast .edge 786432, .atLeast .firefox 262144, .atLeast .ie 524288, .atLeast .opera 655616, .atLeast .safari 65536, .atLeast .iosSaf 65536, .atLeast .samsung 65536, .atLeast .android 263168]
  -- lines 4892-4931
  | .asterisksListStyleType | .footnotesListStyleType =>
    [.atLeast .chrome 1179648, .atLeast .edge 5963776, .atLeast .opera 917504, .atLeast .safari 327936, .atLeast .iosSaf 327680, .atLeast .samsung 65536, .atLeast .android 263168, .absent [.firefox, .ie]]
  -- lines 4932-4980
  | .binaryListStyleType | .octalListStyleType | .oromoListStyleType | .sidamaListStyleType | .somaliListStyleType | .tigreListStyleType | .tigrinyaErListStyleType | .tigrinyaErAbegedeListStyleType | .tigrinyaEtListStyleType | .tigrinyaEtAbegedeListStyleType =>
    [.atLeast .chrome 1179648, .atLeast .edge 5963776, .atLeast .opera 917504, .atLeast .safari 327680, .atLeast .iosSaf 262656, .atLeast .samsung 65536, .atLeast .android 263168, .absent [.firefox, .ie]]
  -- lines 4981-5025
  | .cambodianListStyleType | .mongolianListStyleType | .tibetanListStyleType =>
    [.atLeast .chrome 1179648, .atLeast .edge 5177344, .atLeast .firefox 2162688, .atLeast .opera 917504, .atLeast .safari 327680, .atLeast .iosSaf 262656, .atLeast .samsung 65536, .atLeast .android 263168, .absent [.ie]]
  -- lines 5026-5070
  | .cjkDecimalListStyleType =>
    [.atLeast .chrome 5963776, .atLeast .edge 5963776, .atLeast .firefox 1835008, .atLeast .opera 4194304, .atLeast .safari 983040, .atLeast .iosSaf 983040, .atLeast .samsung 1048576, .atLeast .android 5963776, .absent [.ie]]
  -- lines 5071-5115
  | .disclosureClosedListStyleType | .disclosureOpenListStyleType =>
    [.atLeast .chrome 5832704, .atLeast .edge 5832704, .atLeast .firefox 2162688, .atLeast .opera 4128768, .atLeast .safari 983040, .atLeast .iosSaf 983040, .atLeast .samsung 983040, .atLeast .android 5832704, .absent [.ie]]
  -- lines 5116-5163
  | .ethiopicNumericListStyleType | .japaneseFormalListStyleType | .japaneseInformalListStyleType | .tamilListStyleType =>
    [.atLeast .chrome 5963776, .atLeast .edge 5963776, .atLeast .firefox 262144, .atLeast .opera 4194304, .atLeast .safari 983040, .atLeast .iosSaf 983040, .atLeast .samsung 1048576, .atLeast .android 5963776, .absent [.ie]]
  -- lines 5164-5216
  | .hebrewListStyleType | .hiraganaListStyleType | .hiraganaIrohaListStyleType | .katakanaListStyleType | .katakanaIrohaListStyleType | .noneListStyleType | .autoSize =>
    [.atLeast .chrome 1179648, .atLeast .edge 786432, .atLeast .firefox 262144, .atLeast .ie 720896, .atLeast .opera 917504, .atLeast .safari 65536, .atLeast .iosSaf 65536, .atLeast .samsung 65536, .atLeast .android 263168]
  -- lines 5217-5263
  | .koreanHangulFormalListStyleType | .koreanHanjaFormalListStyleType | .koreanHanjaInformalListStyleType =>
    [.atLeast .chrome 2949120, .atLeast .edge 5177344, .atLeast .firefox 1835008, .atLeast .opera 2097152, .atLeast .safari 983040, .atLeast .iosSaf 983040, .atLeast .samsung 327680, .atLeast .android 2949120, .absent [.ie]]
  -- lines 5264-5308
  | .lowerArmenianListStyleType | .upperArmenianListStyleType =>
    [.atLeast .chrome 1179648, .atLeast .edge 5177344, .atLeast .firefox 2162688, .atLeast .opera 917504, .atLeast .safari 327936, .atLeast .iosSaf 327680, .atLeast .samsung 65536, .atLeast .android 263168, .absent [.ie]]
  -- lines 5309-5355
  | .lowerLatinListStyleType =>
    [.atLeast .chrome 1179648, .atLeast .edge 786432, .atLeast .firefox 262144, .atLeast .ie 524288, .atLeast .opera 655616, .atLeast .safari 65536, .atLeast .iosSaf 65536, .atLeast .samsung 327680, .atLeast .android 263168]
  -- lines 5356-5403
  | .simpChineseFormalListStyleType | .simpChineseInformalListStyleType | .tradChineseFormalListStyleType | .tradChineseInformalListStyleType =>
    [.atLeast .chrome 2949120, .atLeast .edge 5177344, .atLeast .firefox 262144, .atLeast .opera 2097152, .atLeast .safari 983040, .atLeast .iosSaf 983040, .atLeast .samsung 327680, .atLeast .android 2949120, .absent [.ie]]
  -- lines 5404-5448
  | .stringListStyleType =>
    [.atLeast .chrome 5177344, .atLeast .edge 5177344, .atLeast .firefox 2555904, .atLeast .opera 3735552, .atLeast .safari 917760, .atLeast .iosSaf 918784, .atLeast .samsung 786432, .atLeast .android 5177344, .absent [.ie]]
  -- lines 5449-5466
  | .symbolsListStyleType =>
    [.atLeast .firefox 2293760, .absent [.android, .chrome, .edge, .ie, .iosSaf, .opera, .safari, .samsung]]
  -- lines 5467-5511
  | .anchorSizeSize =>
    [.atLeast .chrome 8192000, .atLeast .edge 8192000, .atLeast .firefox 9633792, .atLeast .opera 5439488, .atLeast .safari 1703936, .atLeast .iosSaf 1703936, .atLeast .samsung 1769472, .atLeast .android 8192000, .absent [.ie]]
  -- lines 5512-5556
  | .fitContentSize =>
    [.atLeast .chrome 1638400, .atLeast .edge 5177344, .atLeast .firefox 262144, .atLeast .opera 917504, .atLeast .safari 458752, .atLeast .iosSaf 458752, .atLeast .samsung 66816, .atLeast .android 263168, .absent [.ie]]
  -- lines 5557-5601
  | .maxContentSize =>
    [.atLeast .chrome 1638400, .atLeast .edge 5177344, .atLeast .firefox 262144, .atLeast .opera 2818048, .atLeast .safari 720896, .atLeast .iosSaf 720896, .atLeast .samsung 66816, .atLeast .android 263168, .absent [.ie]]
  -- lines 5602-5646
  | .minContentSize =>
    [.atLeast .chrome 3014656, .atLeast .edge 5177344, .atLeast .firefox 262144, .atLeast .opera 2162688, .atLeast .safari 720896, .atLeast .iosSaf 720896, .atLeast .samsung 327680, .atLeast .android 3014656, .absent [.ie]]
  -- lines 5647-5676
  | .stretchSize =>
    [.atLeast .chrome 9043968, .atLeast .edge 9043968, .atLeast .opera 5963776, .atLeast .android 9043968, .absent [.firefox, .ie, .iosSaf, .safari, .samsung]]
  -- lines 5677-5706
  | .webkitFillAvailableSize =>
    [.atLeast .firefox 9568256, .atLeast .safari 458752, .atLeast .iosSaf 458752, .atLeast .samsung 327680, .absent [.android, .chrome, .edge, .ie, .opera]]
  -- lines 5707-5728
  | .p3Colors | .langSelectorList =>
    [.atLeast .safari 655616, .atLeast .iosSaf 656128, .absent [.android, .chrome, .edge, .firefox, .ie, .opera, .samsung]]

end Verif.Targets
