{
  "claims": [
    {
      "property": "C01",
      "status": "proved",
      "theorems": [
        "Verif.Media.C01_list_or",
        "Verif.Media.C01_empty_counterexample"
      ],
      "note": "Non-empty lists. The second theorem shows why non-emptiness is needed."
    },
    {
      "property": "C02",
      "status": "partial",
      "theorems": [
        "Verif.Media.C02_list_and_partial",
        "Verif.Media.C02_counterexamples"
      ],
      "note": "The code does not satisfy the full property (comma lists are conjoined together, equal queries are skipped); proved under the guard, with counterexamples outside it."
    },
    {
      "property": "C03",
      "status": "partial",
      "theorems": [
        "Verif.Media.C03_query_and_partial",
        "Verif.Media.C03_query_and_ok",
        "Verif.Media.C03_counterexamples"
      ],
      "note": "The code does not satisfy the full property (`not` with conditions, differing types); counterexamples proved."
    },
    {
      "property": "C04",
      "status": "proved",
      "theorems": [
        "Verif.Media.C04_always_matches",
        "Verif.Media.C04_never_matches"
      ],
      "note": ""
    },
    {
      "property": "C05",
      "status": "partial",
      "theorems": [
        "Verif.Media.C05_text_meaning_unique",
        "Verif.Media.C05_print_means_partial",
        "Verif.Media.C05_roundtrip_partial",
        "Verif.Media.C05_parse_sound_partial",
        "Verif.Media.C05_query_print_means_partial",
        "Verif.Media.C05_query_roundtrip_partial",
        "Verif.Media.C05_list_print_means_partial",
        "Verif.Media.C05_list_roundtrip_partial",
        "Verif.Media.C05_counterexample_not_eq",
        "Verif.Media.C05_counterexample_hidden_or",
        "Verif.Media.C05_counterexample_empty_list",
        "Verif.Media.C05_counterexample_parse"
      ],
      "note": "Proved for conditions outside the shapes the printer or parser gets wrong (each shown wrong by a counterexample theorem)."
    },
    {
      "property": "C06",
      "status": "partial",
      "theorems": [
        "Verif.Media.C06_range_lowering",
        "Verif.Media.C06_no_range_syntax",
        "Verif.Media.C06_lowering_same_meaning_partial"
      ],
      "note": "Lowered ranges and intervals keep their meaning and use no range syntax; the statement for whole conditions needs the guard of C05."
    },
    {
      "property": "C07",
      "status": "partial",
      "theorems": [
        "Verif.Media.C07_expand_partial",
        "Verif.Media.C07_list_partial",
        "Verif.Media.C07_counterexample_media_type",
        "Verif.Media.C07_counterexample_errors"
      ],
      "note": "Proved for definitions without media types; the code is wrong for the others (counterexamples)."
    },
    {
      "property": "C08",
      "status": "proved",
      "theorems": [
        "Verif.Supports.C08_and",
        "Verif.Supports.C08_or"
      ],
      "note": ""
    },
    {
      "property": "C09",
      "status": "partial",
      "theorems": [
        "Verif.Supports.C09_print_means",
        "Verif.Supports.C09_parse_partial",
        "Verif.Supports.C09_roundtrip_partial",
        "Verif.Supports.C09_counterexample_dropped",
        "Verif.Supports.C09_counterexample_merged",
        "Verif.Supports.C09_counterexample_roundtrip"
      ],
      "note": "Printing is proved for all conditions. Parsing and the round trip are proved for text without vendor-prefixed declarations; for prefixed declarations in and/or lists the code drops or merges prefixes (counterexamples)."
    },
    {
      "property": "C10",
      "status": "proved",
      "theorems": [
        "Verif.Targets.C10_supports_scope"
      ],
      "note": ""
    },
    {
      "property": "C100",
      "status": "proved",
      "theorems": [
        "Verif.Fallback.C100_versions"
      ],
      "note": ""
    },
    {
      "property": "C101",
      "status": "partial",
      "theorems": [
        "Verif.Fallback.C101_no_crash_partial",
        "Verif.Fallback.C101_crash"
      ],
      "note": "light-dark() with keywords in a token list crashes (counterexample)."
    },
    {
      "property": "C102",
      "status": "partial",
      "theorems": [
        "Verif.Fallback.C102_covered_partial",
        "Verif.Fallback.C102_unresolved"
      ],
      "note": "Not covered: light-dark() with var() (counterexample)."
    },
    {
      "property": "C103",
      "status": "partial",
      "theorems": [
        "Verif.Fallback.C103_best_partial",
        "Verif.Fallback.C103_custom",
        "Verif.Fallback.C103_color"
      ],
      "note": "Proved for keyframes and font palettes without color() spaces other than P3; counterexamples for custom properties and color()."
    },
    {
      "property": "C104",
      "status": "partial",
      "theorems": [
        "Verif.PrefixFb.C104_written_partial",
        "Verif.PrefixFb.C104_knowing_partial",
        "Verif.PrefixFb.C104_same_partial",
        "Verif.PrefixFb.C104_overwrites",
        "Verif.PrefixFb.C104_autoprefix",
        "Verif.PrefixFb.C104_unparsed",
        "Verif.PrefixFb.C104_values"
      ],
      "note": "Three sufficient conditions (each name at most once; all names known; same value); counterexamples for the rest."
    },
    {
      "property": "C105",
      "status": "partial",
      "theorems": [
        "Verif.PrefixFb.C105_cascade_partial",
        "Verif.PrefixFb.C105_no_targets",
        "Verif.PrefixFb.C105_filter",
        "Verif.PrefixFb.C105_backdrop"
      ],
      "note": "Proved for unprefixed properties with target browsers; counterexamples: no targets, filter, backdrop-filter."
    },
    {
      "property": "C106",
      "status": "partial",
      "theorems": [
        "Verif.PrefixFb.C106_last_partial",
        "Verif.PrefixFb.C106_stale",
        "Verif.PrefixFb.C106_stale_unparsed"
      ],
      "note": "Proved if earlier declarations need no or the same @supports rules; counterexample otherwise."
    },
    {
      "property": "C107",
      "status": "proved",
      "theorems": [
        "Verif.Grid.C107_string",
        "Verif.Grid.C107_read",
        "Verif.Grid.C107_print",
        "Verif.Grid.C107_unique",
        "Verif.Grid.C107_round_trip",
        "Verif.Grid.C107_empty"
      ],
      "note": "For every value but the empty one, which the parser accepts (C107_empty)."
    },
    {
      "property": "C108",
      "status": "partial",
      "theorems": [
        "Verif.Grid.C108_line",
        "Verif.Grid.C108_placement",
        "Verif.Grid.C108_area",
        "Verif.Grid.C108_print",
        "Verif.Grid.C108_accept_partial",
        "Verif.Grid.C108_span_last"
      ],
      "note": "Whatever is read is printed with the same meaning; values with the word span last are partly rejected (`a span`) or read differently (`2 span` is read as a line named span, but printed as it was written)."
    },
    {
      "property": "C109",
      "status": "partial",
      "theorems": [
        "Verif.Grid.C109_print",
        "Verif.Grid.C109_read",
        "Verif.Grid.C109_accept_partial",
        "Verif.Grid.C109_round_trip_partial",
        "Verif.Grid.C109_dense"
      ],
      "note": "Missing: the value `dense` alone is not accepted, though the minifier prints it (C109_dense)."
    },
    {
      "property": "C11",
      "status": "proved",
      "theorems": [
        "Verif.Targets.C11_should_compile",
        "Verif.Targets.C11_no_targets",
        "Verif.Targets.C11_selectors"
      ],
      "note": ""
    },
    {
      "property": "C110",
      "status": "partial",
      "theorems": [
        "Verif.Grid.C110_read",
        "Verif.Grid.C110_round_trip",
        "Verif.Grid.C110_print",
        "Verif.Grid.C110_unique",
        "Verif.Grid.C110_auto",
        "Verif.Grid.C110_auto_read",
        "Verif.Grid.C110_repeat_unchecked"
      ],
      "note": "Everything for values of the grammar; the parser also accepts repeat(0, ..) and repeat() without tracks (C110_repeat_unchecked). Auto-repetition restrictions are not in the grammar of the model."
    },
    {
      "property": "C111",
      "status": "partial",
      "theorems": [
        "Verif.Grid.C111_read_partial",
        "Verif.Grid.C111_print_partial",
        "Verif.Grid.C111_minified",
        "Verif.Grid.C111_unique",
        "Verif.Grid.C111_names_shifted",
        "Verif.Grid.C111_none_rows",
        "Verif.Grid.C111_two_names",
        "Verif.Grid.C111_rows_dropped"
      ],
      "note": "Minified output is proved for every template; reading needs line names before the first row or none later, and rows that are not `none`; the counterexamples show why."
    },
    {
      "property": "C112",
      "status": "partial",
      "theorems": [
        "Verif.Grid.C112_read_partial",
        "Verif.Grid.C112_print_partial",
        "Verif.Grid.C112_no_panic",
        "Verif.Grid.C112_auto_columns_lost"
      ],
      "note": "Printing needs as many rows of areas as row tracks (the handler pads them), and no implicit columns with areas and no rows (C112_auto_columns_lost)."
    },
    {
      "property": "C113",
      "status": "partial",
      "theorems": [
        "Verif.Grid.C113_run_partial",
        "Verif.Grid.C113_partial",
        "Verif.Grid.C113_empty_areas",
        "Verif.Grid.C113_more_rows",
        "Verif.Grid.C113_auto_columns",
        "Verif.Grid.C113_padding_stays"
      ],
      "note": "All lists of declarations; excluded are the combinations of the four counterexamples."
    },
    {
      "property": "C114",
      "status": "partial",
      "theorems": [
        "Verif.Grid.C114_suffix_partial",
        "Verif.Grid.C114_injective",
        "Verif.Grid.C114_error",
        "Verif.Grid.C114_cells_partial",
        "Verif.Grid.C114_two_locals",
        "Verif.Grid.C114_plus"
      ],
      "note": "Needs exactly one [local] in the pattern (the code checks only the end), and cells need ident characters in the other segments."
    },
    {
      "property": "C115",
      "status": "proved",
      "theorems": [
        "Verif.UniRange.C115_print",
        "Verif.UniRange.C115_unique"
      ],
      "note": "The parser is in the crate cssparser."
    },
    {
      "property": "C116",
      "status": "proved",
      "theorems": [
        "Verif.Transition.C116_curve",
        "Verif.Transition.C116_accepts",
        "Verif.Transition.C116_isEase"
      ],
      "note": "Numbers are exact decimals; the ranges of numbers of cubic-bezier and steps are not checked by the code and not part of the specification."
    },
    {
      "property": "C117",
      "status": "partial",
      "theorems": [
        "Verif.Transition.C117_read",
        "Verif.Transition.C117_unique",
        "Verif.Transition.C117_print_partial",
        "Verif.Transition.C117_print_fails"
      ],
      "note": "Reading is complete; printing fails for a property that is named like an easing keyword (counterexample)."
    },
    {
      "property": "C118",
      "status": "partial",
      "theorems": [
        "Verif.Transition.C118_effect_partial",
        "Verif.Transition.C118_duplicates_fails",
        "Verif.Transition.C118_multi_fails",
        "Verif.Transition.C118_longhands_fails"
      ],
      "note": "Proved for declarations with one prefix that set all four longhands, names all different, no multi-valued logical shorthand, no mask names, no inline sizes in rtl; each exclusion with a counterexample (C121 for masks, C120 for inline sizes)."
    },
    {
      "property": "C119",
      "status": "partial",
      "theorems": [
        "Verif.Transition.C119_prefixes_partial",
        "Verif.Transition.C119_unknown_prefix_fails",
        "Verif.Transition.C119_lengths_fails"
      ],
      "note": "Proved for a browser that knows the prefixes of the source, lists of the same length; counterexamples otherwise."
    },
    {
      "property": "C12",
      "status": "proved",
      "theorems": [
        "Verif.Targets.C12_monotone",
        "Verif.Targets.C12_per_browser",
        "Verif.Targets.C12_partially"
      ],
      "note": "The whole compat table is in the model (generated from compat.rs)."
    },
    {
      "property": "C120",
      "status": "partial",
      "theorems": [
        "Verif.Transition.C120_ltr",
        "Verif.Transition.C120_rtl_partial",
        "Verif.Transition.C120_rtl_fails",
        "Verif.Transition.C120_others"
      ],
      "note": "Complete for ltr; in rtl inline sizes become heights (counterexample)."
    },
    {
      "property": "C121",
      "status": "partial",
      "theorems": [
        "Verif.Transition.C121_no_panic_partial",
        "Verif.Transition.C121_panics"
      ],
      "note": "Panics when a list has mask names and logical inline names (counterexample)."
    },
    {
      "property": "C122",
      "status": "partial",
      "theorems": [
        "Verif.Size.C122_size_partial",
        "Verif.Size.C122_ready",
        "Verif.Size.C122_mixed_fails",
        "Verif.Size.C122_prefixed_fails",
        "Verif.Size.C122_order_fails",
        "Verif.Size.C122_ie"
      ],
      "note": "Proved for blocks that do not set a dimension under both names, and browsers that understand the declared values that the compat table calls supported; counterexamples for each hypothesis."
    },
    {
      "property": "C123",
      "status": "proved",
      "theorems": [
        "Verif.Size.C123_parse",
        "Verif.Size.C123_print"
      ],
      "note": ""
    },
    {
      "property": "C124",
      "status": "proved",
      "theorems": [
        "Verif.Size.C124_parse",
        "Verif.Size.C124_print",
        "Verif.Size.C124_unique"
      ],
      "note": ""
    },
    {
      "property": "C125",
      "status": "partial",
      "theorems": [
        "Verif.Size.C125_no_panic_partial",
        "Verif.Size.C125_include_fails"
      ],
      "note": "Panics with the option include: VendorPrefixes and the keyword stretch (counterexample); proved without that option."
    },
    {
      "property": "C126",
      "status": "partial",
      "theorems": [
        "Verif.Radius.C126_radius_partial",
        "Verif.Radius.C126_ready",
        "Verif.Radius.C126_order_fails",
        "Verif.Radius.C126_prefix_fails",
        "Verif.Radius.C126_merged_prefix_fails",
        "Verif.Radius.C126_value_fails"
      ],
      "note": "proved for values and prefixes that the browser knows, and, where logical corners are compiled, for blocks with no physical longhand after them; counterexamples for the rest"
    },
    {
      "property": "C127",
      "status": "proved",
      "theorems": [
        "Verif.Display.C127_complete",
        "Verif.Display.C127_print",
        "Verif.Display.C127_short"
      ],
      "note": ""
    },
    {
      "property": "C128",
      "status": "partial",
      "theorems": [
        "Verif.Display.C128_display_partial",
        "Verif.Display.C128_modern",
        "Verif.Display.C128_prefixed",
        "Verif.Display.C128_after_flex_fails",
        "Verif.Display.C128_fallback_fails"
      ],
      "note": "proved for browsers that know the values (or at least those that are no prefixed form of the value before); counterexamples for the rest"
    },
    {
      "property": "C129",
      "status": "partial",
      "theorems": [
        "Verif.Display.C129_value",
        "Verif.Display.C129_overflow_partial",
        "Verif.Display.C129_clip_fails"
      ],
      "note": "proved for values that the browser knows; a counterexample for others"
    },
    {
      "property": "C13",
      "status": "proved",
      "theorems": [
        "Verif.Targets.C13_union",
        "Verif.Targets.C13_monotone",
        "Verif.Targets.C13_engine",
        "Verif.Targets.C13_targets"
      ],
      "note": "The whole prefix table is in the model (generated from prefixes.rs)."
    },
    {
      "property": "C130",
      "status": "partial",
      "theorems": [
        "Verif.Display.C130_sound_partial",
        "Verif.Display.C130_twice_fails"
      ],
      "note": "proved if list-item is there once at most and prefixed names are alone; a counterexample for a repeated list-item"
    },
    {
      "property": "C131",
      "status": "proved",
      "theorems": [
        "Verif.Animation.C131_read"
      ],
      "note": ""
    },
    {
      "property": "C132",
      "status": "partial",
      "theorems": [
        "Verif.Animation.C132_print_partial",
        "Verif.Animation.C132_no_name_fails",
        "Verif.Animation.C132_easing_case_fails",
        "Verif.Animation.C132_infinite_case_fails",
        "Verif.Animation.C132_empty_name_fails",
        "Verif.Animation.C132_timeline_none_fails"
      ],
      "note": "Missing: names that the printer confuses with keywords in another letter case, nameless animations, the empty string, and the timeline none; each has a counterexample."
    },
    {
      "property": "C133",
      "status": "proved",
      "theorems": [
        "Verif.Animation.C133_scroll",
        "Verif.Animation.C133_scroll_print",
        "Verif.Animation.C133_view",
        "Verif.Animation.C133_view_print"
      ],
      "note": ""
    },
    {
      "property": "C134",
      "status": "partial",
      "theorems": [
        "Verif.Animation.Rng.C134_read_partial",
        "Verif.Animation.Rng.C134_print_partial",
        "Verif.Animation.Rng.C134_bare_end_fails",
        "Verif.Animation.Rng.C134_normal_fails",
        "Verif.Animation.Rng.C134_offset_fails"
      ],
      "note": "Missing: a bare range name as end, and ends that equal a default of another form (counterexamples)."
    },
    {
      "property": "C135",
      "status": "partial",
      "theorems": [
        "Verif.Animation.Hd.C135_longhands_partial",
        "Verif.Animation.Hd.C135_other_prefix_fails",
        "Verif.Animation.Hd.C135_drained_fails"
      ],
      "note": "All blocks with all prefixes and var(), in browsers that know the prefixes of the source. Missing: browsers that know only some of them (counterexamples)."
    },
    {
      "property": "C136",
      "status": "partial",
      "theorems": [
        "Verif.Animation.Hd.C136_timeline_partial",
        "Verif.Animation.Hd.C136_prefixed_fails"
      ],
      "note": "As C135; missing also blocks in which all eight longhands are prefixed (counterexample)."
    },
    {
      "property": "C137",
      "status": "partial",
      "theorems": [
        "Verif.Animation.Hd.C137_ranges_partial",
        "Verif.Animation.Hd.C137_lost_reset_fails",
        "Verif.Animation.Hd.C137_new_reset_fails"
      ],
      "note": "Missing: ranges of other rules (counterexamples), blocks with var() or with several prefixes."
    },
    {
      "property": "C138",
      "status": "partial",
      "theorems": [
        "Verif.Animation.Hd.C138_composition_partial",
        "Verif.Animation.Hd.C138_shorthand_fails"
      ],
      "note": "Missing: blocks with the shorthand or all eight longhands (counterexample)."
    },
    {
      "property": "C139",
      "status": "proved",
      "theorems": [
        "Verif.Animation.Hd.C139_supported"
      ],
      "note": ""
    },
    {
      "property": "C14",
      "status": "proved",
      "theorems": [
        "Verif.Targets.C14_lowest_version"
      ],
      "note": "browserslist resolution itself is outside."
    },
    {
      "property": "C140",
      "status": "proved",
      "theorems": [
        "Verif.Animation.Rng.C140_longhands"
      ],
      "note": ""
    },
    {
      "property": "C141",
      "status": "partial",
      "theorems": [
        "Verif.Font.C141_print_partial",
        "Verif.Font.C141_read_partial",
        "Verif.Font.C141_accept_partial",
        "Verif.Font.C141_space_fails",
        "Verif.Font.C141_blank_fails",
        "Verif.Font.C141_wide_fails"
      ],
      "note": "Missing: names with spaces at the ends (lost), names with a CSS-wide keyword as a word, lists in which a generic name is followed by another word (rejected)."
    },
    {
      "property": "C142",
      "status": "partial",
      "theorems": [
        "Verif.Font.C142_read_partial",
        "Verif.Font.C142_accept_partial",
        "Verif.Font.C142_zero_fails",
        "Verif.Font.C142_weight_fails"
      ],
      "note": "Missing: weights out of range are accepted; the size 0 without a weight is taken as a weight."
    },
    {
      "property": "C143",
      "status": "partial",
      "theorems": [
        "Verif.Font.C143_print_partial",
        "Verif.Font.C143_stretch_fails"
      ],
      "note": "Missing: in minified output a font-stretch other than normal is written as a percentage, which font does not accept."
    },
    {
      "property": "C144",
      "status": "partial",
      "theorems": [
        "Verif.Font.C144_modern_partial",
        "Verif.Font.C144_stretch_fails",
        "Verif.Font.C144_reset_fails"
      ],
      "note": "Missing: percentages for font-stretch merged into font; properties that font resets and that the handler does not track."
    },
    {
      "property": "C145",
      "status": "partial",
      "theorems": [
        "Verif.Font.C145_older_partial",
        "Verif.Font.C145_merge_fails",
        "Verif.Font.C145_override_fails"
      ],
      "note": "Missing: blocks in which a shorthand is written with a value that the older browser does not know."
    },
    {
      "property": "C146",
      "status": "proved",
      "theorems": [
        "Verif.Font.C146_dedupe",
        "Verif.Font.C146_nodup"
      ],
      "note": ""
    },
    {
      "property": "C147",
      "status": "proved",
      "theorems": [
        "Verif.Font.C147_system",
        "Verif.Font.C144_modern_partial"
      ],
      "note": "C144_modern_partial has the case of a known system-ui."
    },
    {
      "property": "C148",
      "status": "proved",
      "theorems": [
        "Verif.Border.C148_modern"
      ],
      "note": "Any block, any writing mode, browsers that accept all values. If only the axis shorthands are unsupported the theorem is for horizontal writing (C148_vertical shows why). C148_older: for browsers that do not know a value, border-top drops its fallback."
    },
    {
      "property": "C149",
      "status": "proved",
      "theorems": [
        "Verif.Border.C149_block"
      ],
      "note": "Any block without logical inline sides, in horizontal writing."
    },
    {
      "property": "C15",
      "status": "partial",
      "theorems": [
        "Verif.Targets.C15_encoding_partial",
        "Verif.Targets.C15_order_partial",
        "Verif.Targets.C15_counterexample"
      ],
      "note": "Components of 256 and more are truncated by the code; counterexample proved."
    },
    {
      "property": "C150",
      "status": "partial",
      "theorems": [
        "Verif.Border.C150_direction_partial",
        "Verif.Border.C150_order_lost"
      ],
      "note": "Missing: physical declarations or unparsed values after logical inline ones. C150_order_lost is the counterexample in the code."
    },
    {
      "property": "C151",
      "status": "partial",
      "theorems": [
        "Verif.Border.C151_physical_partial",
        "Verif.Border.C151_axis",
        "Verif.Border.C151_raw"
      ],
      "note": "Missing: blocks that set all twelve logical longhands, and unparsed values of a logical axis; C151_axis and C151_raw show that the code writes logical properties there."
    },
    {
      "property": "C152",
      "status": "proved",
      "theorems": [
        "Verif.Border.C152_image"
      ],
      "note": "For browsers that accept the values. C152_fallback_lost (beside it) shows that a fallback of border-image for older browsers is reset by a border written after it."
    },
    {
      "property": "C153",
      "status": "partial",
      "theorems": [
        "Verif.Border.C153_border_last",
        "Verif.Border.C153_merged_resets",
        "Verif.Border.C153_not_reset"
      ],
      "note": "Proved if border is the last declaration. The other direction is false in the code: four equal sides are merged to border, which resets border-image; four different sides after border do not reset it."
    },
    {
      "property": "C154",
      "status": "proved",
      "theorems": [
        "Verif.Background.C154_round_trip"
      ],
      "note": "All layers, both print modes; positions, images, colours and lengths are opaque tokens."
    },
    {
      "property": "C155",
      "status": "partial",
      "theorems": [
        "Verif.Background.C155_layers_partial",
        "Verif.Background.C155_empty",
        "Verif.Background.C155_color"
      ],
      "note": "If and only if, for all token lists; but the code accepts an empty value and a colour on layers other than the last (counterexamples)."
    },
    {
      "property": "C156",
      "status": "proved",
      "theorems": [
        "Verif.Background.C156_longhands"
      ],
      "note": "All blocks without vendor-prefixed images, all environments in which fallbacks are of the same property."
    },
    {
      "property": "C157",
      "status": "partial",
      "theorems": [
        "Verif.Background.C157_prefixed_partial",
        "Verif.Background.C157_verbatim",
        "Verif.Background.C157_var",
        "Verif.Background.C157_color",
        "Verif.Background.C157_dropped"
      ],
      "note": "Holds for browsers that understand everything when nothing is flushed early; prefixed values followed by a last one are kept verbatim without targets; counterexamples for var(), for the colour of a prefixed shorthand, and for an unprefixed value between prefixed ones."
    },
    {
      "property": "C158",
      "status": "partial",
      "theorems": [
        "Verif.Background.C158_get_partial",
        "Verif.Background.C158_var"
      ],
      "note": "All blocks without var(); with var() the answer is stale (counterexample)."
    },
    {
      "property": "C159",
      "status": "proved",
      "theorems": [
        "Verif.Background.C159_set"
      ],
      "note": "All values and declarations."
    },
    {
      "property": "C16",
      "status": "proved",
      "theorems": [
        "Verif.Targets.C16_json_roundtrip",
        "Verif.Targets.C16_deserialize",
        "Verif.Targets.C16_empty_counterexample"
      ],
      "note": ""
    },
    {
      "property": "C160",
      "status": "proved",
      "theorems": [
        "Verif.Background.C160_longhands"
      ],
      "note": "All values."
    },
    {
      "property": "C161",
      "status": "partial",
      "theorems": [
        "Verif.Flex.C161_modern_partial",
        "Verif.Flex.C161_overwritten"
      ],
      "note": "Proved for blocks where no declaration of the longhand with prefixes unknown to the browser follows one it reads; false in general: C161_overwritten (the value of a later prefixed declaration replaces that of the unprefixed one)."
    },
    {
      "property": "C162",
      "status": "partial",
      "theorems": [
        "Verif.Flex.C162_old_partial",
        "Verif.Flex.C162_direction",
        "Verif.Flex.C162_lines",
        "Verif.Flex.C162_own",
        "Verif.Flex.C162_ordinal"
      ],
      "note": "Proved for blocks of unprefixed declarations: orient, direction, flex and ordinal group. False: box-lines is not written beside flex-flow (C162_lines), generated box-orient overrides that of the source (C162_own), order 1 becomes the initial group (C162_ordinal)."
    },
    {
      "property": "C163",
      "status": "proved",
      "theorems": [
        "Verif.Flex.C163_ie10"
      ],
      "note": ""
    },
    {
      "property": "C164",
      "status": "proved",
      "theorems": [
        "Verif.Parse.C164_never_fails"
      ],
      "note": "Tokens, selectors, preludes and values are abstract: an item parses or not."
    },
    {
      "property": "C165",
      "status": "partial",
      "theorems": [
        "Verif.Parse.C165_recovery_partial",
        "Verif.Parse.C165_lost",
        "Verif.Parse.C165_property"
      ],
      "note": "Proved if in every block no invalid item comes after a declaration. False in general: an invalid item deletes the declarations before it in the block (C165_lost); @property in style rules is kept (C165_property)."
    },
    {
      "property": "C166",
      "status": "proved",
      "theorems": [
        "Verif.Parse.C166_valid"
      ],
      "note": ""
    },
    {
      "property": "C167",
      "status": "partial",
      "theorems": [
        "Verif.Parse.C167_strict_partial",
        "Verif.Parse.C167_parts",
        "Verif.Parse.C167_property"
      ],
      "note": "Errors inside @font-face and @keyframes are dropped silently (C167_parts); @property in style rules is accepted (C167_property)."
    },
    {
      "property": "C168",
      "status": "proved",
      "theorems": [
        "Verif.Parse.C168_again"
      ],
      "note": ""
    },
    {
      "property": "C169",
      "status": "partial",
      "theorems": [
        "Verif.Parse.C169_import_sound",
        "Verif.Parse.C169_import_partial",
        "Verif.Parse.C169_after_error"
      ],
      "note": "Accepted imports are always in a valid place; all those in a valid place are accepted if the rules before have no errors. False in general: C169_after_error."
    },
    {
      "property": "C17",
      "status": "partial",
      "theorems": [
        "Verif.Declarations.C17_get_after_set_partial",
        "Verif.Declarations.C17_frame",
        "Verif.Declarations.C17_shorthand_partial",
        "Verif.Declarations.C17_counterexample_important",
        "Verif.Declarations.C17_counterexample_border",
        "Verif.Declarations.C17_counterexample_shorthand",
        "Verif.Declarations.C17_counterexample_list"
      ],
      "note": "Full statement is false of the code (four counterexample theorems); proved for longhands and non-list shorthands outside those cases, the frame part is unconditional."
    },
    {
      "property": "C170",
      "status": "proved",
      "theorems": [
        "Verif.Cow.C170_texts",
        "Verif.Cow.C170_eq"
      ],
      "note": ""
    },
    {
      "property": "C171",
      "status": "proved",
      "theorems": [
        "Verif.Cow.C171_no_leak"
      ],
      "note": ""
    },
    {
      "property": "C172",
      "status": "proved",
      "theorems": [
        "Verif.Downlevel.C172_same_elements",
        "Verif.Downlevel.C172_same_specificity"
      ],
      "note": "Prefixes do not change the meaning of a pseudo; forgiving parsing of :is() arguments is not modelled. `:dir()` under the hypothesis that direction follows from language."
    },
    {
      "property": "C173",
      "status": "partial",
      "theorems": [
        "Verif.Downlevel.C173_needed_prefix_partial",
        "Verif.Downlevel.C173_standard_last",
        "Verif.Downlevel.C173_no_targets",
        "Verif.Downlevel.C173_slotted_wrong"
      ],
      "note": "Prefixes inside ::slotted(), :host(), :nth-child(of) are not added (counterexample)."
    },
    {
      "property": "C174",
      "status": "partial",
      "theorems": [
        "Verif.Downlevel.C174_prefixed_unchanged_partial",
        "Verif.Downlevel.C174_not_wrong",
        "Verif.Downlevel.C174_is_wrong"
      ],
      "note": "Holds for selectors without functional pseudo-classes; `:not(:-webkit-any-link)` loses its prefix and `:is(..):-webkit-any-link` gains an unprefixed copy, without targets."
    },
    {
      "property": "C175",
      "status": "partial",
      "theorems": [
        "Verif.Downlevel.C175_merged_equivalent",
        "Verif.Downlevel.C175_prefixed_then_standard_partial",
        "Verif.Downlevel.C175_standard_first_wrong",
        "Verif.Downlevel.C175_two_prefixes_wrong",
        "Verif.Downlevel.C175_targets_wrong"
      ],
      "note": "Merging is sound for matching; printing keeps both variants only for one prefixed rule followed by the standard one; three counterexamples."
    },
    {
      "property": "C176",
      "status": "partial",
      "theorems": [
        "Verif.Downlevel.C176_any_valid_partial",
        "Verif.Downlevel.C176_not_wrong",
        "Verif.Downlevel.C176_is_wrong"
      ],
      "note": "Holds when :is()/:not() arguments are compound; two counterexamples with complex arguments."
    },
    {
      "property": "C177",
      "status": "proved",
      "theorems": [
        "Verif.Downlevel.C177_types_first"
      ],
      "note": "Hypothesis: no argument starts with two namespaces (the parser produces at most one)."
    },
    {
      "property": "C178",
      "status": "proved",
      "theorems": [
        "Verif.Bundler.C27_order_terminates",
        "Verif.Bundler.C27_load_terminates",
        "Verif.Bundler.C27_at_most_once"
      ],
      "note": "The parts of C27 that hold without conditions."
    },
    {
      "property": "C179",
      "status": "proved",
      "theorems": [
        "Verif.Modules.C32_ident",
        "Verif.Modules.C32_scoped_text",
        "Verif.Modules.C32_injective"
      ],
      "note": "The parts of C32 about a single name. Names have no NUL and the first segment of the pattern gives some text."
    },
    {
      "property": "C18",
      "status": "partial",
      "theorems": [
        "Verif.Declarations.C18_removed_partial",
        "Verif.Declarations.C18_others_partial",
        "Verif.Declarations.C18_shorthand",
        "Verif.Declarations.C18_shorthand_removed_partial",
        "Verif.Declarations.C18_counterexample_overlap",
        "Verif.Declarations.C18_counterexample_prefix",
        "Verif.Declarations.C18_counterexample_lost",
        "Verif.Declarations.C18_counterexample_unparsed"
      ],
      "note": "Full statement is false of the code (counterexample theorems); proved for unprefixed longhands in every block and for shorthands."
    },
    {
      "property": "C180",
      "status": "proved",
      "theorems": [
        "Verif.Selectors.Bloom.no_false_negatives",
        "Verif.Selectors.Bloom.no_underflow",
        "Verif.Selectors.Bloom.slots_in_bounds",
        "Verif.Selectors.Bloom.bool_no_false_negatives"
      ],
      "note": "C38 without the statement about zeroing."
    },
    {
      "property": "C181",
      "status": "proved",
      "theorems": [
        "Verif.Selectors.Nth.nth_child_index_correct",
        "Verif.Selectors.Nth.matches_generic_correct"
      ],
      "note": "The part of C39 about the index; the arithmetic of An+B is in C39."
    },
    {
      "property": "C182",
      "status": "proved",
      "theorems": [
        "Verif.Selectors.Unused.is_unused_sound"
      ],
      "note": "The part of C44 about one selector list; rule trees are in C44."
    },
    {
      "property": "C183",
      "status": "proved",
      "theorems": [
        "Verif.Units.print_read",
        "Verif.Units.print_read_unitless_zero",
        "Verif.Units.compare_amounts",
        "Verif.Units.add_amounts"
      ],
      "note": "The parts of C45 about values; math functions are in C45."
    },
    {
      "property": "C184",
      "status": "proved",
      "theorems": [
        "Verif.Supports.C09_print_means"
      ],
      "note": "The printing part of C09; parsing is in C09."
    },
    {
      "property": "C185",
      "status": "proved",
      "theorems": [
        "Verif.Rules.C26_split",
        "Verif.Rules.C26_forgiving"
      ],
      "note": "The split itself; what happens to the parts later is in C26."
    },
    {
      "property": "C186",
      "status": "proved",
      "theorems": [
        "Verif.Grid.C110_read",
        "Verif.Grid.C110_round_trip",
        "Verif.Grid.C110_print",
        "Verif.Grid.C110_unique"
      ],
      "note": "The parts of C110 that hold without conditions; C110_read also says what else is accepted."
    },
    {
      "property": "C187",
      "status": "proved",
      "theorems": [
        "Verif.Transition.C117_read",
        "Verif.Transition.C117_unique"
      ],
      "note": "The reading part of C117."
    },
    {
      "property": "C188",
      "status": "proved",
      "theorems": [
        "Verif.Parse.C169_import_sound"
      ],
      "note": "One direction of C169."
    },
    {
      "property": "C189",
      "status": "proved",
      "theorems": [
        "Verif.Grid.C111_minified",
        "Verif.Grid.C111_unique"
      ],
      "note": "The minified part of C111."
    },
    {
      "property": "C19",
      "status": "partial",
      "theorems": [
        "Verif.Handler.C19_custom",
        "Verif.Handler.C21_winner_partial",
        "Verif.Handler.C19_counterexample_direction_order",
        "Verif.Handler.C19_counterexample_direction_all",
        "Verif.Handler.C19_counterexample_stale_fallback"
      ],
      "note": "Custom properties: full statement for every block, targets and handler history (C19_custom). direction/unicode-bidi: proved for parsed declarations via C21_winner_partial; unparsed ones and stale @supports rules are bugs of the code, shown by the counterexamples."
    },
    {
      "property": "C190",
      "status": "proved",
      "theorems": [
        "Verif.SelParse.parse_iff",
        "Verif.SelParse.forgiving_exists_unique",
        "Verif.SelParse.reads_unique"
      ],
      "note": "The grammar is ReadsList in SelParse/Spec.lean with the dialect `code` (the points in which the code differs from CSS are the fields of Dialect). CSS Modules' :local/:global, >>> and /deep/ are not modelled; arguments of :lang() etc. are a parameter."
    },
    {
      "property": "C191",
      "status": "partial",
      "theorems": [
        "Verif.SelParse.parse_css_partial",
        "Verif.SelParse.has_elem_wrong",
        "Verif.SelParse.has_has_wrong",
        "Verif.SelParse.forgiving_wrong",
        "Verif.SelParse.slotted_wrong",
        "Verif.SelParse.host_wrong",
        "Verif.SelParse.cut_wrong",
        "Verif.SelParse.ms_wrong",
        "Verif.SelParse.after_wrong"
      ],
      "note": "Proved for token sequences that avoid the points in which the code differs from CSS; each point has a theorem \u2026_wrong."
    },
    {
      "property": "C192",
      "status": "partial",
      "theorems": [
        "Verif.SelParse.parseNested_sound_partial",
        "Verif.SelParse.parseNested_accepts",
        "Verif.SelParse.nested_of_wrong"
      ],
      "note": "`&` inside :nth-child(\u2026 of \u2026) and ::cue() is not noticed by the code (nested_of_wrong), so the theorem says only: read as it stands if & is among the tokens, with & and a descendant combinator only if & is not in the value outside those two."
    },
    {
      "property": "C193",
      "status": "proved",
      "theorems": [
        "Verif.SelParse.forgiving_kept"
      ],
      "note": ""
    },
    {
      "property": "C194",
      "status": "partial",
      "theorems": [
        "Verif.SelPrint.print_parse_partial",
        "Verif.SelPrint.nth_col_wrong",
        "Verif.SelPrint.is_amp_type_wrong",
        "Verif.SelPrint.amp_ns_wrong",
        "Verif.SelPrint.has_scope_wrong",
        "Verif.SelPrint.has_scope_class_wrong",
        "Verif.SelPrint.has_inner_scope_wrong",
        "Verif.SelPrint.nth_scope_wrong"
      ],
      "note": "Proved for every list the parser returns, at token level, except the selectors excluded by Printable, which the code prints wrong: :nth-col(1) and :nth-last-col(1); :is(&a) whose only selector has a type after &; &ns|* after a combinator; :scope in :has() other than that of a relative selector, and in :nth-child(An+B of ...). Counterexamples are proved. No parent rule, no compiled nesting (that is C53), no CSS modules."
    },
    {
      "property": "C195",
      "status": "partial",
      "theorems": [
        "Verif.TextDeco.decoration_partial",
        "Verif.TextDeco.thickness_lost_wrong",
        "Verif.TextDeco.thickness_overwritten_wrong",
        "Verif.TextDeco.prefix_union_wrong",
        "Verif.TextDeco.emphasis_union_wrong",
        "Verif.TextDeco.position_prefix_wrong"
      ],
      "note": "Proved for all sources without vendor prefixes. With prefixes in the source the code is wrong (thickness lost or overwritten, prefixes joined instead of intersected, the prefix of text-emphasis-position dropped): counterexamples are proved. Values are opaque."
    },
    {
      "property": "C196",
      "status": "partial",
      "theorems": [
        "Verif.TextDeco.align_partial",
        "Verif.TextDeco.align_physical",
        "Verif.TextDeco.align_order_wrong"
      ],
      "note": "Proved if the declarations of the block are all logical or all physical; mixed, the code lets the logical one win whatever the order (align_order_wrong)."
    },
    {
      "property": "C197",
      "status": "proved",
      "theorems": [
        "Verif.BoxShadow.parse_iff",
        "Verif.BoxShadow.parse_print",
        "Verif.BoxShadow.print_writes",
        "Verif.BoxShadow.print_shortest"
      ],
      "note": "Lengths and colours are opaque component values. Negative blur is read although CSS does not allow it: see C199."
    },
    {
      "property": "C198",
      "status": "proved",
      "theorems": [
        "Verif.BoxShadow.modern_same"
      ],
      "note": "For browsers that know all prefixes; for others, prefix_union_wrong and early_return_wrong are counterexamples."
    },
    {
      "property": "C199",
      "status": "partial",
      "theorems": [
        "Verif.BoxShadow.target_same_partial",
        "Verif.BoxShadow.fallback_shown",
        "Verif.BoxShadow.negative_blur_wrong",
        "Verif.BoxShadow.prefix_union_wrong",
        "Verif.BoxShadow.first_fallback_wrong",
        "Verif.BoxShadow.early_return_wrong"
      ],
      "note": "Blocks without prefixes, in browsers that read every value that is compatible with the targets. Wrong in general: a negative blur is accepted and overwrites a valid value (negative_blur_wrong); joined prefixes change the unprefixed value (prefix_union_wrong); the fallback is the one of an overwritten value (first_fallback_wrong); prefixes overwrite a prefixed value (early_return_wrong)."
    },
    {
      "property": "C20",
      "status": "proved",
      "theorems": [
        "Verif.Handler.C20_sides",
        "Verif.Handler.C20_counterexample_unknown_value"
      ],
      "note": "Any sequence of physical/logical/shorthand/unparsed declarations, all writing modes, targets supporting logical properties. The counterexample theorem shows what is not claimed: browsers that drop one unknown value."
    },
    {
      "property": "C200",
      "status": "proved",
      "theorems": [
        "Verif.LightDark.parse_print",
        "Verif.LightDark.parse_sound",
        "Verif.LightDark.only_alone_wrong"
      ],
      "note": "CSS does not allow `only` alone, which is read here (only_alone_wrong)."
    },
    {
      "property": "C201",
      "status": "proved",
      "theorems": [
        "Verif.LightDark.mk_used",
        "Verif.LightDark.convert_used",
        "Verif.LightDark.mix_used",
        "Verif.LightDark.mix_total"
      ],
      "note": "Other colours are opaque."
    },
    {
      "property": "C202",
      "status": "partial",
      "theorems": [
        "Verif.LightDark.light_dark_same_partial",
        "Verif.LightDark.color_scheme_same",
        "Verif.LightDark.no_scheme_wrong",
        "Verif.LightDark.normal_wrong",
        "Verif.LightDark.important_wrong",
        "Verif.LightDark.overridden_wrong"
      ],
      "note": "For blocks whose schemes are all light or dark, with no important one that is both, and where the last scheme is both if one is; with a scheme on the root. Wrong in general: no scheme at all makes colours invalid, `normal` does not reset, an important `light dark` is always light, an overridden `light dark` still makes a dark rule. Style attributes, which lose the dark rule, are not modelled."
    },
    {
      "property": "C203",
      "status": "proved",
      "theorems": [
        "Verif.Effects.parse_complete",
        "Verif.Effects.parse_sound",
        "Verif.Effects.parsed_points"
      ],
      "note": "Equivalence with the grammar of css-shapes. Positions are opaque (see C81); negative radii, which CSS does not allow, are lengths like others here and in the code."
    },
    {
      "property": "C204",
      "status": "proved",
      "theorems": [
        "Verif.Effects.print_writes",
        "Verif.Effects.print_reads"
      ],
      "note": "Printed text is in the grammar for the same shape up to how the position is written, and reads back."
    },
    {
      "property": "C205",
      "status": "partial",
      "theorems": [
        "Verif.Filters.parse_complete",
        "Verif.Filters.parse_sound_partial",
        "Verif.Filters.parse_empty_wrong",
        "Verif.Filters.parse_negative_wrong"
      ],
      "note": "All that the grammar allows is read; what is read is in the grammar unless it is empty or has negative values, which are read although CSS does not allow them (two counterexamples)."
    },
    {
      "property": "C206",
      "status": "proved",
      "theorems": [
        "Verif.Filters.print_same"
      ],
      "note": "For any interpretation of numbers, lengths, angles and colours under which single values are printed faithfully; filter lists are those of C205, i.e. not empty and with allowed values."
    },
    {
      "property": "C207",
      "status": "partial",
      "theorems": [
        "Verif.Align.C207_standard_partial",
        "Verif.Align.C207_overwritten",
        "Verif.Align.C207_gap"
      ],
      "note": "Proved for all blocks where no declaration with prefixes unknown to the browser follows one that it reads (false otherwise: C207_overwritten), for browsers with gap (C207_gap: column-gap and row-gap are merged for all targets) and the shorthands in the block."
    },
    {
      "property": "C208",
      "status": "partial",
      "theorems": [
        "Verif.Align.C208_older",
        "Verif.Align.convert_sound",
        "Verif.Align.convert_complete_partial",
        "Verif.Align.C208_baseline"
      ],
      "note": "The last standard value is converted, the layout is kept, and all values with a counterpart are converted except baseline, which is lost though all three properties have it (C208_baseline)."
    },
    {
      "property": "C209",
      "status": "partial",
      "theorems": [
        "Verif.Align.C209_older_partial",
        "Verif.Align.C209_lost",
        "Verif.Align.C209_overridden",
        "Verif.Align.C209_prefix_lost"
      ],
      "note": "Proved for properties of the older drafts when nothing in the block sets the standard property. Without targets, older and prefixed declarations are dropped if the standard property follows (C209_lost, C209_prefix_lost), and generated declarations override later ones of the source (C209_overridden)."
    },
    {
      "property": "C21",
      "status": "partial",
      "theorems": [
        "Verif.Handler.C21_winner_partial",
        "Verif.Handler.C21_independent",
        "Verif.Handler.C21_counterexample_all",
        "Verif.Handler.C21_counterexample_logical"
      ],
      "note": "Missing: handlers of other families; the counterexamples show unparsed `all` and compiled logical properties break the claim in the code."
    },
    {
      "property": "C210",
      "status": "partial",
      "theorems": [
        "Verif.Named.C210_partial",
        "Verif.Named.C210_once",
        "Verif.Named.C210_invalid",
        "Verif.Named.C210_group"
      ],
      "note": "For valid rules outside of group rules. The code is wrong otherwise: an invalid later rule it accepts (initial-value: 3em) replaces a valid one (C210_invalid); a later rule moves before one in @media (C210_group)."
    },
    {
      "property": "C211",
      "status": "partial",
      "theorems": [
        "Verif.Named.C211_partial",
        "Verif.Named.C211_overlap"
      ],
      "note": "For family lists that are equal or disjoint. The code is wrong otherwise: a rule is moved over one whose family list overlaps (C211_overlap)."
    },
    {
      "property": "C212",
      "status": "partial",
      "theorems": [
        "Verif.Named.C212_partial",
        "Verif.Named.C212_value",
        "Verif.Named.C212_unique",
        "Verif.Named.C212_stray"
      ],
      "note": "C212_value says exactly which values are accepted; the code is wrong for one stray token after the integers, which is dropped (C212_stray)."
    },
    {
      "property": "C213",
      "status": "partial",
      "theorems": [
        "Verif.Named.C213_partial",
        "Verif.Named.C213_sound",
        "Verif.Named.C213_unknown",
        "Verif.Named.C213_rest"
      ],
      "note": "For known and valid descriptors. The code is wrong otherwise: an unknown descriptor makes the rule an error (C213_unknown), tokens after the initial value are dropped (C213_rest)."
    },
    {
      "property": "C214",
      "status": "partial",
      "theorems": [
        "Verif.Mask.C214_partial",
        "Verif.Mask.C214_drained",
        "Verif.Mask.C214_border",
        "Verif.Mask.C214_webkit_composite"
      ],
      "note": "For the eight longhands in browsers that know prefixed and unprefixed properties. The code is wrong otherwise: `-webkit-mask-image: url(a); mask: url(a)` prints `-webkit-mask-image:` with no value (C214_drained); `mask` after `mask-border` no longer resets it (C214_border); `-webkit-mask-composite` comes to stand before the mask that it follows (C214_webkit_composite)."
    },
    {
      "property": "C215",
      "status": "partial",
      "theorems": [
        "Verif.Mask.C215_partial",
        "Verif.Mask.C215_replaced",
        "Verif.Mask.C215_targets"
      ],
      "note": "For longhands set at most once for each prefix and without targets. The code is wrong otherwise: a later value replaces the one for prefixes it does not have (C215_replaced), and targets add prefixes to declarations although the block has a value for them (C215_targets)."
    },
    {
      "property": "C216",
      "status": "partial",
      "theorems": [
        "Verif.Page.C216_page_selectors_partial",
        "Verif.Page.C216_page_text_partial",
        "Verif.Page.C216_escape_lost"
      ],
      "note": "Missing: names with escapes, which are written unescaped and change meaning or cannot be read (counterexample C216_escape_lost)."
    },
    {
      "property": "C217",
      "status": "proved",
      "theorems": [
        "Verif.Container.C217_container_condition",
        "Verif.Container.C217_style_query",
        "Verif.Container.C217_read_print"
      ],
      "note": "Tokens, not characters; the features inside parentheses are opaque. Unknown conditions (error recovery only) are left out. C217_read_print: what is read and printed means the same as the source."
    },
    {
      "property": "C22",
      "status": "partial",
      "theorems": [
        "Verif.Rules.C22_cascade_partial",
        "Verif.Rules.C22_separated_partial",
        "Verif.Rules.C22_counterexample_important",
        "Verif.Rules.C22_counterexample_stale_key",
        "Verif.Rules.C22_counterexample_stale_key_nested"
      ],
      "note": "The whole rule-list minifier (duplicates, merging, splitting, groups, nesting) preserves the cascade winner for every element and longhand unless one of the recorded harmful events happens; every harmful event is a bug of the code shown by a counterexample. Without the ghost flag for separated flat lists. Assumes declaration minification preserves values (Laws)."
    },
    {
      "property": "C23",
      "status": "partial",
      "theorems": [
        "Verif.Rules.C22_cascade_partial",
        "Verif.Rules.C23_merge",
        "Verif.Rules.C23_counterexample_logical",
        "Verif.Rules.C23_counterexample_nested_declarations",
        "Verif.Rules.C23_counterexample_keyframes"
      ],
      "note": "Merging alone preserves the cascade also in browsers that drop rules with unknown selectors; in the full minifier it can lose logical-property rules (counterexamples, bugs of the code)."
    },
    {
      "property": "C24",
      "status": "partial",
      "theorems": [
        "Verif.Layers.C24_flat_partial",
        "Verif.Layers.C24_nested_partial",
        "Verif.Layers.C24_counterexample_dots",
        "Verif.Layers.C24_counterexample_condition",
        "Verif.Layers.C24_counterexample_condition_rules",
        "Verif.Layers.C24_counterexample_import"
      ],
      "note": "Order of layers and contents of layers preserved for every list whose layers are flat (dotted names, statements, imports allowed) or nested to any depth with undotted names; for the remaining combinations the code changes the order (counterexamples)."
    },
    {
      "property": "C25",
      "status": "partial",
      "theorems": [
        "Verif.Keyframes.C25_effective_partial",
        "Verif.Keyframes.C25_prefixed_partial",
        "Verif.Keyframes.C25_counterexample_string",
        "Verif.Keyframes.C25_counterexample_media",
        "Verif.Keyframes.C25_counterexample_fallback",
        "Verif.Keyframes.C25_counterexample_prefix"
      ],
      "note": "For rule lists in which a name is always spelled the same way, no other rule defines it and rules with fallbacks are not redefined, the effective keyframes are unchanged for modern browsers, and prefixed browsers get the same ones. Without these the code is wrong: counterexamples."
    },
    {
      "property": "C26",
      "status": "partial",
      "theorems": [
        "Verif.Rules.C26_split",
        "Verif.Rules.C26_forgiving",
        "Verif.Rules.C22_cascade_partial",
        "Verif.Rules.C26_counterexample_merged",
        "Verif.Rules.C26_counterexample_nested"
      ],
      "note": "The partition itself is lossless; after merging the clones lose their declarations and nested rules change specificity (counterexamples, bugs of the code)."
    },
    {
      "property": "C27",
      "status": "partial",
      "theorems": [
        "Verif.Bundler.C27_order_terminates",
        "Verif.Bundler.C27_terminates",
        "Verif.Bundler.C27_load_terminates",
        "Verif.Bundler.C27_at_most_once",
        "Verif.Bundler.C27_complete_partial",
        "Verif.Bundler.C27_lost_cycle",
        "Verif.Bundler.C27_overflow"
      ],
      "note": "Loading and ordering terminate for every finite graph and schedule; every file's rules appear at most once and only reachable files appear; every reachable file appears when all cycles go through the entry. The full statement is false of the code: cycles elsewhere are lost (C27_lost_cycle) and an entry composing from itself first overflows the stack (C27_overflow)."
    },
    {
      "property": "C28",
      "status": "partial",
      "theorems": [
        "Verif.Bundler.C28_order_partial",
        "Verif.Bundler.C28_wrong_order",
        "Verif.Bundler.C28_late_external"
      ],
      "note": "Order equals the order of last evaluation for every acyclic @import graph in which a file imported by two files is only imported by files evaluated once; C28_wrong_order shows the code differs from the browser otherwise, C28_late_external an external import placed after rules."
    },
    {
      "property": "C29",
      "status": "partial",
      "theorems": [
        "Verif.Bundler.C29_sound",
        "Verif.Bundler.C29_conditions_partial",
        "Verif.Bundler.C29_wrapped_partial",
        "Verif.Bundler.C29_lost_condition",
        "Verif.Bundler.C29_cycle",
        "Verif.Bundler.C29_external",
        "Verif.Bundler.C29_layer_statement"
      ],
      "note": "Soundness (conditions imply some chain applies) for every graph and schedule; exactness when files used twice use no files; C29_lost_condition shows that the code is schedule dependent and loses conditions otherwise. Operations on conditions are assumed lawful (C02 and C08 say when they are)."
    },
    {
      "property": "C30",
      "status": "partial",
      "theorems": [
        "Verif.Bundler.C30_layer_partial",
        "Verif.Bundler.C30_unique_partial",
        "Verif.Bundler.C30_anonymous",
        "Verif.Bundler.C30_mixed"
      ],
      "note": "Dotted concatenation proved for every graph with named layers (and uniqueness when shared files are leaves); anonymous layers around unlayered imports are lost by the code (C30_anonymous)."
    },
    {
      "property": "C31",
      "status": "proved",
      "theorems": [
        "Verif.Modules.C31_accepts",
        "Verif.Modules.C31_unclosed",
        "Verif.Modules.C31_unknown"
      ],
      "note": "For every string, exact characterisation of acceptance (with uniqueness of the segments) and of both errors with their byte index."
    },
    {
      "property": "C32",
      "status": "partial",
      "theorems": [
        "Verif.Modules.C32_ident",
        "Verif.Modules.C32_scoped_text",
        "Verif.Modules.C32_injective",
        "Verif.Modules.C32_collision",
        "Verif.Modules.C32_stable",
        "Verif.Modules.C32_exported_partial",
        "Verif.Modules.C32_imported_partial",
        "Verif.Modules.C32_referenced",
        "Verif.Modules.C32_counterexample_dashed"
      ],
      "note": "For every sequence of printed names: each scoped name is exported and its text reads back (CSS Syntax) as the exported name, names are injective for patterns with [local], exports are never renamed. Needs custom_idents and that no file uses a name both as dashed ident and otherwise (C32_counterexample_dashed shows the shared export). Grid names and `:global` are not modelled."
    },
    {
      "property": "C33",
      "status": "partial",
      "theorems": [
        "Verif.Modules.C33_injective",
        "Verif.Modules.C33_shape",
        "Verif.Modules.C33_start_partial",
        "Verif.Modules.C33_dash"
      ],
      "note": "Injective for all 2^32 hashes; never starts with a digit at the start of a name; it can start with a dash and a digit (C33_dash), which is then escaped."
    },
    {
      "property": "C34",
      "status": "partial",
      "theorems": [
        "Verif.Modules.C34_composes_partial",
        "Verif.Modules.C34_rejects",
        "Verif.Modules.mem_firstOnly",
        "Verif.Modules.C34_bundled"
      ],
      "note": "Exact list for all sequences of composes declarations from the file, global or unbundled files, and exact rejection; references to bundled files are repeated or lost by the code (C34_bundled)."
    },
    {
      "property": "C35",
      "status": "partial",
      "theorems": [
        "Verif.Printer.C35_position_partial",
        "Verif.Printer.C35_mapping_partial",
        "Verif.Printer.C35_append_only",
        "Verif.Printer.C35_escaped_name",
        "Verif.Printer.C35_raw_slice",
        "Verif.Printer.C35_wide_char"
      ],
      "note": "Holds for every call sequence that respects the documented requirement (no line break in write_str, ASCII in write_char); fails for renamed CSS module names that need escapes and for raw source slices written with write_str."
    },
    {
      "property": "C36",
      "status": "partial",
      "theorems": [
        "Verif.Printer.C36_restored",
        "Verif.Printer.C36_no_overflow_partial",
        "Verif.Printer.C36_overflow"
      ],
      "note": "Indentation is always restored; no overflow below 128 levels of blocks (118 with grid areas); the 8-bit counter overflows at 128."
    },
    {
      "property": "C37",
      "status": "partial",
      "theorems": [
        "Verif.Selectors.specificity_correct_partial",
        "Verif.Selectors.specificity_compare_partial",
        "Verif.Selectors.specificity_injective_partial",
        "Verif.Selectors.specificity_saturates",
        "Verif.Selectors.unpack_ok",
        "Verif.Selectors.specificity_has_wrong",
        "Verif.Selectors.specificity_global_wrong",
        "Verif.Selectors.specificity_view_transition_wrong",
        "Verif.Selectors.specificity_append_stale"
      ],
      "note": "Proved for all selectors without :has(), :global()/:local() and ::view-transition-*(*), where the code disagrees (counterexample theorems), and up to the 10-bit cap."
    },
    {
      "property": "C38",
      "status": "partial",
      "theorems": [
        "Verif.Selectors.Bloom.no_false_negatives",
        "Verif.Selectors.Bloom.no_underflow",
        "Verif.Selectors.Bloom.zeroed_partial",
        "Verif.Selectors.Bloom.mightContain_mask",
        "Verif.Selectors.Bloom.slots_in_bounds",
        "Verif.Selectors.Bloom.bool_no_false_negatives",
        "Verif.Selectors.Bloom.not_zeroed_after_saturation"
      ],
      "note": "No false negatives in every history. The filter is zeroed when everything is removed unless a counter saturated (counterexample theorem)."
    },
    {
      "property": "C39",
      "status": "partial",
      "theorems": [
        "Verif.Selectors.Nth.nth_formula_partial",
        "Verif.Selectors.Nth.nth_formula",
        "Verif.Selectors.Nth.nth_child_index_correct",
        "Verif.Selectors.Nth.matches_generic_correct",
        "Verif.Selectors.Nth.nth_formula_overflow_wrong"
      ],
      "note": "Full over exact integers; in 32-bit arithmetic under a no-overflow hypothesis (counterexample theorem)."
    },
    {
      "property": "C40",
      "status": "partial",
      "theorems": [
        "Verif.MathFn.calcAdd_value",
        "Verif.MathFn.addOp_value",
        "Verif.MathFn.mkMin_value_partial",
        "Verif.MathFn.mkMax_value_partial",
        "Verif.MathFn.mkClamp_value_partial",
        "Verif.MathFn.mkSign_value",
        "Verif.MathFn.parse_value_partial",
        "Verif.MathFn.parseVal_value_partial",
        "Verif.MathFn.round_negative_step",
        "Verif.MathFn.round_negative_tie",
        "Verif.MathFn.min_negative_base",
        "Verif.MathFn.hypot_negative",
        "Verif.MathFn.hypot_units"
      ],
      "note": "Value preserved for expressions without round() by a negative step or of a negative tie, with 100% not negative, and with hypot() of two arguments, or of one unit; the counterexample theorems show that the code is wrong in the other cases."
    },
    {
      "property": "C41",
      "status": "proved",
      "theorems": [
        "Verif.Sides.rect_reads",
        "Verif.Sides.size_reads",
        "Verif.Sides.rect_round_trip",
        "Verif.Sides.size_round_trip",
        "Verif.Sides.radius_round_trip",
        "Verif.Sides.inset_round_trip",
        "Verif.Sides.slice_round_trip",
        "Verif.Sides.rect_shortest",
        "Verif.Sides.size_shortest"
      ],
      "note": "For every type of values that satisfies Law (shown satisfiable by digits_law)."
    },
    {
      "property": "C42",
      "status": "proved",
      "theorems": [
        "Verif.Color.color_round_trip",
        "Verif.Color.color_injective",
        "Verif.Color.color_name_shortest",
        "Verif.Color.color_hex_shortest"
      ],
      "note": "All 2^32 colours, both modes, with and without #rrggbbaa; alpha of rgba() in exact arithmetic."
    },
    {
      "property": "C43",
      "status": "proved",
      "theorems": [
        "Verif.Syntax.parse_iff",
        "Verif.Syntax.syntax_round_trip",
        "Verif.Syntax.syntax_token_round_trip"
      ],
      "note": "Grammar equivalence and round trip for every string."
    },
    {
      "property": "C44",
      "status": "partial",
      "theorems": [
        "Verif.Selectors.Unused.is_unused_sound",
        "Verif.Selectors.Unused.unused_removal_correct_partial",
        "Verif.Selectors.Unused.unused_removal_none",
        "Verif.Selectors.Unused.unused_negated_parent_wrong"
      ],
      "note": "Sound for whole rule trees when style rules nested in unused rules use & in a compound of each selector. Missing: selectors such as :not(&) or :is(&, .x) inside an unused rule, which the code drops (counterexample theorem)."
    },
    {
      "property": "C45",
      "status": "partial",
      "theorems": [
        "Verif.Units.parse_sem_partial",
        "Verif.Units.time_angle_parse_partial",
        "Verif.Units.number_parse_partial",
        "Verif.Units.print_read",
        "Verif.Units.print_read_unitless_zero",
        "Verif.Units.compare_amounts",
        "Verif.Units.add_amounts",
        "Verif.Units.radians_always_degrees",
        "Verif.Units.hypot_mixed_angles",
        "Verif.Units.hypot_mixed_angles_wrong",
        "Verif.Units.hypot_one_negative"
      ],
      "note": "Printing, comparing and adding are proved for all values; math functions for all trees except round() by a negative step or of a negative tie and hypot() of one negative argument or of three or more angles not beginning with degrees, where the code is wrong."
    },
    {
      "property": "C46",
      "status": "proved",
      "theorems": [
        "Verif.Supports.C46_features_sound",
        "Verif.Supports.C46_features_complete"
      ],
      "note": ""
    },
    {
      "property": "C47",
      "status": "partial",
      "theorems": [
        "Verif.Supports.C47_prefixes_partial",
        "Verif.Supports.C47_counterexample_not"
      ],
      "note": "Proved for conditions without `not`; under `not` the code changes the condition (counterexample)."
    },
    {
      "property": "C48",
      "status": "partial",
      "theorems": [
        "Verif.Declarations.C48_shorthand_agrees_partial",
        "Verif.Declarations.C48_counterexample_unparsed",
        "Verif.Declarations.C48_counterexample_prefix"
      ],
      "note": "Missing: blocks with unparsed longhands and shorthands mixing prefixed and unprefixed longhands, where the code disagrees."
    },
    {
      "property": "C49",
      "status": "partial",
      "theorems": [
        "Verif.Handler.C49_compile_partial",
        "Verif.Handler.C49_counterexample_order",
        "Verif.Handler.C49_counterexample_equal"
      ],
      "note": "Proved for blocks of parsed logical declarations; counterexamples show the code is wrong for mixed blocks."
    },
    {
      "property": "C50",
      "status": "partial",
      "theorems": [
        "Verif.Modules.C50_animation_partial",
        "Verif.Modules.C50_counterexample"
      ],
      "note": "Holds when custom_idents is on or animation is off; with custom_idents: false the code renames @keyframes but not animation-name (C50_counterexample)."
    },
    {
      "property": "C51",
      "status": "partial",
      "theorems": [
        "Verif.Printer.C51_pretty_partial",
        "Verif.Printer.C51_minified_partial",
        "Verif.Printer.C51_media_all",
        "Verif.Printer.C51_prefix_reset"
      ],
      "note": "Full for pretty output; minified output fails for nested `@media all`; nested vendor-prefixed rules reset the prefix override. `@nest`, unknown and custom at-rules are not modelled."
    },
    {
      "property": "C52",
      "status": "partial",
      "theorems": [
        "Verif.Printer.C52_compiled_partial",
        "Verif.Printer.C52_scope"
      ],
      "note": "Fails for declarations directly in a nested @scope followed by rules (minified). The text of a selector in its context is modelled in C53."
    },
    {
      "property": "C53",
      "status": "partial",
      "theorems": [
        "Verif.Selectors.Nesting.compiled_nesting_correct_partial",
        "Verif.Selectors.Nesting.nested_print_correct_partial",
        "Verif.Selectors.Nesting.compiled_has_no_nesting",
        "Verif.Selectors.Nesting.unwrapped_is_nesting_wrong",
        "Verif.Selectors.Nesting.later_compound_type_wrong",
        "Verif.Selectors.Nesting.nested_type_wrong",
        "Verif.Selectors.Nesting.unwrapped_is_complex_wrong",
        "Verif.Selectors.Nesting.nested_complex_wrong"
      ],
      "note": "Well-formedness and equivalence proved for every chain of rules in which the text of a non-leading `&` (and of an unwrapped `:is()`) is a compound without type selector; the five counterexample theorems show that the code is wrong outside. Selector arguments of :has, :host, ::slotted, :nth-child(of), :local and :global are not modelled."
    },
    {
      "property": "C54",
      "status": "proved",
      "theorems": [
        "Verif.Selectors.build_match_order",
        "Verif.Selectors.print_order_roundtrip",
        "Verif.Selectors.nesting_prefix_order"
      ],
      "note": ""
    },
    {
      "property": "C55",
      "status": "partial",
      "theorems": [
        "Verif.Selectors.Nth.affine_roundtrip",
        "Verif.Selectors.Nth.nth_roundtrip_partial",
        "Verif.Selectors.Nth.nth_col_one_wrong"
      ],
      "note": "All A and B. Missing: :nth-col(1)/:nth-last-col(1), whose argument is lost (counterexample theorem)."
    },
    {
      "property": "C56",
      "status": "proved",
      "theorems": [
        "Verif.Selectors.matching_correct",
        "Verif.Selectors.matching_list_correct",
        "Verif.Selectors.loop_meaning"
      ],
      "note": "Documents without shadow trees; simple selectors without selector arguments are arbitrary predicates."
    },
    {
      "property": "C57",
      "status": "proved",
      "theorems": [
        "Verif.Selectors.FastReject.fast_reject_sound",
        "Verif.Selectors.FastReject.matching_with_filter_correct",
        "Verif.Selectors.FastReject.hashes_from_ancestors"
      ],
      "note": ""
    },
    {
      "property": "C58",
      "status": "partial",
      "theorems": [
        "Verif.MathFn.print_value",
        "Verif.MathFn.roundtrip_partial",
        "Verif.MathFn.one_argument_printed_bare",
        "Verif.MathFn.zero_product_printed"
      ],
      "note": "All stored expressions that have no single-argument min/max/hypot and no product by zero; the counterexamples show what is printed for these."
    },
    {
      "property": "C59",
      "status": "partial",
      "theorems": [
        "Verif.MathFn.parse_ends_partial",
        "Verif.MathFn.sum_of_sums_never_ends",
        "Verif.MathFn.parse_mono"
      ],
      "note": "Ends for sources without a sum as an operand of a sum; the code recurses for ever on a sum of two sums in parentheses."
    },
    {
      "property": "C60",
      "status": "partial",
      "theorems": [
        "Verif.Units.percentage_parse_partial",
        "Verif.Units.percentage_panics"
      ],
      "note": "Well-typed percentages without abs(), sign(), hypot() of three; the others panic as the counterexample shows."
    },
    {
      "property": "C61",
      "status": "partial",
      "theorems": [
        "Verif.Units.cost_valid_partial",
        "Verif.Units.nested_error_cost"
      ],
      "note": "Linear for accepted expressions; for rejected ones the work is exponential in the depth (counterexample)."
    },
    {
      "property": "C62",
      "status": "partial",
      "theorems": [
        "Verif.Syntax.value_first_match_partial",
        "Verif.Syntax.value_rejected",
        "Verif.Syntax.initial_value_partial",
        "Verif.Syntax.value_truncated",
        "Verif.Syntax.invalid_value_accepted"
      ],
      "note": "Full statement fails in the code: an unmultiplied component may read only the beginning of the value (value_truncated)."
    },
    {
      "property": "C63",
      "status": "proved",
      "theorems": [
        "Verif.Shorthand.C63_caret",
        "Verif.Shorthand.C63_border",
        "Verif.Shorthand.C63_outline",
        "Verif.Shorthand.C63_flex_flow",
        "Verif.Shorthand.C63_gap",
        "Verif.Shorthand.C63_flex",
        "Verif.Shorthand.C63_container",
        "Verif.Shorthand.C63_container_names",
        "Verif.Shorthand.C63_place_content",
        "Verif.Shorthand.C63_text_emphasis_style",
        "Verif.Shorthand.C63_scroll",
        "Verif.Shorthand.C63_view",
        "Verif.Shorthand.C63_caret_nonempty",
        "Verif.Shorthand.C63_flex_flow_nonempty",
        "Verif.Shorthand.C63_flex_nonempty"
      ],
      "note": "Over token lists with white space; the parsers of single numbers, lengths, colors are parameters with the laws Leaf, Plain, ColorLaw, met by sample types. Prefixes of flex-flow and text-emphasis are not modelled."
    },
    {
      "property": "C64",
      "status": "partial",
      "theorems": [
        "Verif.Shorthand.C64_place_self_partial",
        "Verif.Shorthand.C64_place_items_partial",
        "Verif.Shorthand.C64_text_emphasis_partial",
        "Verif.Shorthand.C64_text_decoration_partial",
        "Verif.Shorthand.C64_list_style_partial",
        "Verif.Shorthand.C64_list_style_read",
        "Verif.Shorthand.C64_place_self_auto",
        "Verif.Shorthand.C64_place_self_stretch",
        "Verif.Shorthand.C64_place_items_stretch",
        "Verif.Shorthand.C64_list_style_inside",
        "Verif.Shorthand.C64_text_decoration_none",
        "Verif.Shorthand.C64_text_decoration_error",
        "Verif.Shorthand.C64_text_emphasis_none",
        "Verif.Shorthand.C64_list_style_nonempty",
        "Verif.Shorthand.C64_text_decoration_nonempty",
        "Verif.Shorthand.C64_text_emphasis_nonempty"
      ],
      "note": "The code is wrong for the values in the counterexample theorems; the partial theorems cover all others."
    },
    {
      "property": "C65",
      "status": "partial",
      "theorems": [
        "Verif.Shorthand.C65_animation_partial",
        "Verif.Shorthand.C65_transition_partial",
        "Verif.Shorthand.C65_animation_range_partial",
        "Verif.Shorthand.C65_animation_unnamed",
        "Verif.Shorthand.C65_animation_case",
        "Verif.Shorthand.C65_animation_timeline",
        "Verif.Shorthand.C65_transition_property",
        "Verif.Shorthand.C65_animation_range_end",
        "Verif.Shorthand.C65_animation_range_start",
        "Verif.Shorthand.C65_animation_range_normal",
        "Verif.Shorthand.C65_animation_nonempty",
        "Verif.Shorthand.C65_transition_nonempty"
      ],
      "note": "The code is wrong for the values in the counterexample theorems (unnamed animations lose everything, case-sensitive keyword checks, timeline none, range ends); the partial theorems cover all others. Lists of animations and CSS modules names are not modelled."
    },
    {
      "property": "C66",
      "status": "proved",
      "theorems": [
        "Verif.Shorthand.C66_easing",
        "Verif.Shorthand.C66_easing_keywords",
        "Verif.Shorthand.C66_step_position"
      ],
      "note": "Numbers and integers are parameters with the law Plain."
    },
    {
      "property": "C67",
      "status": "proved",
      "theorems": [
        "Verif.Shorthand.C67_border_order",
        "Verif.Shorthand.C67_flex_flow_order"
      ],
      "note": ""
    },
    {
      "property": "C68",
      "status": "proved",
      "theorems": [
        "Verif.Tokens.C68_roundtrip"
      ],
      "note": "For all lists without dimensions, against a full model of the CSS Syntax tokenizer. A lone backslash (a delimiter only before a newline) is not a token of the list; see C69_backslash."
    },
    {
      "property": "C69",
      "status": "partial",
      "theorems": [
        "Verif.Tokens.C69_roundtrip_partial",
        "Verif.Tokens.C69_dashes",
        "Verif.Tokens.C69_dashes_one",
        "Verif.Tokens.C69_exponent",
        "Verif.Tokens.C69_unit_case",
        "Verif.Tokens.C69_backslash"
      ],
      "note": "Left out, with counterexamples: small negative dimensions that dtoa does not write with `-0.` are printed with two dashes; units that begin with e and a digit are printed as exponents; the unit E changes its case."
    },
    {
      "property": "C70",
      "status": "partial",
      "theorems": [
        "Verif.Tokens.C70_source_partial",
        "Verif.Tokens.C70_version",
        "Verif.Tokens.C70_sign",
        "Verif.Tokens.C70_sum",
        "Verif.Tokens.C70_comment",
        "Verif.Tokens.C70_comment_open",
        "Verif.Tokens.C70_rare"
      ],
      "note": "For every text, unless a number is glued to the token before it, a comment is dropped when minifying, or one of the rare pairs occurs; each exclusion has a counterexample. Typed values inside the list (lengths, colors, var()) are not in the model."
    },
    {
      "property": "C71",
      "status": "proved",
      "theorems": [
        "Verif.Urls.C71_roundtrip"
      ],
      "note": ""
    },
    {
      "property": "C72",
      "status": "proved",
      "theorems": [
        "Verif.Urls.C72_shortest"
      ],
      "note": ""
    },
    {
      "property": "C73",
      "status": "proved",
      "theorems": [
        "Verif.Urls.C73_absolute"
      ],
      "note": ""
    },
    {
      "property": "C74",
      "status": "partial",
      "theorems": [
        "Verif.Vars.C74_substitute_partial",
        "Verif.Vars.C74_runs_forever",
        "Verif.Vars.C74_runs_forever_nested",
        "Verif.Vars.C74_empty"
      ],
      "note": "Proved for variables without circular references and without empty values and fallbacks; the other cases fail in the code (counterexamples)."
    },
    {
      "property": "C75",
      "status": "partial",
      "theorems": [
        "Verif.Visit.C75_visit_partial",
        "Verif.Visit.C75_custom_ident",
        "Verif.Visit.C75_image_set"
      ],
      "note": "Fails for custom identifiers in tokens and for options of image-set() (counterexamples)."
    },
    {
      "property": "C76",
      "status": "proved",
      "theorems": [
        "Verif.Transform.C76_function",
        "Verif.Transform.C76_transform_property",
        "Verif.Transform.C76_number_becomes_length"
      ],
      "note": "Over the reals; valid sources. C76_number_becomes_length records that an invalid source (translate(5)) is turned into a valid one."
    },
    {
      "property": "C77",
      "status": "proved",
      "theorems": [
        "Verif.Transform.C77_translate",
        "Verif.Transform.C77_scale",
        "Verif.Transform.C77_rotate"
      ],
      "note": "Over the reals."
    },
    {
      "property": "C78",
      "status": "partial",
      "theorems": [
        "Verif.Transform.C78_winners_partial",
        "Verif.Transform.C78_translate_lost",
        "Verif.Transform.C78_order_changed",
        "Verif.Transform.C78_prefix_changed"
      ],
      "note": "Holds for blocks that do not mix transform with the individual properties and declare each prefix once (or only one prefix set); the code changes other blocks."
    },
    {
      "property": "C79",
      "status": "proved",
      "theorems": [
        "Verif.Transform.C79_multiply",
        "Verif.Transform.C79_identity_transpose_factor",
        "Verif.Transform.C79_determinant",
        "Verif.Transform.C79_multiplyVector",
        "Verif.Transform.C79_compose",
        "Verif.Transform.C79_inverse",
        "Verif.Transform.C79_toMatrix2d"
      ],
      "note": "Over the reals, against Mathlib's matrices. decompose is not modelled."
    },
    {
      "property": "C80",
      "status": "partial",
      "theorems": [
        "Verif.Transform.C80_toMatrix_partial",
        "Verif.Transform.C80_small_perspective"
      ],
      "note": "Proved but for perspectives below one pixel, which browsers clamp and the code does not."
    },
    {
      "property": "C81",
      "status": "proved",
      "theorems": [
        "Verif.Position.C81_position",
        "Verif.Position.C81_only_positions",
        "Verif.Position.C81_printed"
      ],
      "note": ""
    },
    {
      "property": "C82",
      "status": "partial",
      "theorems": [
        "Verif.Gradient.C82_linear_partial",
        "Verif.Gradient.C82_half_hint",
        "Verif.Gradient.C82_flip_hint",
        "Verif.Gradient.C82_flip_order"
      ],
      "note": "The hint 50% and gradients to the top with hints or positions out of order are excluded: the code changes their colours (counterexamples proved)."
    },
    {
      "property": "C83",
      "status": "partial",
      "theorems": [
        "Verif.Gradient.C83_prefixed_partial",
        "Verif.Gradient.C83_prefix_partial",
        "Verif.Gradient.C83_bottom",
        "Verif.Gradient.C83_minified_sides",
        "Verif.Gradient.C83_minified_top",
        "Verif.Gradient.C83_180",
        "Verif.Gradient.C83_0",
        "Verif.Gradient.C83_prefix_default",
        "Verif.Gradient.C83_prefix_top",
        "Verif.Gradient.C83_prefix_270",
        "Verif.Gradient.C83_prefix_720"
      ],
      "note": "Some directions are excluded: the code prints another gradient for them (counterexamples proved)."
    },
    {
      "property": "C84",
      "status": "partial",
      "theorems": [
        "Verif.Gradient.C84_radial_partial",
        "Verif.Gradient.C84_half_hint"
      ],
      "note": "The hint 50% is dropped by the code (counterexample proved)."
    },
    {
      "property": "C85",
      "status": "partial",
      "theorems": [
        "Verif.Gradient.C85_conic_partial",
        "Verif.Gradient.C84_half_hint"
      ],
      "note": "The hint 50% is dropped by the code (counterexample proved)."
    },
    {
      "property": "C86",
      "status": "proved",
      "theorems": [
        "Verif.Gradient.C86_webkit"
      ],
      "note": ""
    },
    {
      "property": "C87",
      "status": "partial",
      "theorems": [
        "Verif.Gradient.C87_linear_partial",
        "Verif.Gradient.C87_radial_partial",
        "Verif.Gradient.C87_corner",
        "Verif.Gradient.C87_prefixed"
      ],
      "note": "Corners in boxes that are not squares, prefixed gradients (counterexamples proved), and positions out of order are excluded."
    },
    {
      "property": "C88",
      "status": "proved",
      "theorems": [
        "Verif.Gradient.C88_single"
      ],
      "note": ""
    },
    {
      "property": "C89",
      "status": "proved",
      "theorems": [
        "Verif.Mix.C89_hue",
        "Verif.Mix.C89_difference"
      ],
      "note": ""
    },
    {
      "property": "C90",
      "status": "proved",
      "theorems": [
        "Verif.Mix.C90_mix"
      ],
      "note": "Colours already in the interpolation space; conversion to it, gamut mapping and powerless components are a parameter. Infinite components and float rounding are not modelled."
    },
    {
      "property": "C91",
      "status": "partial",
      "theorems": [
        "Verif.Mix.C91_percentages_partial",
        "Verif.Mix.C91_out_of_range"
      ],
      "note": "Percentages outside of 0% to 100% are accepted by the code."
    },
    {
      "property": "C92",
      "status": "proved",
      "theorems": [
        "Verif.Mix.C92_light_dark",
        "Verif.Mix.C92_total"
      ],
      "note": ""
    },
    {
      "property": "C93",
      "status": "proved",
      "theorems": [
        "Verif.Mix.C93_hsl",
        "Verif.Mix.C93_hwb"
      ],
      "note": "Over real numbers; hsl_to_rgb is in the crate cssparser-color, whose source is not in /repo, and is modelled from knowledge of that crate."
    },
    {
      "property": "C94",
      "status": "proved",
      "theorems": [
        "Verif.Mix.C94_hsl",
        "Verif.Mix.C94_hwb",
        "Verif.Mix.C94_hsl_range"
      ],
      "note": "Over real numbers."
    },
    {
      "property": "C95",
      "status": "proved",
      "theorems": [
        "Verif.Mix.C95_lab",
        "Verif.Mix.C95_lch",
        "Verif.Mix.C95_range"
      ],
      "note": "Over real numbers."
    },
    {
      "property": "C96",
      "status": "partial",
      "theorems": [
        "Verif.Fallback.C96_no_crash_partial",
        "Verif.Fallback.C96_crash",
        "Verif.Fallback.C96_text_shadow"
      ],
      "note": "Crashes exactly if a colour has a keyword and a fallback is needed (C96_crash), e.g. text-shadow with a shadow without colour."
    },
    {
      "property": "C97",
      "status": "partial",
      "theorems": [
        "Verif.Fallback.C97_covered_partial",
        "Verif.Fallback.C97_box_shadow"
      ],
      "note": "Not covered: box-shadow with a keyword inside light-dark() (counterexample)."
    },
    {
      "property": "C98",
      "status": "proved",
      "theorems": [
        "Verif.Fallback.C98_best"
      ],
      "note": ""
    },
    {
      "property": "C99",
      "status": "proved",
      "theorems": [
        "Verif.Fallback.C99_minimal",
        "Verif.Fallback.C99_kinds"
      ],
      "note": ""
    }
  ]
}