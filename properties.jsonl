{"id": "C01", "title": "Media list `or` is logical disjunction", "statement": "After `a.or(&b)` on two non-empty media query lists, the resulting list matches a device exactly when `a` matched it or `b` matched it.", "quantifier": "every pair of media query lists (any length, any nesting of conditions) and every device/environment", "why_tests_cant": "tests compare strings for a few lists; the claim is about every list and every device", "anchors": ["src/media_query.rs: MediaList::or"]}
{"id": "C02", "title": "Media list `and` is logical conjunction", "statement": "When `a.and(&b)` returns Ok, the resulting list matches a device exactly when `a` matched it and `b` matched it. (An empty list matches everything.)", "quantifier": "every pair of media query lists and every device", "why_tests_cant": "comma lists require distributing `and` over `or`; only a semantic statement over all lists and devices can settle it", "anchors": ["src/media_query.rs: MediaList::and", "src/bundler.rs: load_file"]}
{"id": "C03", "title": "Media query `and` is logical conjunction", "statement": "When `a.and(&b)` returns Ok for two single media queries, the result matches a device exactly when both matched; Err is returned otherwise.", "quantifier": "every pair of queries: qualifier x media type x condition, and every device", "why_tests_cant": "media types include an open set of custom names and conditions nest without bound", "anchors": ["src/media_query.rs: MediaQuery::and"]}
{"id": "C04", "title": "always_matches / never_matches are sound", "statement": "If `always_matches()` is true for a media list it matches every device; if `never_matches()` is true it matches no device. Rules removed by the minifier because their query never matches can therefore never apply.", "quantifier": "every media list and device", "why_tests_cant": "soundness ranges over all devices", "anchors": ["src/media_query.rs: always_matches, never_matches", "src/rules/media.rs: minify"]}
{"id": "C05", "title": "Media condition serialisation preserves meaning", "statement": "Printing a media condition and parsing the printed text gives a condition that is true on exactly the same devices, whatever the nesting of not/and/or, including the printer's elimination of `not` in front of range features and of parentheses.", "quantifier": "every media condition tree (unbounded depth and width) and every device", "why_tests_cant": "nesting is unbounded, and the parenthesis rules interact with the compile targets", "anchors": ["src/media_query.rs: MediaCondition::to_css, needs_parens, negate, operation_to_css, parse_query_condition, parse_paren_block"]}
{"id": "C06", "title": "Range syntax lowering preserves meaning", "statement": "For targets without range or interval syntax, the printed `min-`/`max-` form of a range feature or interval is true for exactly the same feature values as the original comparison.", "quantifier": "every comparison operator pair, every value, every device, in every surrounding condition", "why_tests_cant": "requires arithmetic reasoning about every value and the surrounding boolean context", "anchors": ["src/media_query.rs: write_min_max, QueryFeature::to_css, QueryFeature::needs_parens, MediaFeatureComparison::opposite, negate"]}
{"id": "C07", "title": "Custom media expansion is terminating and meaning-preserving", "statement": "Resolving `@custom-media` references always terminates, reports an error for circular or undefined references, and when it succeeds the resulting query matches the same devices as the query with every reference replaced by its definition.", "quantifier": "every set of definitions (including cyclic ones), every query, every device", "why_tests_cant": "cycles and definitions nest without bound", "anchors": ["src/media_query.rs: process_condition, transform_custom_media"]}
{"id": "C08", "title": "Supports condition and/or are logical", "statement": "`a.and(&b)` holds in a browser exactly when both do; `a.or(&b)` exactly when either does.", "quantifier": "every pair of supports conditions and every browser capability set", "why_tests_cant": "ranges over all condition trees and all capability sets", "anchors": ["src/rules/supports.rs: SupportsCondition::and, or", "src/bundler.rs: combine_supports"]}
{"id": "C09", "title": "Supports condition serialisation preserves meaning", "statement": "Printing a supports condition and parsing it back yields a condition with the same truth value in every browser.", "quantifier": "every supports condition tree and every browser", "why_tests_cant": "unbounded nesting; merging of declarations while parsing", "anchors": ["src/rules/supports.rs: to_css, needs_parens, parse, parse_in_parens"]}
{"id": "C10", "title": "Supports feature scopes are balanced", "statement": "Entering and leaving nested `@supports` blocks never leaves a feature excluded or un-excluded: after any properly nested sequence, the targets are exactly those before it, and inside a block every feature the condition tests is excluded from compilation.", "quantifier": "every history of nested enter/exit calls with arbitrary feature sets", "why_tests_cant": "histories and nestings are unbounded", "anchors": ["src/targets.rs: TargetsWithSupportsScope", "src/rules/supports.rs: SupportsRule::minify, to_css"]}
{"id": "C11", "title": "Feature include/exclude precedence", "statement": "A feature is compiled iff it is explicitly included, or it is not excluded and some target browser lacks it; with no browser targets and nothing included nothing is compiled.", "quantifier": "every targets value and every feature/flag (including composite flags)", "why_tests_cant": "ranges over all flag sets and browser versions", "anchors": ["src/targets.rs: Targets::should_compile, is_compatible, should_compile_selectors, prefixes"]}
{"id": "C12", "title": "Compatibility is monotone in browser versions", "statement": "If a feature is reported compatible with some targets, raising any target browser version or removing a browser keeps it compatible.", "quantifier": "every feature in the compatibility table, every pair of target sets", "why_tests_cant": "the table has hundreds of features and versions are arbitrary 32-bit numbers", "anchors": ["src/compat.rs: Feature::is_compatible"]}
{"id": "C13", "title": "Vendor prefix selection is a union over browsers", "statement": "The prefixes chosen for a feature always include the unprefixed form, and adding a browser to the targets never removes a prefix; each prefix is chosen only because of some listed browser.", "quantifier": "every prefixed feature and every targets value", "why_tests_cant": "large table, arbitrary versions", "anchors": ["src/prefixes.rs: Feature::prefixes_for", "src/targets.rs: Targets::prefixes"]}
{"id": "C14", "title": "Browserslist targets keep the minimum version", "statement": "From a list of resolved browsers the target for each browser is the lowest version listed for it (aliases such as and_chr included), and the result does not depend on the order of the list.", "quantifier": "every list of (browser, version) pairs", "why_tests_cant": "lists and orders are unbounded", "anchors": ["src/targets.rs: Browsers::from_distribs, parse_version"]}
{"id": "C15", "title": "Version encoding preserves order", "statement": "`major.minor.patch` version strings are encoded so that comparing the encoded integers compares the versions.", "quantifier": "every version triple", "why_tests_cant": "ranges over all triples; boundary at 256", "anchors": ["src/targets.rs: parse_version"]}
{"id": "C16", "title": "Vendor prefix sets round-trip through JSON", "statement": "Serialising a non-empty vendor prefix set to JSON and deserialising gives the same set.", "quantifier": "every vendor prefix set", "why_tests_cant": "cheap to enumerate in a proof, rarely done in tests", "anchors": ["src/vendor_prefix.rs: Serialize, Deserialize"]}
{"id": "C17", "title": "Declaration get-after-set", "statement": "After `block.set(property, important)`, `block.get(id)` returns that value and importance; and getting any unrelated property gives what it gave before.", "quantifier": "every declaration block, property and importance flag", "why_tests_cant": "blocks are arbitrary lists with repeated and shorthand declarations", "anchors": ["src/declaration.rs: DeclarationBlock::get, set"]}
{"id": "C18", "title": "Declaration remove", "statement": "After `block.remove(id)`, `block.get(id)` is None; all longhands of a removed shorthand are gone; and the remaining longhands of a split shorthand keep their values.", "quantifier": "every declaration block and property id", "why_tests_cant": "blocks are arbitrary lists; splitting changes indices while iterating", "anchors": ["src/declaration.rs: DeclarationBlock::remove"]}
{"id": "C19", "title": "Custom properties: last declaration wins", "statement": "Minifying a declaration block keeps, for every custom property, exactly one declaration holding the last value given, and `all` does not discard custom properties, `direction` or `unicode-bidi`.", "quantifier": "every sequence of declarations", "why_tests_cant": "index bookkeeping across arbitrary interleavings with `all`", "anchors": ["src/declaration.rs: handle_custom_property, handle_all, finalize"]}
{"id": "C20", "title": "Box shorthand merging preserves the cascade", "statement": "Minifying any sequence of margin/padding/inset/scroll-* declarations (physical, logical, longhand, shorthand) yields declarations assigning every side the same final value.", "quantifier": "every sequence of declarations, every target set where no logical compilation is needed", "why_tests_cant": "interleavings of logical and physical declarations are unbounded", "anchors": ["src/properties/margin_padding.rs: side_handler!"]}
{"id": "C21", "title": "Important declarations are kept apart", "statement": "Minification never changes whether a declaration is important, and normal declarations never influence important ones.", "quantifier": "every declaration block", "why_tests_cant": "arbitrary blocks", "anchors": ["src/declaration.rs: DeclarationBlock::minify"]}
{"id": "C22", "title": "Duplicate rule removal preserves the cascade", "statement": "Dropping an earlier style rule because a later one has the same selectors and sets the same properties never changes which value any element ends up with.", "quantifier": "every rule list, element and property", "why_tests_cant": "requires quantifying over all positions of the duplicate pair and everything between", "anchors": ["src/rules/mod.rs: CssRuleList::minify, StyleRuleKey", "src/rules/style.rs: is_duplicate, hash_key"]}
{"id": "C23", "title": "Adjacent rule merging preserves the cascade", "statement": "Merging adjacent style rules with equal selectors or equal declarations never changes the winning declaration of any property for any element.", "quantifier": "every rule list and element", "why_tests_cant": "merging cascades backwards an unbounded number of times", "anchors": ["src/rules/mod.rs: merge_style_rules, CssRuleList::minify"]}
{"id": "C24", "title": "Layer order is preserved", "statement": "Minification preserves the order in which cascade layers are first declared, and the layer each rule belongs to.", "quantifier": "every rule list with layer statements, blocks, nested and imported layers", "why_tests_cant": "layer order is a global property of arbitrary rule lists", "anchors": ["src/rules/mod.rs: CssRuleList::minify (LayerBlock, LayerStatement, declared_layers)", "src/rules/layer.rs"]}
{"id": "C25", "title": "Keyframes merging keeps the last definition", "statement": "For every animation name and vendor prefix the keyframes in effect after minification are those in effect before.", "quantifier": "every rule list with keyframes rules", "why_tests_cant": "arbitrary interleavings of names and prefixes", "anchors": ["src/rules/mod.rs: CssRuleList::minify (Keyframes)"]}
{"id": "C26", "title": "Selector compatibility partition is lossless", "statement": "Splitting a rule's selector list into compatible and incompatible selectors keeps every selector exactly once, each with the same declarations.", "quantifier": "every selector list and compatibility predicate", "why_tests_cant": "arbitrary lists", "anchors": ["src/rules/mod.rs: CssRuleList::minify (incompatible)"]}
{"id": "C27", "title": "Bundler includes every file exactly once", "statement": "The bundle contains the rules of every file reachable through @import or composes exactly once, and bundling terminates even for cyclic imports.", "quantifier": "every import graph (including cycles and self-imports)", "why_tests_cant": "graphs are arbitrary", "anchors": ["src/bundler.rs: order, inline"]}
{"id": "C28", "title": "Bundler preserves import order", "statement": "For files bundled through @import, the bundle lists the rules of files in the order of their last evaluation by a browser (every import in turn, then the file's own rules).", "quantifier": "every acyclic import graph", "why_tests_cant": "graphs are arbitrary", "anchors": ["src/bundler.rs: order, inline"]}
{"id": "C29", "title": "Bundler preserves import conditions", "statement": "A rule of a file applies in the bundle exactly when it would apply if the browser evaluated the @import chain: the conjunction along a chain, the disjunction over chains.", "quantifier": "every import graph with media/supports conditions", "why_tests_cant": "graphs and devices are arbitrary; the load order is a race", "anchors": ["src/bundler.rs: load_file, inline, combine_supports"]}
{"id": "C30", "title": "Layer names compose along imports", "statement": "Rules of a file imported through nested `layer(...)` imports end up in the dotted concatenation of the layer names, and unsupported anonymous combinations are rejected.", "quantifier": "every import chain", "why_tests_cant": "chains are unbounded", "anchors": ["src/bundler.rs: load_file (layer)"]}
{"id": "C31", "title": "CSS modules pattern parsing is exact", "statement": "`Pattern::parse` accepts exactly the strings made of literals and the four placeholders, reports the right error index otherwise, and re-rendering the segments reproduces the input.", "quantifier": "every pattern string", "why_tests_cant": "arbitrary strings", "anchors": ["src/css_modules.rs: Pattern::parse"]}
{"id": "C32", "title": "Printed names equal exported names", "statement": "The name written to the CSS for a local class equals the exported name, two different local names in one file never collide, and an export once created is never renamed.", "quantifier": "every pattern containing [local], every sequence of printed idents and references", "why_tests_cant": "arbitrary histories of names", "anchors": ["src/css_modules.rs: Pattern::write, add_local, reference, add_dashed", "src/printer.rs: write_ident"]}
{"id": "C33", "title": "CSS modules hash encoding is injective", "statement": "The file hash in names is an injective encoding of the 32-bit hash value and is a valid start of an identifier when placed first.", "quantifier": "every 32-bit hash", "why_tests_cant": "2^32 values", "anchors": ["src/css_modules.rs: hash, ENCODER"]}
{"id": "C34", "title": "composes references are complete and duplicate-free", "statement": "After printing, the export of a class lists each composed local/global/dependency reference exactly once, in order of first appearance, and non-class selectors are rejected.", "quantifier": "every sequence of composes declarations", "why_tests_cant": "arbitrary sequences", "anchors": ["src/css_modules.rs: handle_composes"]}
{"id": "C35", "title": "Printer position tracking", "statement": "The printer's line and column always equal the position of the end of the output, so source map entries point at the right place.", "quantifier": "every sequence of printer calls", "why_tests_cant": "arbitrary call sequences and strings with newlines", "anchors": ["src/printer.rs: write_str, write_str_with_newlines, write_char, newline, delim"]}
{"id": "C36", "title": "Printer indentation is balanced", "statement": "Every indent is matched by a dedent and the indentation never under- or overflows, so output is independent of earlier rules.", "quantifier": "every rule tree", "why_tests_cant": "nesting depth is unbounded; the counter is 8-bit", "anchors": ["src/printer.rs: indent, dedent, newline"]}
{"id": "C37", "title": "Specificity computation", "statement": "The specificity of a selector is the component-wise sum over its compounds (ids, classes/attributes/pseudo-classes, types/pseudo-elements), :is/:not/:has take the maximum of their arguments and :where contributes zero; packed comparison agrees with lexicographic comparison up to the cap.", "quantifier": "every selector (unbounded length and nesting)", "why_tests_cant": "unbounded nesting, bit packing and caps", "anchors": ["selectors/builder.rs: specificity, complex_selector_specificity, Specificity"]}
{"id": "C38", "title": "Counting bloom filter has no false negatives", "statement": "After any sequence of inserts and removes in which every remove matches an earlier insert, every hash still present is reported as possibly present, and the filter is zeroed when everything was removed.", "quantifier": "every history of insert/remove, every hash", "why_tests_cant": "histories are unbounded and counters saturate", "anchors": ["selectors/bloom.rs: CountingBloomFilter"]}
{"id": "C39", "title": "nth-child formula", "statement": "`An+B` matching accepts an index exactly when it is A*n+B for some n >= 0.", "quantifier": "all integers A, B and indices", "why_tests_cant": "unbounded integers with sign cases", "anchors": ["selectors/matching.rs: matches_generic_nth_child"]}
{"id": "C40", "title": "calc() simplification preserves value", "statement": "Simplifying a math expression while parsing and printing it gives an expression with the same value for every assignment of values to units.", "quantifier": "every expression tree", "why_tests_cant": "unbounded trees", "anchors": ["src/values/calc.rs: parse, Add, Mul, reduce"]}
{"id": "C41", "title": "Four-sided shorthand round-trips", "statement": "Four- and two-component values (Rect, Size2D, border-radius, inset(), border-image-slice) are read as CSS assigns one to four values to sides; printing one gives the fewest values that mean it and reading that back gives a value whose sides mean the same.", "quantifier": "every four values", "why_tests_cant": "ranges over all values", "anchors": ["src/values/rect.rs: Rect::parse, to_css", "src/values/size.rs: Size2D", "src/properties/border_radius.rs: BorderRadius parse, to_css", "src/values/shape.rs: InsetRect", "src/properties/border_image.rs: BorderImageSlice"]}
{"id": "C42", "title": "Hex colour round-trips", "statement": "Printing an sRGB colour (name, #rgb, #rrggbb, #rgba, #rrggbbaa, rgba() or transparent, depending on targets and minification) and reading it per CSS Color 4 gives the same four channels; no colour name and no hexadecimal notation of the colour is shorter than what is printed.", "quantifier": "all 2^32 colours", "why_tests_cant": "2^32 values", "anchors": ["src/values/color.rs: CssColor::to_css, compact_hex, expand_hex, short_color_name"]}
{"id": "C43", "title": "@property syntax strings round-trip", "statement": "A text is accepted as an @property syntax string exactly when the grammar derives it, and what was read is printed, minified or not, as a string token that reads back as the same syntax string.", "quantifier": "every syntax string", "why_tests_cant": "arbitrary strings", "anchors": ["src/values/syntax.rs: SyntaxString::parse_string, to_css"]}
{"id": "C44", "title": "Unused symbol removal is sound", "statement": "A style rule is dropped as unused only if every one of its selectors requires a class or id that is listed as unused.", "quantifier": "every selector list and unused set", "why_tests_cant": "arbitrary selectors and nesting", "anchors": ["src/selector.rs: is_unused", "src/rules/style.rs: minify"]}
{"id": "C45", "title": "Time and angle conversions", "statement": "Comparing, adding and printing times and angles in different units agrees with the amount in milliseconds or degrees, and parsing a math function at type time, angle or number gives the amount that CSS gives it, or an error exactly if its types do not fit.", "quantifier": "all values; every expression tree with any mix of units", "why_tests_cant": "ranges over all values", "anchors": ["src/values/time.rs", "src/values/angle.rs", "src/values/number.rs", "src/values/calc.rs"]}
{"id": "C46", "title": "Features assumed inside @supports are implied", "statement": "Every feature that is treated as supported inside an @supports block (and therefore not compiled away) belongs to a declaration the browser supports whenever it enters the block; for conditions made of `and` only, all such features are found.", "quantifier": "every condition tree, browser and feature", "why_tests_cant": "unbounded nesting and all browsers", "anchors": ["src/rules/supports.rs: get_supported_features", "src/targets.rs: try_union_all"]}
{"id": "C47", "title": "Adding vendor prefixes to @supports keeps it true", "statement": "Adding the vendor prefixes the targets need to the declarations of a supports condition never makes the condition false in a browser where it was true.", "quantifier": "every condition tree, target set and browser", "why_tests_cant": "unbounded nesting, all targets", "anchors": ["src/rules/supports.rs: set_prefixes_for_targets", "src/properties/mod.rs: PropertyId::set_prefixes_for_targets"]}
{"id": "C48", "title": "A shorthand read from a block agrees with its longhands", "statement": "When asking a declaration block for a shorthand property returns a value, asking the same block for each longhand of that shorthand returns the value and importance the shorthand's value gives it.", "quantifier": "every block (any number of declarations in any order), every shorthand and longhand", "why_tests_cant": "unbounded blocks mixing shorthands, longhands, important and normal declarations", "anchors": ["src/macros.rs: shorthand_property! from_longhands, longhand", "src/declaration.rs: DeclarationBlock::get"]}
{"id": "C49", "title": "Compiling logical box properties keeps the values", "statement": "When the targets lack logical properties and margin/padding/scroll-margin/scroll-padding/inset logical declarations are compiled into physical ones plus :dir() rules, every side of an element has the same value as before, in text of either direction.", "quantifier": "every sequence of declarations of a box family, both text directions, every side", "why_tests_cant": "unbounded sequences of declarations mixing longhands and shorthands", "anchors": ["src/properties/margin_padding.rs: side_handler! flush", "src/context.rs: add_logical_rule, get_additional_rules"]}
{"id": "C50", "title": "animation-name matches @keyframes in CSS modules", "statement": "In a CSS module, an animation-name (identifier or string) prints the same name as the @keyframes rule of that name in the same file.", "quantifier": "every configuration, file, pattern and name", "why_tests_cant": "configurations and names are arbitrary; several options interact", "anchors": ["src/rules/keyframes.rs: KeyframesName::to_css", "src/properties/animation.rs: AnimationName::to_css", "src/values/ident.rs: to_css_with_options"]}
{"id": "C51", "title": "Printed rules are read back with the same meaning", "statement": "The serialised style sheet, pretty or minified, is read back as the same declarations and statements, in the same order, under the same at-rules and selectors: semicolons and braces are placed so that nothing runs into its neighbour.", "quantifier": "every rule tree of any depth and all printer options", "why_tests_cant": "unbounded trees; separators depend on neighbours, on skipped declarations and on options", "anchors": ["src/rules/mod.rs: CssRuleList::to_css", "src/rules/style.rs: to_css, to_css_base", "src/rules/nesting.rs", "src/rules/page.rs", "src/rules/keyframes.rs", "src/declaration.rs: to_css_declarations"]}
{"id": "C52", "title": "Compiling nesting preserves the cascade", "statement": "When the targets lack CSS nesting, the output has no style rule inside another and consists of the same declarations in the same order, each under the same at-rules and the same chain of selectors.", "quantifier": "every rule tree of any depth", "why_tests_cant": "unbounded nesting of style rules and conditional rules", "anchors": ["src/rules/style.rs: to_css_base", "src/rules/nesting.rs: NestedDeclarationsRule::to_css", "src/printer.rs: with_context, with_parent_context, with_cleared_context"]}
{"id": "C54", "title": "Selector components keep their order", "statement": "Building a selector from parsed compounds and printing it back visits the compounds and simple selectors in source order: match order is compounds right to left with simple selectors left to right, and printing restores the source order.", "quantifier": "every sequence of compounds and combinators", "why_tests_cant": "selectors of any length and any split into compounds", "anchors": ["selectors/builder.rs: SelectorBuilder::build_with_specificity_and_flags", "selectors/parser.rs: iter_raw_parse_order_from, Selector::from_vec2", "src/selector.rs: serialize_selector"]}
{"id": "C55", "title": "An+B printing reads back", "statement": "The text printed for an An+B formula or an :nth-*() pseudo-class is read back by the CSS An+B grammar as the same pseudo-class with the same A and B.", "quantifier": "every A and B and every kind of nth selector", "why_tests_cant": "all integers; several special cases (even, odd, n, +n, -n, omitted zero)", "anchors": ["selectors/parser.rs: NthSelectorData::write_start, write_affine"]}
{"id": "C56", "title": "Selector matching follows the definition", "statement": "Matching a selector against an element of a document, with its early exits when no candidate remains, answers exactly whether the element matches by the definition of compounds, combinators, :is, :where and :not.", "quantifier": "every document tree, every selector of any length and nesting, every element", "why_tests_cant": "backtracking over ancestors and siblings; unbounded trees and selectors", "anchors": ["selectors/matching.rs: matches_complex_selector_internal, next_element_for_combinator, matches_compound_selector, matches_simple_selector"]}
{"id": "C57", "title": "Rejecting by ancestor filter is sound", "statement": "If the Bloom filter holds the hashes of an element's ancestors, a selector that the element matches is never rejected by its ancestor hashes; matching with and without the filter agree.", "quantifier": "every document, selector, element, hash function and history of the filter", "why_tests_cant": "unbounded trees and selectors; arbitrary hash collisions; bit packing of the fourth hash", "anchors": ["selectors/parser.rs: AncestorHashes::new, collect_ancestor_hashes, AncestorIter, fourth_hash", "selectors/matching.rs: may_match, matches_selector"]}
{"id": "C53", "title": "Compiling nesting away keeps the meaning", "statement": "When nested style rules are compiled for browsers without nesting, the selector printed in place of a nested selector contains no `&`, is a well-formed selector, and matches in every document exactly the elements that the nested selector matches when `&` stands for the elements matched by the parent rule's selector list.", "quantifier": "every nested selector, every chain of enclosing rules of any depth, every document", "why_tests_cant": "unbounded nesting of rules and of :is/:not arguments; the text of `&` is spliced into arbitrary positions of a compound", "anchors": ["src/selector.rs: serialize_selector, serialize_component, serialize_nesting, should_unwrap_is, has_type_selector, is_simple"]}
{"id": "C58", "title": "Printed math functions read back", "statement": "Printing a length-percentage with math functions gives text that parses again as a value, and the text has the same value for every assignment of values to units.", "quantifier": "every stored expression that the parser makes", "why_tests_cant": "unbounded nesting of sums, products and functions", "anchors": ["src/values/calc.rs: ToCss for Calc, MathFunction", "src/values/percentage.rs: ToCss for DimensionPercentage"]}
{"id": "C59", "title": "Parsing math functions ends", "statement": "Parsing any math expression over lengths and percentages ends with a value or an error.", "quantifier": "every expression tree", "why_tests_cant": "mutually recursive addition functions; unbounded trees", "anchors": ["src/values/percentage.rs: AddInternal, add_recursive, add", "src/values/calc.rs: Calc::add"]}
{"id": "C60", "title": "Percentages never panic", "statement": "Parsing a percentage from any math expression gives its value or an error; the parser does not panic.", "quantifier": "every expression tree", "why_tests_cant": "unbounded trees", "anchors": ["src/values/percentage.rs: Percentage::parse", "src/values/calc.rs"]}
{"id": "C61", "title": "Work of the math parser", "statement": "The number of tokens and functions that the parser of math expressions looks at is bounded by a polynomial in the length of the input.", "quantifier": "every expression tree, valid or not", "why_tests_cant": "asymptotic; needs unbounded inputs", "anchors": ["src/values/calc.rs: parse_value", "src/values/time.rs: parse", "src/values/angle.rs: parse_internal"]}
{"id": "C62", "title": "@property initial values are read by the first matching component", "statement": "The initial value of an @property rule is read by the first component of its syntax string that the whole value matches, and is rejected if no component matches.", "quantifier": "every syntax string, every value and every behaviour of the parsers of single values", "why_tests_cant": "arbitrary component lists and values", "anchors": ["src/values/syntax.rs: SyntaxString::parse_value", "src/rules/property.rs: PropertyRule::parse"]}
{"id": "C63", "title": "Printed shorthands read back with the same meaning", "statement": "For caret, border (and its sides), outline, flex-flow, gap, flex, container, container-name, place-content, text-emphasis-style, scroll() and view(): every value that the parser can produce is printed, with defaults left out, as a value that the parser reads back with the same meaning in every component; no two tokens run together, and what follows the value is left alone.", "quantifier": "every value of each type, every continuation that ends a value", "why_tests_cant": "the choice of what can be left out depends on all components together; unbounded component values", "anchors": ["src/properties/ui.rs: Caret", "src/properties/border.rs: GenericBorder", "src/properties/flex.rs: FlexFlow, Flex", "src/properties/align.rs: Gap, PlaceContent", "src/properties/contain.rs: Container", "src/properties/text.rs: TextEmphasisStyle", "src/properties/animation.rs: ScrollTimeline, ViewTimeline"]}
{"id": "C64", "title": "Shorthands with ambiguous keywords read back with the same meaning", "statement": "place-self, place-items, text-emphasis, text-decoration and list-style are printed, with defaults left out, as a value that is read back with the same meaning in every component, whatever keyword (auto, none, stretch, inside, …) the components hold.", "quantifier": "every value of each type, every continuation that ends a value", "why_tests_cant": "components share keywords, so ambiguity depends on combinations", "anchors": ["src/properties/align.rs: PlaceSelf, PlaceItems", "src/properties/text.rs: TextEmphasis, TextDecoration", "src/properties/list.rs: ListStyle"]}
{"id": "C65", "title": "animation, transition and animation-range keep their meaning", "statement": "An animation, transition or animation range is printed, with defaults left out, as a value that is read back with the same name, times, easing curve, count, direction, fill mode, play state, timeline or range ends, also when names look like keywords.", "quantifier": "every animation, transition, range; every name", "why_tests_cant": "nine components in one list, names that collide with any keyword", "anchors": ["src/properties/animation.rs: Animation, AnimationRange", "src/properties/transition.rs: Transition"]}
{"id": "C66", "title": "Printed easing functions are the same curve", "statement": "An easing function is printed as text that is read back as the same curve: the same Bézier control points, or the same steps; keywords are used only for the curve they stand for.", "quantifier": "every easing function", "why_tests_cant": "arbitrary control points and step counts", "anchors": ["src/values/easing.rs: EasingFunction"]}
{"id": "C67", "title": "The components of a shorthand can come in any order", "statement": "The components of border and flex-flow can be written in any order and left out; a component that is left out has its initial value.", "quantifier": "every value, every order and every selection of components", "why_tests_cant": "all orders of all values", "anchors": ["src/properties/border.rs: GenericBorder::parse", "src/properties/flex.rs: FlexFlow::parse"]}
{"id": "C68", "title": "Printed raw tokens read back as the same tokens", "statement": "A list of raw tokens (names, strings, urls, hashes, numbers, percentages, delimiters, brackets, whitespace, comments) in which no two neighbours run together by the table of CSS Syntax is printed, minified or not, as text that the tokenizer of CSS Syntax reads as the same tokens; comments and the amount of whitespace do not count.", "quantifier": "every list of tokens with any characters in names, strings and urls; minified or not; every end of a value", "why_tests_cant": "arbitrary characters, arbitrary neighbours and arbitrary lengths", "anchors": ["src/properties/custom.rs: Token::to_css, TokenList::to_css", "src/values/number.rs: CSSNumber::to_css"]}
{"id": "C69", "title": "Printed dimensions read back as the same dimensions", "statement": "The same for lists that contain dimensions: every dimension is printed as text that reads as a dimension with the same value and unit.", "quantifier": "every list of tokens, every number and every unit", "why_tests_cant": "arbitrary numbers and units; the failures are at the edges of number formatting", "anchors": ["src/values/length.rs: serialize_dimension", "src/properties/custom.rs: TokenList::to_css"]}
{"id": "C70", "title": "The value of a custom property keeps its tokens", "statement": "Whatever the source text of a custom property or unparsed value is, the text printed for it is read as the same tokens, with numbers rounded to what can be stored.", "quantifier": "every source text of a value", "why_tests_cant": "all texts, with all adjacent tokens", "anchors": ["src/properties/custom.rs: TokenList::parse_into, TokenList::to_css, Token::to_css"]}
{"id": "C71", "title": "A printed url reads back as the same url", "statement": "Whatever characters a url consists of, the text printed for it (minified or not) is read by the CSS tokenizer as a url with exactly that text, and the text after it is read as if it stood alone.", "quantifier": "every url text, every text after it, minified or not", "why_tests_cant": "all characters, including quotes, parentheses, backslashes and control characters, in all combinations", "anchors": ["src/values/url.rs: Url::to_css"]}
{"id": "C72", "title": "A minified url is printed in its shorter form", "statement": "With minification, a url is printed quoted or unquoted, whichever is shorter in bytes.", "quantifier": "every url text", "why_tests_cant": "lengths depend on the number of escapes, on control characters and on the UTF-8 length of every character", "anchors": ["src/values/url.rs: Url::to_css"]}
{"id": "C73", "title": "A url is absolute exactly if it has a scheme or starts at the root or with a fragment", "statement": "Url::is_absolute returns true exactly for urls that start with a slash, with a hash, or with a scheme in the sense of the URL standard.", "quantifier": "every url text", "why_tests_cant": "unbounded texts", "anchors": ["src/values/url.rs: Url::is_absolute"]}
{"id": "C74", "title": "substitute_variables replaces all references and ends", "statement": "Substituting variables in a token list ends and gives the list in which every var() at any depth is replaced by the value of the variable, or by its fallback, with their own references replaced; references to unknown variables without fallback stay; circular references are left alone.", "quantifier": "every set of variables, every token list, every nesting", "why_tests_cant": "chains and nestings of references are unbounded; termination is a statement about all runs", "anchors": ["src/properties/custom.rs: TokenList::substitute_variables, VarInliner::visit_token_list"]}
{"id": "C75", "title": "A visitor is shown every value of the kinds it asks for", "statement": "A visitor that asks for some kinds of values is shown all values of these kinds in a value, each once, from the outside in and from left to right, although branches that are known not to contain such values are skipped.", "quantifier": "every set of kinds, every value of the modelled types of any size and depth", "why_tests_cant": "values are trees of unbounded depth; the skipping depends on a table over all types and kinds", "anchors": ["derive/src/visit.rs: derive", "src/visitor.rs: Visit, VisitTypes", "src/properties/custom.rs: TokenOrValue", "src/values/image.rs: ImageSetOption"]}
{"id": "C76", "title": "Transform functions mean the same after printing", "statement": "Every valid value of `transform` is parsed, and what is printed for it, minified or not, is valid and is the same map of coordinates as the source, whatever lengths, percentages and calculations resolve to; `none` stays `none` and nothing else becomes it.", "quantifier": "every list of transform functions, all numbers, lengths, percentages, angles and units, every environment, both print modes", "why_tests_cant": "arguments are real numbers and lists are unbounded; each rewriting (translate3d to translateY, rotate3d to rotateX, radians to degrees, dropped arguments) must be an identity of maps for all of them", "anchors": ["src/properties/transform.rs: Transform::parse, Transform::to_css, TransformList::parse, TransformList::to_css", "src/values/angle.rs: Angle::to_css", "src/values/length.rs: LengthValue::parse"]}
{"id": "C77", "title": "translate, rotate and scale mean the same after printing", "statement": "Every valid value of the properties `translate`, `rotate` and `scale` is parsed and printed with the same meaning, including axes given by vectors and keywords and negative axes, and the transform function it is converted to is the same map.", "quantifier": "every value of the three properties with all numbers, lengths, angles and environments", "why_tests_cant": "axes and angles are real numbers; the normalisation of axes must be right for all of them", "anchors": ["src/properties/transform.rs: Translate, Rotate, Scale, to_transform"]}
{"id": "C78", "title": "Merging of transform declarations keeps what is used", "statement": "Minifying a block with `transform`, `translate`, `rotate` and `scale` declarations, with or without vendor prefixes, keeps the declarations that win the cascade for each of these properties.", "quantifier": "every block of declarations, every target", "why_tests_cant": "blocks are unbounded and the handler keeps state across declarations", "anchors": ["src/properties/transform.rs: TransformHandler::handle_property, TransformHandler::flush"]}
{"id": "C79", "title": "Matrix operations of the transform API are those of linear algebra", "statement": "multiply, determinant, inverse, transpose, identity, scale_by_factor, multiply_vector and to_matrix2d of the public matrix type are the product, determinant, inverse (none exactly for singular matrices) and so on; multiplication composes maps.", "quantifier": "all real matrices and vectors", "why_tests_cant": "identities in sixteen to thirty-two real variables", "anchors": ["src/properties/transform.rs: Matrix3d, Transform::to_matrix, TransformList::to_matrix"]}
{"id": "C80", "title": "A transform list converted to a matrix is the composition of its functions", "statement": "If a transform list can be converted to one matrix, applying that matrix to a point is the same as applying the functions of the list from the last to the first.", "quantifier": "all transform lists with absolute lengths, all axes and angles", "why_tests_cant": "lists are unbounded, angles and axes are real numbers", "anchors": ["src/properties/transform.rs: Transform::to_matrix, TransformList::to_matrix"]}
{"id": "C81", "title": "A printed position is the same point", "statement": "Parsing a <position> (one to four values, keywords, lengths, percentages, calculations) and printing it, minified or not, gives a valid position of the same point in every box; whatever is accepted is a valid position; a position that was not written with three values is not printed with three.", "quantifier": "all valid positions, all boxes, all values of units and calculations", "why_tests_cant": "keywords, orders and offsets combine, and values are real numbers in every box", "anchors": ["src/values/position.rs: Position::parse, Position::to_css, PositionComponent"]}
{"id": "C82", "title": "Printing a linear gradient keeps its colours", "statement": "A linear or repeating linear gradient is printed, minified or not, as a gradient with the same colour at every point of every box, however colours are interpolated.", "quantifier": "all linear gradients, boxes, points, ways to mix colours, print options", "why_tests_cant": "the colour is a function on the plane; lists of stops are unbounded and missing positions depend on the whole list", "anchors": ["src/values/gradient.rs: LinearGradient::parse, LinearGradient::to_css, LineDirection, parse_items, serialize_items"]}
{"id": "C83", "title": "Prefixed linear gradients keep their colours", "statement": "A prefixed linear gradient (with the legacy meaning of its direction) is printed with the same colours, and the prefixed copy made of a standard gradient for old browsers has the colours of the original.", "quantifier": "all prefixed linear gradients, boxes, points, ways to mix colours", "why_tests_cant": "angles are real numbers and two syntaxes with opposite conventions are involved", "anchors": ["src/values/gradient.rs: Gradient::get_prefixed, convert_to_legacy_direction, LineDirection::to_css, LinearGradient::to_css"]}
{"id": "C84", "title": "Printing a radial gradient keeps its shape and colours", "statement": "A radial gradient is printed with the same ending shape, centre and colour stops.", "quantifier": "all radial gradients, boxes, lengths of the gradient line", "why_tests_cant": "shapes, sizes and positions combine freely; values are real numbers", "anchors": ["src/values/gradient.rs: RadialGradient::parse, RadialGradient::to_css, EndingShape, Circle, Ellipse"]}
{"id": "C85", "title": "Printing a conic gradient keeps its angle and colours", "statement": "A conic gradient is printed with the same angle, centre and colour stops.", "quantifier": "all conic gradients, boxes", "why_tests_cant": "lists of stops are unbounded; angles are real numbers", "anchors": ["src/values/gradient.rs: ConicGradient::parse, ConicGradient::to_css"]}
{"id": "C86", "title": "Printing -webkit-gradient() keeps its geometry and colours", "statement": "A -webkit-gradient() is printed, minified or not, with the same points, radii and colour stops.", "quantifier": "all -webkit-gradient() values, boxes, points", "why_tests_cant": "coordinates are real numbers, lists of stops unbounded", "anchors": ["src/values/gradient.rs: WebKitGradient::parse, WebKitGradient::to_css, WebKitGradientPoint, WebKitColorStop"]}
{"id": "C87", "title": "The -webkit-gradient() made of a gradient has the same colours", "statement": "When a gradient is converted to -webkit-gradient() for old browsers, the result has the same colour at every point of every box as the original.", "quantifier": "all gradients that can be converted, boxes, points, ways to mix colours", "why_tests_cant": "the colour is a function on the plane for boxes of all sizes", "anchors": ["src/values/gradient.rs: WebKitGradient::from_standard, convert_stops_to_webkit, WebKitGradientPointComponent::from_position", "src/values/image.rs: FallbackValues for Image"]}
{"id": "C88", "title": "No double-position colour stops for targets without them", "statement": "When a target lacks support for two positions of one colour stop, no linear, radial or conic gradient is printed with a colour that has two positions.", "quantifier": "all gradients, also ones built through the API", "why_tests_cant": "lists of colour stops are unbounded", "anchors": ["src/values/gradient.rs: serialize_items"]}
{"id": "C89", "title": "Hue interpolation takes the specified way round", "statement": "For each hue interpolation method of color-mix() the two hues are brought to 0–360 degrees and a turn is added to one of them exactly as CSS Color 4 says, so that the difference is in the range the method allows (shorter: at most 180 degrees, longer: at least 180 or none, increasing: not negative, decreasing: not positive); `specified` leaves the hues alone.", "quantifier": "all pairs of hues, also negative and over 360 degrees, all methods", "why_tests_cant": "hues are real numbers with discontinuities at every half turn", "anchors": ["src/values/color.rs: HueInterpolationMethod::interpolate"]}
{"id": "C90", "title": "color-mix() computes the specified mixture", "statement": "The mixture of two colours of a colour space has the opacity and components of CSS Color 5: missing components are taken from the other colour, components other than hues are weighted by opacity, hues are interpolated on the way of the method, percentages are scaled to 100%, and a sum below 100% makes the result more transparent.", "quantifier": "all colours of rectangular and polar spaces, with any missing components and opacities from 0 on, all non-negative percentages that are not both zero", "why_tests_cant": "real components and every combination of missing components", "anchors": ["src/values/color.rs: CssColor::interpolate, interpolate macro, fill_missing_components, premultiply, unpremultiply"]}
{"id": "C91", "title": "Percentages of color-mix()", "statement": "Percentages that are left out are filled in as specified, percentages that are both zero have no result, and percentages outside of 0% to 100% are invalid.", "quantifier": "all pairs of optional percentages", "why_tests_cant": "percentages are real numbers", "anchors": ["src/values/color.rs: parse_color_mix"]}
{"id": "C92", "title": "color-mix() of light-dark() colours", "statement": "Mixing colours that use light-dark(), nested to any depth, gives a colour that in the light (dark) scheme is the mixture of the colours of the light (dark) scheme; colours without keywords can always be mixed.", "quantifier": "all trees of light-dark() colours and both schemes", "why_tests_cant": "nesting is unbounded", "anchors": ["src/values/color.rs: CssColor::interpolate"]}
{"id": "C93", "title": "hsl() and hwb() have the specified colours", "statement": "The RGB components computed for hsl() and hwb() are the ones of the formulas in CSS Color 4.", "quantifier": "all hues (also negative and over 360 degrees), saturations, lightnesses, whitenesses and blacknesses", "why_tests_cant": "real-valued, with several branches", "anchors": ["src/values/color.rs: From<HSL> for SRGB, From<HWB> for SRGB"]}
{"id": "C94", "title": "RGB to HSL and HWB loses nothing", "statement": "Converting a colour of the sRGB gamut to HSL or HWB and back gives the same colour; the hue is from 0 to 360 degrees and missing exactly for grays, the other components are percentages from 0 to 100.", "quantifier": "all colours of the sRGB gamut", "why_tests_cant": "real-valued; every order of the components is another branch", "anchors": ["src/values/color.rs: From<SRGB> for HSL, From<SRGB> for HWB"]}
{"id": "C95", "title": "Lab to LCH loses nothing", "statement": "Converting a colour from Lab to LCH (Oklab to Oklch) and back gives the same colour, with a chroma that is not negative and a hue from 0 to 360 degrees; and the other way round for colours that are not gray.", "quantifier": "all components", "why_tests_cant": "real-valued", "anchors": ["src/values/color.rs: rectangular_to_polar, polar_to_rectangular"]}
{"id": "C96", "title": "Fallbacks for colours do not crash", "statement": "Minifying a value with colours for any targets never crashes while its fallbacks are computed.", "quantifier": "all values of properties with colours (any number, any nesting of light-dark(), keywords), all targets", "why_tests_cant": "values are combinations of colours of every space with keywords; targets are a product of nine browser versions and flags", "anchors": ["src/values/color.rs: CssColor::get_possible_fallbacks, get_necessary_fallbacks, get_fallback, FallbackValues for CssColor", "src/properties/text.rs: TextShadow", "src/properties/effects.rs: FilterList", "src/properties/border.rs", "src/properties/box_shadow.rs", "src/values/image.rs"]}
{"id": "C97", "title": "Every target understands a fallback", "statement": "Every browser that is among the targets, in the asked version or any newer one, understands at least one of the declarations emitted for a value with modern colours.", "quantifier": "all values with colours, all targets, all browser versions that are targets", "why_tests_cant": "the support table gives a different answer for every version of nine browsers, and several features interact", "anchors": ["src/values/color.rs: CssColor::get_possible_fallbacks, get_necessary_fallbacks, get_fallback, FallbackValues for CssColor", "src/properties/text.rs: TextShadow", "src/properties/effects.rs: FilterList", "src/properties/border.rs", "src/properties/box_shadow.rs", "src/values/image.rs"]}
{"id": "C98", "title": "The best value wins", "statement": "A browser that understands the original colours understands the last of the emitted declarations, so that it uses this one, and its colours are the original ones or converted to Lab, which has room for every colour.", "quantifier": "all values with colours, all targets, all browsers and versions", "why_tests_cant": "needs all combinations of targets and a browser that is not one", "anchors": ["src/values/color.rs: CssColor::get_possible_fallbacks, get_necessary_fallbacks, get_fallback, FallbackValues for CssColor", "src/properties/text.rs: TextShadow", "src/properties/effects.rs: FilterList", "src/properties/border.rs", "src/properties/box_shadow.rs", "src/values/image.rs"]}
{"id": "C99", "title": "No fallbacks without need", "statement": "If all targets understand the colours of a value, and no feature is forced to be compiled, nothing is added and the value is unchanged.", "quantifier": "all values, all targets", "why_tests_cant": "all combinations of versions", "anchors": ["src/values/color.rs: CssColor::get_possible_fallbacks, get_necessary_fallbacks, get_fallback, FallbackValues for CssColor", "src/properties/text.rs: TextShadow", "src/properties/effects.rs: FilterList", "src/properties/border.rs", "src/properties/box_shadow.rs", "src/values/image.rs"]}
{"id": "C100", "title": "Fallbacks are conversions of the value", "statement": "The declarations added are the original value with each colour converted to sRGB, then with each colour converted to Display P3, each at most once and in this order.", "quantifier": "all values, all targets", "why_tests_cant": "all values and targets", "anchors": ["src/values/color.rs: CssColor::get_possible_fallbacks, get_necessary_fallbacks, get_fallback, FallbackValues for CssColor", "src/properties/text.rs: TextShadow", "src/properties/effects.rs: FilterList", "src/properties/border.rs", "src/properties/box_shadow.rs", "src/values/image.rs"]}
{"id": "C101", "title": "Fallbacks of custom properties do not crash", "statement": "Computing the @supports fallbacks of a token list (custom property, unparsed value, keyframes, font palette) never crashes.", "quantifier": "all token lists of any nesting, all targets", "why_tests_cant": "token lists nest without bound", "anchors": ["src/properties/custom.rs: TokenList::get_necessary_fallbacks, get_fallback, get_fallbacks", "src/rules/keyframes.rs: KeyframesRule::get_fallbacks", "src/rules/font_palette_values.rs: FontPaletteValuesRule::get_fallbacks"]}
{"id": "C102", "title": "Targets understand the token list that takes effect", "statement": "In every target browser, in the asked version or newer, the value that takes effect (last @supports rule whose condition holds, else the plain value) has only colours that the browser understands.", "quantifier": "all token lists, all targets, all browser versions that are targets", "why_tests_cant": "versions and the set of @supports rules interact", "anchors": ["src/properties/custom.rs: TokenList::get_necessary_fallbacks, get_fallback, get_fallbacks", "src/rules/keyframes.rs: KeyframesRule::get_fallbacks", "src/rules/font_palette_values.rs: FontPaletteValuesRule::get_fallbacks"]}
{"id": "C103", "title": "A browser that understands a token list gets it exactly", "statement": "A browser that understands the colours of a token list gets them unchanged or converted to a space that has room for them (Lab for any colour, Display P3 for sRGB and P3 colours).", "quantifier": "all token lists, all targets, all browsers and versions", "why_tests_cant": "needs targets of every combination of versions and a browser that is not one", "anchors": ["src/properties/custom.rs: TokenList::get_necessary_fallbacks, get_fallback, get_fallbacks", "src/rules/keyframes.rs: KeyframesRule::get_fallbacks", "src/rules/font_palette_values.rs: FontPaletteValuesRule::get_fallbacks"]}
{"id": "C104", "title": "Merging prefixed declarations keeps the winner", "statement": "In a block with any declarations of a property that takes vendor prefixes, in any order, minification keeps the value that wins in every browser, whichever of the names it knows; a handler used for an earlier block behaves like a new one.", "quantifier": "all lists of declarations, all sets of known names, all targets", "why_tests_cant": "every order of prefixed and unprefixed declarations with equal or different values", "anchors": ["src/properties/prefix_handler.rs: PrefixHandler", "src/targets.rs: Targets::prefixes"]}
{"id": "C105", "title": "Fallback declarations keep the winner", "statement": "In a block with any declarations of a property whose values have colours, for every target browser, the value that wins after minification is the one that won before (possibly converted to Lab), and if it understood none of the declarations it gets a fallback of one of them.", "quantifier": "all lists of declarations (parsed, unparsed, others), all targets, all browser versions that are targets", "why_tests_cant": "histories of declarations with values that some targets understand and others not", "anchors": ["src/properties/prefix_handler.rs: FallbackHandler", "src/values/color.rs: IsCompatible for CssColor"]}
{"id": "C106", "title": "@supports fallbacks belong to the last declaration", "statement": "If a custom property is declared several times in a rule, the value that takes effect in every browser, with the @supports rules that are added, is the one of the last declaration.", "quantifier": "all lists of declarations of the property, all browsers", "why_tests_cant": "histories of declarations with different sets of @supports rules", "anchors": ["src/context.rs: add_conditional_property, get_supports_rules", "src/declaration.rs: handle_custom_property, add_conditional_fallbacks"]}
{"id": "C107", "title": "Grid areas are read and written as CSS says", "statement": "For every value of grid-template-areas, the cells that are read are those of the CSS grammar (longest runs of name characters or dots, rows of equal length), the grammar is unambiguous, and the printed strings (minified: without spaces around dots) describe the same cells.", "quantifier": "all strings, all lists of strings, both printing modes", "why_tests_cant": "strings of any length and any characters", "anchors": ["src/properties/grid.rs: GridTemplateAreas::parse, parse_string, write_string"]}
{"id": "C108", "title": "Grid placement shorthands keep the lines", "statement": "Every value of grid-row, grid-column, grid-area and their longhands that is read and printed again has the same lines by the CSS grammar, whatever parts the printer leaves out.", "quantifier": "all token lists of the grammar", "why_tests_cant": "the omission rules depend on pairs of values", "anchors": ["src/properties/grid.rs: GridLine, GridRow, GridColumn, GridArea"]}
{"id": "C109", "title": "grid-auto-flow", "statement": "What is printed for grid-auto-flow means the same, what is read is what the grammar says, and every value of the grammar is read.", "quantifier": "all token lists, all flows", "why_tests_cant": "all orders of keywords", "anchors": ["src/properties/grid.rs: GridAutoFlow"]}
{"id": "C110", "title": "Track lists are read and written as CSS says", "statement": "grid-template-rows and grid-template-columns (with line names, minmax(), fit-content(), repeat()) are read as the CSS grammar says, unambiguously, and the printed value has the same meaning; the same for grid-auto-rows and grid-auto-columns.", "quantifier": "all token lists, all track lists", "why_tests_cant": "nested lists of any length with optional parts", "anchors": ["src/properties/grid.rs: TrackSizing, TrackList, TrackSize, TrackBreadth, TrackRepeat, TrackSizeList"]}
{"id": "C111", "title": "grid-template", "statement": "The grid-template shorthand is read as the CSS grammar says (rows of areas with sizes and line names before and after), unambiguously, and the printed value has the same meaning.", "quantifier": "all token lists, all templates", "why_tests_cant": "interleaved lists of any length", "anchors": ["src/properties/grid.rs: GridTemplate::parse, to_css_with_indent, is_valid"]}
{"id": "C112", "title": "grid", "statement": "The grid shorthand is read as the CSS grammar says, and what is printed for longhand values that count as expressible means these values; printing never panics.", "quantifier": "all token lists, all combinations of six longhand values", "why_tests_cant": "combinations of values", "anchors": ["src/properties/grid.rs: Grid::parse, to_css, is_valid"]}
{"id": "C113", "title": "Merging grid declarations keeps the layout", "statement": "For every list of declarations of grid properties (longhands, shorthands, unparsed values, in any order), the declarations after minification, read by the CSS grammar, give every grid longhand the value it had before, up to rows of null cells that fit into the row tracks.", "quantifier": "all lists of grid declarations", "why_tests_cant": "histories of declarations of ten longhands and six shorthands", "anchors": ["src/properties/grid.rs: GridHandler, pad_grid_template_areas, is_grid_property"]}
{"id": "C114", "title": "Scoped grid names stay connected", "statement": "With CSS modules, the renamed name of a line x-start or x-end is the renamed name of the area x with the same suffix, so that implicit lines are still found; different names stay different; patterns for which this is impossible are reported.", "quantifier": "all patterns, sources, names and suffixes", "why_tests_cant": "all patterns and names", "anchors": ["src/properties/grid.rs: write_ident", "src/css_modules.rs: Pattern::write", "src/printer.rs: write_ident"]}
{"id": "C115", "title": "unicode-range keeps its code points", "statement": "For every range of code points, the text printed for unicode-range (with question marks where possible) stands for the same range by the CSS grammar, and that grammar is unambiguous.", "quantifier": "all ranges of code points", "why_tests_cant": "the digits that differ can be anywhere, all starts and ends up to 0x10FFFF", "anchors": ["src/rules/font_face.rs: ToCss for UnicodeRange"]}
{"id": "C116", "title": "Easing functions keep their timing curve", "statement": "Every easing function that CSS accepts is accepted and printed as an easing function with exactly the same timing curve, nothing else is accepted, and the easing function is omitted as default only if its curve is that of ease.", "quantifier": "all easing functions with all numbers", "why_tests_cant": "infinitely many numbers, and many aliases of the same curve", "anchors": ["src/values/easing.rs: Parse and ToCss for EasingFunction", "src/values/easing.rs: EasingFunction::is_ease"]}
{"id": "C117", "title": "A single transition is read and printed with the same meaning", "statement": "A single transition (property, duration, delay, easing function in any order) is accepted exactly if the grammar of CSS accepts it; the first time is the duration and the second the delay, and what is printed is read back with the same property, times and curve.", "quantifier": "all sequences of times, identifiers and easing functions", "why_tests_cant": "all orders and lengths of components", "anchors": ["src/properties/transition.rs: Parse and ToCss for Transition"]}
{"id": "C118", "title": "Minified transition declarations animate the same properties in the same way", "statement": "For all transition declarations of a block, every physical property has the same transition (duration, delay, easing) before and after minification, also when names are prefixed or logical names are replaced for the targets, in both writing directions.", "quantifier": "all lists of declarations, targets and physical properties", "why_tests_cant": "all combinations of lists of different lengths, targets and directions", "anchors": ["src/properties/transition.rs: TransitionHandler", "src/properties/transition.rs: expand_properties", "src/properties/transition.rs: get_transitions"]}
{"id": "C119", "title": "Merging prefixed transition declarations keeps the computed values", "statement": "However prefixed and unprefixed transition shorthands, longhands and unresolved values are interleaved, the computed values of the four longhands in a browser are the same before and after.", "quantifier": "all interleavings of declarations and prefixes, all browsers", "why_tests_cant": "all histories of declarations", "anchors": ["src/properties/transition.rs: TransitionHandler::handle_property", "src/properties/transition.rs: TransitionHandler::flush"]}
{"id": "C120", "title": "Logical names in transition-property become the right physical names", "statement": "When logical properties are compiled, every logical property name in transition-property becomes exactly the physical names it stands for, left to right and right to left.", "quantifier": "all property names and both directions", "why_tests_cant": "all names, in all lists, with both directions", "anchors": ["src/properties/transition.rs: get_logical_properties", "src/properties/transition.rs: expand_properties"]}
{"id": "C121", "title": "Minifying transitions does not panic", "statement": "Minifying transition declarations ends without a panic.", "quantifier": "all lists of declarations and all targets", "why_tests_cant": "index computations over lists of any length", "anchors": ["src/properties/transition.rs: expand_properties", "src/properties/transition.rs: TransitionHandler::flush"]}
{"id": "C122", "title": "Minified size declarations give the same sizes", "statement": "For every list of width, height, min-, max- and logical size declarations of a block, a browser that understands one of them uses the same value (perhaps under a vendor prefix) before and after minification, and nothing of a block leaks into the next one.", "quantifier": "all lists of declarations, targets and browsers", "why_tests_cant": "all interleavings of physical, logical, prefixed and unresolved declarations", "anchors": ["src/properties/size.rs: SizeHandler"]}
{"id": "C123", "title": "Values of the size properties are read and printed with the same meaning", "statement": "Exactly the keywords (with their vendor prefixes), fit-content() and lengths of the grammar are accepted for sizes, and each accepted value is printed as a text with the same meaning.", "quantifier": "all values", "why_tests_cant": "all spellings in upper and lower case", "anchors": ["src/properties/size.rs: Size::parse", "src/properties/size.rs: Size::to_css", "src/properties/size.rs: MaxSize"]}
{"id": "C124", "title": "aspect-ratio is read and printed as CSS says", "statement": "aspect-ratio accepts exactly auto || <ratio> in both orders, and the printed value is read with the same meaning.", "quantifier": "all token sequences and numbers", "why_tests_cant": "all numbers and orders", "anchors": ["src/properties/size.rs: AspectRatio", "src/values/ratio.rs: Ratio"]}
{"id": "C125", "title": "Printing minified sizes does not panic", "statement": "Size declarations that were parsed can be minified for any targets and then printed without a panic.", "quantifier": "all declarations and targets", "why_tests_cant": "all targets and option flags", "anchors": ["src/properties/size.rs: Size::to_css", "src/properties/size.rs: SizeHandler::flush", "src/targets.rs: Targets::prefixes"]}
{"id": "C126", "title": "Minifying border radii keeps the radius of every corner", "statement": "Whatever a block declares with border-radius, its longhands, vendor prefixes, logical corners and var(), in whatever order, the four corners of a box compute to the same radii with the declarations that are written as with those of the source, in both directions of text; and nothing is carried over to the next block.", "quantifier": "every sequence of radius declarations, all targets and feature flags, every browser, both directions, all radii of other rules", "why_tests_cant": "the state machine merges, delays and drops declarations across arbitrary interleavings of physical, logical, prefixed and unparsed declarations", "anchors": ["src/properties/border_radius.rs BorderRadiusHandler"]}
{"id": "C127", "title": "display values keep their meaning and get no longer", "statement": "Every value of display of CSS Display 3, and the prefixed legacy ones, in any order and letter case, is read with its outer and inner display type; what is written for a value is read as the same value and is not longer than it (but for flow, written as block).", "quantifier": "all lists of words", "why_tests_cant": "words can be in any order, with defaults for omitted ones", "anchors": ["src/properties/display.rs DisplayPair, DisplayInside, Display"]}
{"id": "C128", "title": "Merging display declarations keeps the one a browser follows", "statement": "Whatever sequence of display declarations (with vendor prefixes and var()) a block has, every browser that knows the values follows the same one in the output; and if unprefixed flex wins, all prefixed forms that the targets need are written before it.", "quantifier": "all sequences, targets and browsers", "why_tests_cant": "which earlier declarations are kept depends on the whole history and on the targets", "anchors": ["src/properties/display.rs DisplayHandler"]}
{"id": "C129", "title": "Merging overflow declarations keeps both axes", "statement": "For any sequence of overflow, overflow-x and overflow-y declarations, the computed values of both axes are the same in the output, for browsers with and without the two-value shorthand; the value round-trips.", "quantifier": "all sequences, targets and browsers", "why_tests_cant": "all interleavings", "anchors": ["src/properties/overflow.rs OverflowHandler, Overflow"]}
{"id": "C130", "title": "Only values of display are read as such", "statement": "A display declaration that is parsed (and so minified) is one that browsers accept with the same meaning; all others are kept as they are.", "quantifier": "all lists of words", "why_tests_cant": "the set of invalid values is infinite", "anchors": ["src/properties/display.rs DisplayPair::parse"]}
{"id": "C131", "title": "Every animation shorthand is read with its meaning", "statement": "For any list of components (times, easing functions, counts, keywords, names, timelines) the animation shorthand is accepted exactly if CSS Animations accepts it, with the same duration, delay, name and other fields; a keyword is a name only if its field is already taken.", "quantifier": "all lists of components in all orders", "why_tests_cant": "components may come in any order and each keyword has two readings", "anchors": ["src/properties/animation.rs Animation::parse"]}
{"id": "C132", "title": "Printing an animation keeps its meaning", "statement": "The text written for an animation means the same animation, also when its name is a keyword of another field or when fields have their initial value.", "quantifier": "all animations that can be read", "why_tests_cant": "any field can be omitted, and names may equal any keyword", "anchors": ["src/properties/animation.rs Animation::to_css"]}
{"id": "C133", "title": "scroll() and view() timelines keep their meaning", "statement": "scroll() and view() are accepted exactly in the forms of Scroll-driven Animations, with the right axis, scroller and insets, and what is written is read as the same timeline.", "quantifier": "all argument lists; all timelines", "why_tests_cant": "arguments in any order with defaults", "anchors": ["src/properties/animation.rs ScrollTimeline, ViewTimeline"]}
{"id": "C134", "title": "animation-range keeps both ends", "statement": "animation-range is read with the two ends that the specification gives it, with defaults for omitted parts, and what is written for two ends is read as the same two ends.", "quantifier": "all token lists; all pairs of range ends", "why_tests_cant": "defaults of the end depend on the start", "anchors": ["src/properties/animation.rs AnimationRange"]}
{"id": "C135", "title": "Merging animation declarations keeps the eight longhands", "statement": "Whatever shorthands, longhands, vendor prefixes and var() a block has and in whatever order, the computed lists of animation-name, -duration, -timing-function, -iteration-count, -direction, -play-state, -delay and -fill-mode are the same in the output.", "quantifier": "all declaration sequences, all targets, all browsers, all values of other rules", "why_tests_cant": "unbounded histories of a state machine with nine lists and prefixes", "anchors": ["src/properties/animation.rs AnimationHandler"]}
{"id": "C136", "title": "Merging animation declarations keeps the timeline", "statement": "The computed animation-timeline is the same in the output.", "quantifier": "all declaration sequences, all targets, all browsers, all values of other rules", "why_tests_cant": "unbounded histories; the shorthand resets the timeline implicitly", "anchors": ["src/properties/animation.rs AnimationHandler::flush"]}
{"id": "C137", "title": "Merging animation declarations keeps the ranges", "statement": "The computed animation-range-start and -end are the same in the output.", "quantifier": "all declaration sequences, all targets, all browsers, all values of other rules", "why_tests_cant": "unbounded histories; the shorthand resets the ranges implicitly", "anchors": ["src/properties/animation.rs AnimationHandler::flush"]}
{"id": "C138", "title": "Merging animation declarations keeps the composition", "statement": "The computed animation-composition is the same in the output.", "quantifier": "all declaration sequences, all targets, all browsers, all values of other rules", "why_tests_cant": "unbounded histories; the shorthand resets the composition implicitly", "anchors": ["src/properties/animation.rs AnimationHandler::handle_property"]}
{"id": "C139", "title": "No timeline in an animation shorthand that a target cannot read", "statement": "If an animation shorthand in the output has a timeline other than auto, all targets support timelines in the shorthand.", "quantifier": "all declaration sequences and targets", "why_tests_cant": "depends on what was merged before", "anchors": ["src/properties/animation.rs AnimationHandler::flush"]}
{"id": "C140", "title": "Range ends are read and written exactly", "statement": "animation-range-start and animation-range-end are accepted exactly in the forms of the specification, and what is written is read as the same end.", "quantifier": "all token lists; all range ends", "why_tests_cant": "defaults of the two longhands differ", "anchors": ["src/properties/animation.rs AnimationRangeStart, AnimationRangeEnd, AnimationAttachmentRange"]}
{"id": "C141", "title": "font families keep their names", "statement": "A font-family list that is written and read again gives the same families: keywords stay keywords, names stay names, whether they are written as strings or identifiers.", "quantifier": "all lists of families and all names; all valid texts", "why_tests_cant": "the choice between identifiers and strings depends on lengths, spaces and keywords of arbitrary names", "anchors": ["src/properties/font.rs: FontFamily, FamilyName::parse, FamilyName::to_css"]}
{"id": "C142", "title": "the font shorthand is read with its meaning", "statement": "A valid font shorthand is accepted with the style, caps, weight, width, size, line height and families that the specification gives it, in any order of the leading parts; what is accepted is valid.", "quantifier": "all token sequences", "why_tests_cant": "orders and repeated `normal` words give an unbounded family of texts", "anchors": ["src/properties/font.rs: Font::parse"]}
{"id": "C143", "title": "the font shorthand is written with its meaning", "statement": "What is written for a font value is a valid shorthand with the same meaning, minified or not.", "quantifier": "all font values", "why_tests_cant": "all combinations of left-out parts", "anchors": ["src/properties/font.rs: Font::to_css"]}
{"id": "C144", "title": "merging font declarations keeps the computed values in modern browsers", "statement": "A browser that accepts all values of a block computes the same seven font longhands from the minified block.", "quantifier": "all declaration blocks with font longhands, shorthands and unparsed values in any order", "why_tests_cant": "all histories of declarations", "anchors": ["src/properties/font.rs: FontHandler"]}
{"id": "C145", "title": "merging font declarations keeps fallbacks for older browsers", "statement": "A browser that accepts only the values that are compatible with the targets computes the same font longhands from the minified block.", "quantifier": "all declaration blocks, all browsers", "why_tests_cant": "all histories of declarations and all browsers", "anchors": ["src/properties/font.rs: FontHandler, flush!"]}
{"id": "C146", "title": "removing repeated families does not change the font", "statement": "For each text, and each set of fonts that have it, the first family is the same after the repetitions are removed, and no family is left twice.", "quantifier": "all lists of families, all availabilities", "why_tests_cant": "all lists", "anchors": ["src/properties/font.rs: FontHandler::flush"]}
{"id": "C147", "title": "system-ui gets its fallbacks", "statement": "Where system-ui is not known, the font is the one of the source or the one with the names of the system fonts after system-ui; where it is known the font is the same.", "quantifier": "all blocks, all availabilities of fonts", "why_tests_cant": "all lists and histories", "anchors": ["src/properties/font.rs: compatible_font_family"]}
{"id": "C148", "title": "Merging border declarations keeps every border longhand", "statement": "For targets with logical borders, in every writing mode, a browser that accepts all the values computes the same width, style and colour for each of the four sides from the minified block as from the source block.", "quantifier": "all blocks of border declarations (longhands, sides, border-width/-style/-color, border, logical sides and axes, unparsed values), all writing modes, all values and fallbacks", "why_tests_cant": "The handler merges up to 24 held longhands by a tree of equalities; only a proof covers all combinations and orders", "anchors": ["src/properties/border.rs BorderHandler::handle_property", "src/properties/border.rs BorderHandler::flush", "src/properties/border.rs flush_category!"]}
{"id": "C149", "title": "Block-direction borders without support for logical properties", "statement": "For targets without logical borders, a block that does not set logical inline sides gives the same borders in horizontal writing, and no rules for a direction are added.", "quantifier": "all blocks without logical inline sides, horizontal writing modes, all values", "why_tests_cant": "All orders and combinations of declarations", "anchors": ["src/properties/border.rs BorderHandler::flush", "src/properties/border.rs BorderHandler::flush_unparsed"]}
{"id": "C150", "title": "Logical inline borders are compiled to rules for both directions", "statement": "For targets without logical borders, the rule followed by the rule for the direction of the text gives the same borders as the source block.", "quantifier": "all blocks, both directions, all values", "why_tests_cant": "All orders and combinations of declarations; the order of declarations is lost between the two rules", "anchors": ["src/properties/border.rs BorderHandler::flush logical_prop!", "src/context.rs PropertyHandlerContext::add_logical_rule"]}
{"id": "C151", "title": "Only physical border properties are written for targets without logical borders", "statement": "If logical borders are not supported, no logical border property is in the output.", "quantifier": "all blocks of border declarations", "why_tests_cant": "All combinations of held values decide which shorthand is written", "anchors": ["src/properties/border.rs BorderHandler::flush", "src/properties/border.rs BorderHandler::flush_unparsed"]}
{"id": "C152", "title": "border-image after border is kept", "statement": "A border-image declaration that is not followed by border or another border-image is the border-image of the output.", "quantifier": "all blocks around the declaration, all targets", "why_tests_cant": "Holds for every position of the other declarations and every flush", "anchors": ["src/properties/border.rs BorderHandler::finalize", "src/properties/border_image.rs BorderImageHandler::flush"]}
{"id": "C153", "title": "border resets border-image, and nothing else does", "statement": "border-image is reset by the output of a block exactly if it is reset by the block.", "quantifier": "all blocks of border declarations", "why_tests_cant": "Merging creates and removes border declarations depending on all held values", "anchors": ["src/properties/border.rs BorderHandler::flush", "src/properties/border_image.rs BorderImageHandler::reset"]}
{"id": "C154", "title": "A printed background layer is read back the same", "statement": "Printing one layer of `background`, minified or not, and parsing the text gives a layer with the same colour, image, position, size, repetition, attachment, origin and clip.", "quantifier": "all layers (any values and all keywords), both print modes", "why_tests_cant": "the omission of defaults interacts between fields (position and size, origin and clip), and one box keyword sets two fields", "anchors": ["src/properties/background.rs: impl ToCss for Background, impl Parse for Background"]}
{"id": "C155", "title": "Background layers are read according to the grammar in any order", "statement": "A layer is accepted exactly if it is made of the components of the grammar, in any order and each at most once (two boxes allowed), and it gets the values these components mean: the first box is the origin, the second the clip, one alone is both.", "quantifier": "all token lists and all layers", "why_tests_cant": "all orders and combinations of components cannot be enumerated; the parser is a greedy loop", "anchors": ["src/properties/background.rs: impl Parse for Background, BackgroundSize, BackgroundRepeat"]}
{"id": "C156", "title": "Merging background declarations keeps all longhands", "statement": "For a block without vendor-prefixed images, the declarations after minification give all nine background longhands the same values as the source: shorthands and longhands in any order, lists of different lengths, `var()`, prefixed `background-clip`, values that targets do not support.", "quantifier": "all blocks, all targets, all fallback functions", "why_tests_cant": "the handler keeps state across arbitrarily many declarations and decides between shorthand and longhands from all of them", "anchors": ["src/properties/background.rs: BackgroundHandler::handle_property, flush, finalize"]}
{"id": "C157", "title": "Prefixed background images survive minification", "statement": "Declarations with vendor-prefixed images next to unprefixed ones give every browser the same background as the source block.", "quantifier": "all blocks with prefixed images, all browsers (sets of understood values)", "why_tests_cant": "prefixed declarations are kept aside and written at the end, which interacts with every other declaration", "anchors": ["src/properties/background.rs: BackgroundHandler (decls, has_prefix)"]}
{"id": "C158", "title": "`get` on a block gives the background that the block declares", "statement": "If a declaration block answers a value for `background`, that value sets all nine longhands to what the declarations of the block set them to, and has their importance.", "quantifier": "all declaration blocks, normal and important", "why_tests_cant": "the answer combines arbitrarily many declarations with lists of arbitrary lengths", "anchors": ["src/properties/background.rs: Shorthand::from_longhands", "src/declaration.rs: DeclarationBlock::get"]}
{"id": "C159", "title": "Setting a longhand inside a background shorthand", "statement": "Setting a longhand of a `background` value fails only if the number of values differs from the number of layers, and otherwise gives the value that the shorthand followed by the longhand would have.", "quantifier": "all background values and longhand declarations", "why_tests_cant": "lists of layers of every length", "anchors": ["src/properties/background.rs: Shorthand::set_longhand"]}
{"id": "C160", "title": "The longhands of a background value mean the value", "statement": "The longhands that the API extracts from a `background` value, declared in order, set the same values as the shorthand.", "quantifier": "all background values", "why_tests_cant": "lists of layers of every length", "anchors": ["src/properties/background.rs: Shorthand::longhand, longhands"]}
{"id": "C161", "title": "Minifying flexbox declarations keeps the layout of modern browsers", "statement": "For every block of flexbox declarations (flex-direction, flex-wrap, flex-flow, flex-grow, flex-shrink, flex-basis, flex, order, their prefixed forms, the properties of the 2009 and 2012 drafts, and declarations with var()), a modern browser, with or without -webkit- as an alias, ends up with the same six longhands from the output as from the input.", "quantifier": "all blocks of any length, all sets of prefixes, all targets whose prefixes keep the unprefixed property, all six longhands", "why_tests_cant": "The handler merges prefixes, splits shorthands by common prefixes and flushes; tests cover a few sequences.", "anchors": ["src/properties/flex.rs: FlexHandler::handle_property, FlexHandler::flush"]}
{"id": "C162", "title": "Browsers of the 2009 flexbox draft get what the standard properties say", "statement": "For every block of unprefixed flexbox declarations and targets that include browsers of the 2009 draft, such a browser ends up with box-orient, box-direction, box-flex, box-lines and box-ordinal-group that correspond to flex-direction, flex-grow, flex-wrap and order.", "quantifier": "all blocks of any length, both prefixes of 2009 browsers", "why_tests_cant": "It depends on which shorthands are written and on what is cleared.", "anchors": ["src/properties/flex.rs: FlexHandler::flush, FlexDirection::to_2009, BoxOrdinalGroup::from_standard"]}
{"id": "C163", "title": "Internet Explorer 10 gets the same flexbox layout", "statement": "For every block of unprefixed flexbox declarations and targets that need -ms-, a browser of the 2012 draft ends up with the same direction, wrap, grow, shrink, basis and order (under their names of 2012) as modern browsers get from the source.", "quantifier": "all blocks of any length, all six longhands", "why_tests_cant": "Longhands have other names in the 2012 draft while shorthands keep theirs; whether a shorthand is written depends on the whole block.", "anchors": ["src/properties/flex.rs: FlexHandler::flush"]}
{"id": "C164", "title": "With error recovery, parsing a style sheet never fails", "statement": "For every style sheet, however malformed its rules and declarations at any depth, StyleSheet::parse with error_recovery gives a style sheet.", "quantifier": "all sequences of items, nested to any depth", "why_tests_cant": "A single error path that returns early would break it.", "anchors": ["src/parser.rs: NestedRuleParser::parse_nested", "src/stylesheet.rs: StyleSheet::parse"]}
{"id": "C165", "title": "Error recovery keeps what browsers keep", "statement": "For every style sheet, parsing with error_recovery gives exactly the declarations and rules that browsers read: all valid ones, in the order of the source, at every depth, without the invalid ones.", "quantifier": "all sequences of items, nested to any depth, all places of errors", "why_tests_cant": "Errors can be anywhere and interact with the state of the block.", "anchors": ["src/parser.rs: NestedRuleParser::parse_nested, parse_value, parse_style_block"]}
{"id": "C166", "title": "A valid style sheet is parsed without loss and in order", "statement": "For every valid style sheet, with or without error recovery, the parsed rules say the same as the source: every declaration, nested rule and at-rule is kept in order, including declarations between and after nested rules and inside nested conditional rules.", "quantifier": "all valid sequences of items, nested to any depth", "why_tests_cant": "Declarations are stored in several places depending on what precedes them.", "anchors": ["src/parser.rs: NestedRuleParser, parse_value, parse_style_block", "src/declaration.rs: parse_declaration"]}
{"id": "C167", "title": "Without error recovery, every error is reported", "statement": "For every style sheet, parsing without error_recovery fails if any item at any depth is invalid.", "quantifier": "all sequences of items, nested to any depth", "why_tests_cant": "Errors are collected in blocks and can be lost.", "anchors": ["src/parser.rs: NestedRuleParser::parse_nested, parse_block"]}
{"id": "C168", "title": "Accepted rules stay acceptable", "statement": "For every style sheet, the list of accepted top-level rules is accepted again in full: no @import or @namespace of the output is invalid by its place.", "quantifier": "all sequences of top-level rules, valid or not", "why_tests_cant": "It is a property of a state machine over all histories.", "anchors": ["src/parser.rs: TopLevelRuleParser, State"]}
{"id": "C169", "title": "@import is accepted exactly where CSS allows it", "statement": "For every sequence of top-level rules, an @import is accepted if and only if all valid rules before it are imports or layer statements and no layer statement is between imports.", "quantifier": "all sequences of top-level rules, valid or not", "why_tests_cant": "It is a property of a state machine over all histories.", "anchors": ["src/parser.rs: TopLevelRuleParser, State"]}
{"id": "C170", "title": "Shared strings have the text they were made with", "statement": "For every history of making, cloning, converting to owned and dropping strings, by any threads, no freed memory is used, nothing panics, every string derefs to the text it was made with, and strings are equal exactly if their texts are.", "quantifier": "all sequences of operations, all choices of addresses", "why_tests_cant": "Memory safety of unsafe code depends on the whole history.", "anchors": ["src/values/string.rs: CowArcStr"]}
{"id": "C171", "title": "Shared strings are freed exactly once, when no longer used", "statement": "For every history of operations on strings, the heap memory in use is exactly what the existing strings own; when all are dropped, all memory is freed.", "quantifier": "all sequences of operations, all choices of addresses", "why_tests_cant": "Leaks and double frees depend on the whole history.", "anchors": ["src/values/string.rs: CowArcStr::clone, CowArcStr::drop, into_owned"]}
{"id": "C172", "title": "Compiled selectors match the same elements", "statement": "Every copy of a style rule that is printed for browser targets (prefixed copies, `:not(a, b)` compiled to `:not(:is(a, b))`, `:lang(a, b)` to `:is(:lang(a), :lang(b))`, `:is(.a)` unwrapped) matches, in a browser that understands it, exactly the elements the written selector matches, with the same specificity. `:dir()` is compiled to languages, so there it holds for documents whose direction follows from the language.", "quantifier": "every selector list, all targets, every document and element", "why_tests_cant": "selectors nest without bound and the claim is about all documents", "anchors": ["src/selector.rs downlevel_selectors, downlevel_component, downlevel_dir, serialize_component, should_unwrap_is", "src/rules/style.rs update_prefix, StyleRule::to_css"]}
{"id": "C173", "title": "A rule gets a copy for each needed vendor prefix", "statement": "A rule written without vendor prefixes is printed with every prefix the targets need for one of its pseudo-classes or pseudo-elements; the copy without prefixes comes last; without targets there is only that one.", "quantifier": "every selector list and all targets", "why_tests_cant": "the prefixes are collected through nested selector arguments and depend on browser tables", "anchors": ["src/selector.rs downlevel_component, get_prefix", "src/rules/style.rs StyleRule::to_css"]}
{"id": "C174", "title": "Hand-written prefixes are kept", "statement": "A rule whose pseudo-classes and pseudo-elements are written with vendor prefixes is printed once, as written.", "quantifier": "every selector list and all targets", "why_tests_cant": "prefix handling differs by position and nesting of components", "anchors": ["src/selector.rs get_prefix, serialize_pseudo_class, serialize_pseudo_element", "src/rules/style.rs update_prefix, to_css"]}
{"id": "C175", "title": "Merging prefixed variants of a rule loses none", "statement": "Adjacent rules with the same declarations are merged as prefixed variants only if their selectors are the same up to prefixes, and every variant written is still printed.", "quantifier": "every pair of selector lists and all targets", "why_tests_cant": "any pair of rules can be adjacent", "anchors": ["src/rules/mod.rs merge_style_rules", "src/selector.rs is_equivalent"]}
{"id": "C176", "title": ":-webkit-any() and :-moz-any() get compound arguments only", "statement": "Where `:is()` or `:not()` is printed as `:-webkit-any()`/`:-moz-any()`, the arguments are compound selectors, since browsers reject the whole rule otherwise.", "quantifier": "every selector list and all targets", "why_tests_cant": "selector arguments nest without bound", "anchors": ["src/selector.rs downlevel_component, serialize_component"]}
{"id": "C177", "title": "Unwrapping :is() keeps selectors well-formed", "statement": "In every printed copy of a rule a type selector stands first in its compound selector, if it does in the rule as written: `:is(x)` is only unwrapped where the result is still a compound selector.", "quantifier": "every selector list and all targets", "why_tests_cant": "selector arguments nest without bound", "anchors": ["src/selector.rs should_unwrap_is, has_type_selector, is_simple, serialize_component"]}
{"id": "C178", "title": "Bundling ends and repeats no file", "statement": "Loading files ends under every schedule, ordering them ends, and the bundle has the rules of no file twice and of no file that the entry does not use, directly or through other files.", "quantifier": "every finite graph of imports and compositions, cyclic or not; every schedule of loads", "why_tests_cant": "graphs and schedules are arbitrary", "anchors": ["src/bundler.rs: load_file, order, inline"]}
{"id": "C179", "title": "Scoped names are read back and do not collide", "statement": "The text written for an identifier or for a scoped name is read by a CSS tokenizer as exactly that name, whatever follows it, and two local names of a file never get the same scoped name if the pattern has [local].", "quantifier": "all identifiers, patterns, files and following texts", "why_tests_cant": "ranges over all strings", "anchors": ["src/css_modules.rs: Pattern::write", "src/printer.rs: write_ident"]}
{"id": "C180", "title": "The bloom filter never denies what is in it", "statement": "In every history of inserts and removes in which everything removed had been inserted, no counter underflows, no slot is out of bounds, and every item still in the filter is reported as possibly present, for counters and for single bits.", "quantifier": "every history and every hash, also when counters saturate", "why_tests_cant": "histories are unbounded", "anchors": ["selectors/bloom.rs: CountingBloomFilter, BloomStorageU8, BloomStorageBool"]}
{"id": "C181", "title": "The cache of sibling indices never changes an answer", "statement": "Matching :nth-child() and its variants with a cache of sibling indices gives the index an element really has, and leaves only right entries in the cache, whatever was asked before.", "quantifier": "all sibling lists, elements and right caches", "why_tests_cant": "depends on the history of queries", "anchors": ["selectors/matching.rs: matches_generic_nth_child, nth_child_index"]}
{"id": "C182", "title": "What is called unused matches nothing", "statement": "If a selector list is treated as unused, no element of any document in which the unused symbols do not occur as classes or ids is matched by it.", "quantifier": "all selector lists, symbol sets, documents and elements", "why_tests_cant": "ranges over all documents", "anchors": ["src/selector.rs: is_unused"]}
{"id": "C183", "title": "Printing, comparing and adding times and angles", "statement": "A printed time, angle or percentage is read back with the same amount; comparing two times or angles compares their amounts in milliseconds or degrees; adding them adds the amounts; whatever the units.", "quantifier": "all values in all units", "why_tests_cant": "ranges over all numbers and pairs of units", "anchors": ["src/values/time.rs", "src/values/angle.rs", "src/values/percentage.rs"]}
{"id": "C184", "title": "Printed @supports conditions keep their truth value", "statement": "The text printed for any @supports condition, read by the CSS grammar, is true in exactly the browsers in which the condition is true.", "quantifier": "all conditions with any nesting and prefixes, all browsers", "why_tests_cant": "conditions nest arbitrarily", "anchors": ["src/rules/supports.rs: SupportsCondition::to_css, needs_parens"]}
{"id": "C185", "title": "Separating unsupported selectors loses none", "statement": "When a rule is split because targets do not know some of its selectors, every selector is kept exactly once and in order, with the same declarations and nested rules, and elements matched by the selectors that targets know get the declarations also in browsers that do not know the others.", "quantifier": "all selector lists and targets", "why_tests_cant": "ranges over all lists and browsers", "anchors": ["src/rules/mod.rs: StyleRule incompatible selectors, CssRuleList::minify"]}
{"id": "C186", "title": "Track lists keep their meaning", "statement": "Every value of grid-template-rows and grid-template-columns that the CSS grammar allows is accepted with the meaning the grammar gives, which is unique; and whatever was accepted is printed to something that reads as the same value.", "quantifier": "all token lists", "why_tests_cant": "nested lists of any length", "anchors": ["src/properties/grid.rs: TrackSizing, TrackList, TrackRepeat"]}
{"id": "C187", "title": "A single transition is read as CSS says", "statement": "A list of component values is accepted as a single transition exactly if it has at most two times, one easing function and one name, in any order; the first time is the duration, the second the delay, and the rest have initial values.", "quantifier": "all component lists", "why_tests_cant": "all orders and omissions", "anchors": ["src/properties/transition.rs: Transition::parse", "src/values/easing.rs"]}
{"id": "C188", "title": "Accepted imports are in valid places", "statement": "An @import that is accepted has only valid imports and layer statements before it, and no layer statement is between imports.", "quantifier": "all sequences of top-level rules, valid or not", "why_tests_cant": "a state machine over all histories", "anchors": ["src/parser.rs: TopLevelRuleParser"]}
{"id": "C189", "title": "Minified grid-template keeps its meaning", "statement": "Every grid-template value that CSS allows is minified to one with the same meaning, and no value has two meanings.", "quantifier": "all templates with any number of rows, areas and line names", "why_tests_cant": "interleaved lists of any length", "anchors": ["src/properties/grid.rs: GridTemplate::to_css"]}
{"id": "C190", "title": "Selector lists are parsed exactly by a grammar", "statement": "Parsing the prelude of a style rule succeeds exactly when the tokens can be written as a comma-separated list of complex selectors (compound selectors of type, id, class, attribute, pseudo-class, pseudo-element and nesting selectors, joined by combinators, each component allowed at its place), the value returned is what is written, no text has two readings, and the pieces ignored inside :is() and the like are exactly those that are not selectors.", "quantifier": "all token sequences, nested to any depth, and all ways the arguments of other functions may be judged", "why_tests_cant": "The grammar is recursive and stateful: what is allowed depends on everything before and around a component; tests sample only some combinations.", "anchors": ["selectors/parser.rs parse_selector", "selectors/parser.rs parse_compound_selector", "selectors/parser.rs parse_one_simple_selector", "selectors/parser.rs SelectorList::parse_with_state", "src/selector.rs SelectorParser"]}
{"id": "C191", "title": "Selectors are those of CSS", "statement": "A selector list is accepted exactly when CSS (Selectors 4, CSS Nesting, CSS Scoping) allows it, with the value CSS gives it.", "quantifier": "all token sequences", "why_tests_cant": "Needs every valid and every invalid selector.", "anchors": ["selectors/parser.rs parse_selector", "selectors/parser.rs parse_functional_pseudo_class", "selectors/parser.rs parse_one_simple_selector"]}
{"id": "C192", "title": "Selectors of nested rules", "statement": "In a nested style rule each selector is read as relative to & if it begins with a combinator, as it stands if it contains &, and otherwise with & and a descendant combinator before it; the rule is accepted exactly when each of its selectors can be read this way.", "quantifier": "all token sequences of a nested rule's prelude", "why_tests_cant": "Where & stands (also inside functions) and what is implied depends on the whole selector.", "anchors": ["selectors/parser.rs SelectorList::parse_relative", "selectors/parser.rs parse_relative_selector", "selectors/parser.rs parse_selector", "src/parser.rs parse_prelude"]}
{"id": "C193", "title": "Forgiving selector lists never invalidate", "statement": "Whatever the argument of :is(), :where(), :-webkit-any() or :-moz-any() is, the selector is accepted and keeps exactly those comma-separated pieces that are selectors, in order.", "quantifier": "all arguments", "why_tests_cant": "Quantifies over all token sequences, in particular invalid ones.", "anchors": ["selectors/parser.rs parse_is_or_where", "selectors/parser.rs SelectorList::parse_with_state"]}
{"id": "C194", "title": "Printed selectors read back as the same selectors", "statement": "For every selector list that the parser returns, the list as printed (minified or not) is accepted by the parser again, has as many selectors, and each selector matches exactly what the original one matched: universal selectors that are left out, `:is()` that is unwrapped, `:nth-child(1)` written `:first-child`, unquoted attribute values and pseudo-elements with one colon do not change what is selected.", "quantifier": "all token lists the selector parser accepts (any nesting depth of functions), both print styles, any choice which attribute values are identifiers, and every interpretation of the simple selectors, combinators and functions in which * is always true, :is() is disjunction and :nth-child(1) is :first-child", "why_tests_cant": "There are unboundedly many selectors, and whether leaving out `*` or unwrapping `:is()` is safe depends on the components around it, the pseudo-elements before it and the function it is in.", "anchors": ["src/selector.rs:serialize_selector", "src/selector.rs:serialize_component", "src/selector.rs:should_unwrap_is", "src/selector.rs:serialize_pseudo_element", "selectors/parser.rs:Component::to_css", "selectors/parser.rs:parse_selector"]}
{"id": "C195", "title": "Minified text decorations keep every longhand", "statement": "For every block of text-decoration and text-emphasis declarations (shorthands, longhands, values with var()), each browser that the targets describe correctly ends with the value for line, thickness, style, colour, emphasis style, emphasis colour and emphasis position that the last applicable declaration of the source gives, also when thickness has to be moved out of the shorthand, percentages are compiled and colour fallbacks are added.", "quantifier": "all sequences of declarations of any length, all targets (prefixes, support for thickness in the shorthand, percentages, colours), all browsers that fit the targets with any set of prefixes known as aliases, every longhand", "why_tests_cant": "The result depends on which of seven fields are set when the block ends or a var() value comes, and on the targets; unit tests look at a few combinations.", "anchors": ["src/properties/text.rs:TextDecorationHandler::handle_property", "src/properties/text.rs:TextDecorationHandler::finalize", "src/properties/custom.rs:UnparsedProperty::get_prefixed"]}
{"id": "C196", "title": "text-align keeps its side in both directions", "statement": "A block with text-align declarations, compiled for targets with or without the logical values start and end, aligns an element in left-to-right and right-to-left direction to the side that the last declaration of the source says; for targets without them only physical values are written.", "quantifier": "all sequences of text-align declarations, both kinds of targets, both directions", "why_tests_cant": "Declarations are distributed over three rules, and the order between them is not that of the source.", "anchors": ["src/properties/text.rs:TextDecorationHandler::handle_property", "src/context.rs:PropertyHandlerContext::add_logical_rule"]}
{"id": "C197", "title": "A box shadow is read in any order of its parts and prints back", "statement": "A value is read as a shadow exactly if it consists of an optional `inset`, two to four lengths and an optional colour, in any order; printing a shadow and reading it again gives the same shadow, and no value that is read as this shadow has fewer component values than the printed one.", "quantifier": "all sequences of component values, all shadows", "why_tests_cant": "the orders and the left-out lengths combine freely, and lengths and colours are unbounded", "anchors": ["src/properties/box_shadow.rs: BoxShadow::parse, BoxShadow::to_css"]}
{"id": "C198", "title": "Minifying box-shadow keeps what current browsers show", "statement": "In a browser that knows every vendor prefix and reads every colour, a block of box-shadow declarations shows the same shadows before and after minification, whatever the targets: the geometry is the same, and the colours are the same or all converted to LAB, or to RGB if the last declaration is prefixed.", "quantifier": "all blocks, targets and prefixes", "why_tests_cant": "values wait, are merged or are flushed depending on what came before and on the targets", "anchors": ["src/properties/box_shadow.rs: BoxShadowHandler"]}
{"id": "C199", "title": "Minifying box-shadow keeps the author's fallbacks in every target browser", "statement": "In every target browser, whichever colours it reads, a block of unprefixed box-shadow declarations shows after minification the value that it showed before, with its colours perhaps converted to LAB; and if a colour needs an RGB fallback, a browser that reads the RGB colours shows the value in one of the forms it reads.", "quantifier": "all blocks, all target browsers and sets of colours they read", "why_tests_cant": "depends on the whole order of declarations, and on what each browser reads", "anchors": ["src/properties/box_shadow.rs: BoxShadowHandler::flush, handle_property"]}
{"id": "C200", "title": "color-scheme reads back", "statement": "Printing any value of color-scheme and reading it again gives the same value; and a list of keywords is read only if it is `normal`, or `light` and `dark` in any order and number with at most one `only` at one end, and the value has exactly the keywords of the list.", "quantifier": "all values, all lists of keywords", "why_tests_cant": "the keywords repeat without bound", "anchors": ["src/properties/ui.rs: ColorScheme::parse, ColorScheme::to_css"]}
{"id": "C201", "title": "Operations on light-dark() act on the colour that is used", "statement": "Nesting light-dark(), converting it to another colour space and mixing it with any other colour give a value whose used colour, in light and in dark, is what the operation gives for the used colours.", "quantifier": "all colours with light-dark() nested to any depth, any conversion and any mix", "why_tests_cant": "nesting is unbounded", "anchors": ["src/values/color.rs: parse of light-dark, to_rgb, to_lab, to_p3, interpolate, to_light_dark"]}
{"id": "C202", "title": "Compiling light-dark() and color-scheme keeps the used colour", "statement": "When light-dark() is compiled to variables that color-scheme sets, every element shows the same colour as with native light-dark(), through the cascade and inheritance, for users who prefer light and for users who prefer dark; the used colour scheme stays the same.", "quantifier": "all chains of elements with all lists of matching rules, all colours, both preferences", "why_tests_cant": "the cascade and inheritance combine any number of rules and elements", "anchors": ["src/properties/ui.rs: ColorSchemeHandler", "src/context.rs: add_dark_rule, get_additional_rules", "src/values/color.rs: to_css of LightDark"]}
{"id": "C203", "title": "Basic shapes are read by their grammar", "statement": "inset(), circle(), ellipse() and polygon() are accepted with a shape exactly when css-shapes lets that text write that shape: one to four offsets and corner radii, omitted radii are closest-side, an omitted position is the centre, an omitted fill rule is nonzero, and a polygon has at least one point.", "quantifier": "every function name, list of component values and shape", "why_tests_cant": "Which parts are optional gives an unbounded family of texts, and the claim is an equivalence; tests only try a few of them.", "anchors": ["src/values/shape.rs:BasicShape::parse", "src/values/shape.rs:InsetRect", "src/values/shape.rs:Polygon", "src/properties/border_radius.rs:BorderRadius::parse", "src/values/rect.rs:Rect"]}
{"id": "C204", "title": "Printed basic shapes are the same shape", "statement": "The text printed for a basic shape, in which sides, radii, centres and fill rules that are the default are left out, writes and reads back as the same shape.", "quantifier": "every basic shape", "why_tests_cant": "The omissions depend on equalities between any lengths and on polygons of any size.", "anchors": ["src/values/shape.rs:ToCss", "src/properties/border_radius.rs:ToCss", "src/values/rect.rs:ToCss"]}
{"id": "C205", "title": "Filters are read exactly by their grammar", "statement": "A filter value is accepted with a list of filter functions exactly when the grammar of filter-effects lets that text write that list: none or one or more functions, arguments left out are the defaults, a drop shadow has two or three lengths and its colour before or after them, and values that CSS does not allow are not accepted.", "quantifier": "every list of component values and filter list", "why_tests_cant": "The list, the arguments left out and the order of the parts give unboundedly many texts, and the claim is an equivalence.", "anchors": ["src/properties/effects.rs:Filter::parse", "src/properties/effects.rs:DropShadow::parse", "src/properties/effects.rs:FilterList::parse"]}
{"id": "C206", "title": "Printed filters do the same", "statement": "The text printed for a filter list, in which arguments equal to the default are left out, is valid and reads back as filters that do the same.", "quantifier": "every filter list", "why_tests_cant": "Which arguments are left out depends on the values of every function in a list of any length.", "anchors": ["src/properties/effects.rs:ToCss"]}
{"id": "C207", "title": "Minifying alignment declarations keeps the computed longhands", "statement": "Minifying a block of align-*, justify-*, place-* and gap declarations leaves what a browser computes for each of the eight longhands unchanged, if the browser knows the properties without prefixes and is among the targets.", "quantifier": "every block of declarations with any prefixes and var() declarations, every targets, every such browser", "why_tests_cant": "Blocks have any length and interleave prefixes, shorthands and unparsed values; the state that is held and flushed depends on the whole history.", "anchors": ["src/properties/align.rs:AlignHandler"]}
{"id": "C208", "title": "Browsers of the older flexbox drafts get the alignment", "statement": "From unprefixed alignment declarations, browsers of the drafts of 2009 (box-align, box-pack) and 2012 (-ms-flex-*) that are among the targets get, for their own properties, the value for the same layout, whenever these have one.", "quantifier": "every block of unprefixed alignment declarations, every targets, every such browser, every value", "why_tests_cant": "The last of any number of declarations decides, through shorthands, and the conversion is a table over all values.", "anchors": ["src/properties/align.rs:AlignHandler::flush", "src/properties/flex.rs:FromStandard"]}
{"id": "C209", "title": "Prefixed alignment declarations of the source stay in effect", "statement": "Declarations of the older drafts, and prefixed declarations, in a block keep their effect in the browsers that need them unless the targets say that there are no such browsers.", "quantifier": "every block of alignment declarations, every targets, every browser", "why_tests_cant": "It depends on what else is in a block of any length, and on its order.", "anchors": ["src/properties/align.rs:AlignHandler"]}
{"id": "C210", "title": "Minifying keeps custom property registrations", "statement": "Minifying a rule list never changes which @property registration applies to a custom property that is used, and leaves at most one top level @property rule per name.", "quantifier": "every rule list, every interleaving with style rules however they merge, every set of conditions", "why_tests_cant": "indices into a list that shrinks and grows while style rules merge: needs an invariant over all histories", "anchors": ["src/rules/mod.rs: CssRuleList::minify"]}
{"id": "C211", "title": "Merging @font-feature-values keeps feature values", "statement": "Merging @font-feature-values rules never changes the numbers a feature value name stands for in any family.", "quantifier": "every rule list, family, feature type and name", "why_tests_cant": "any number of rules with any family lists in any order", "anchors": ["src/rules/mod.rs: CssRuleList::minify", "src/rules/font_feature_values.rs: merge"]}
{"id": "C212", "title": "@font-feature-values parsing follows css-fonts", "statement": "A feature value declaration is accepted exactly if its value is one or more integers, and the last valid one of a name in the blocks of a type wins.", "quantifier": "every sequence of blocks and declarations, every token list", "why_tests_cant": "unbounded token lists and block sequences", "anchors": ["src/rules/font_feature_values.rs: parse, parse_block, parse_value"]}
{"id": "C213", "title": "@property is accepted exactly if it is valid", "statement": "A @property rule is accepted exactly if it has a syntax, says whether it inherits, and has an initial value that matches the syntax as a whole unless the syntax is *; unknown and invalid descriptors are ignored.", "quantifier": "every sequence of descriptors", "why_tests_cant": "unbounded sequences of descriptors in any order, with duplicates", "anchors": ["src/rules/property.rs: PropertyRule::parse, PropertyRuleDeclarationParser"]}
{"id": "C214", "title": "Combining mask declarations keeps the mask longhands", "statement": "For every block of mask declarations with any prefixes, order, shorthands and unparsed values, what is printed gives every mask longhand the value the block gives it.", "quantifier": "every sequence of mask declarations, every target prefixes, every browser", "why_tests_cant": "arbitrary interleavings of longhands, shorthands and prefixes", "anchors": ["src/properties/masking.rs: MaskHandler::handle_property, flush_mask, flush_mask_shorthand"]}
{"id": "C215", "title": "Mask longhands in browsers with only some of the prefixes", "statement": "Combining prefixed and unprefixed mask longhands never changes what a browser that knows only one of the two forms gets.", "quantifier": "every sequence of prefixed declarations, every set of prefixes a browser knows", "why_tests_cant": "interleavings of prefixes and values", "anchors": ["src/properties/masking.rs: MaskHandler maybe_flush, property"]}
{"id": ["C216", "Selectors of @page survive printing", "A prelude of @page that can be read is read as the same list of page selectors (names and pseudo classes) after it has been printed, pretty or minified.", "every list of page selectors and every prelude text", "the space after @page is left out or written depending on the first selector and on the options; the names are arbitrary", ["src/rules/page.rs: PageSelector::parse, PageSelector::to_css, PageRule::to_css", "src/parser.rs: page prelude"]]}
{"id": ["C217", "Container conditions are printed with their meaning", "The printed text of a container condition (size features, style() and scroll-state() queries, not, and, or) is a condition by the grammar of CSS, and under it has exactly the value of the condition for every assignment of values to features.", "every container condition of any depth and width and all feature values, three-valued", "parentheses are left out depending on the parent operator and on the kind of query; unbounded nesting", ["src/rules/container.rs: to_css and needs_parens of ContainerCondition, StyleQuery, ScrollStateQuery", "src/media_query.rs: operation_to_css, to_css_with_parens_if_needed"]]}
