# Formal model of lightningcss in Lean 4 — design

Everything here is about `/repo` (parcel-bundler/lightningcss at the pinned commit), read as text.
The code is not run; the tie between the code and the model is the reading, so every definition of the
model cites the file and lines it models and says where it simplifies.

## Layout

* `lean/Verif/<Area>/Model.lean` — executable definitions transcribed from the Rust code.
* `lean/Verif/<Area>/Spec.lean` — small independent specification (what the CSS feature means), written
  without using the model's helpers.
* `lean/Verif/<Area>/Lemmas.lean` — helper lemmas.
* `lean/Verif/<Area>/Props.lean` — the property theorems, each with a non-vacuity `example` beside it.
* `lean/Verif.lean` imports all of them.

## Trusted base

* Lean 4.33.0's kernel. No axioms are added. Property theorems depend at most on
  `propext`, `Classical.choice`, `Quot.sound` (checked with `#print axioms`; see the end of this file).
* The faithfulness of the reading (per-definition citations).
* The specifications in the `Spec.lean` files.
* Code outside /repo (cssparser tokenizer, smallvec, indexmap, hashing, rayon, parcel_sourcemap) is not
  modelled; where its behaviour matters it is a parameter or is stated in the section of the area.
* Rust `HashMap`/`HashSet` are modelled as association lists or functions; only lookup/insert/remove
  are used, so iteration order does not matter except where noted.
* `f32` arithmetic is modelled by exact rationals (or an abstract ordered field) unless noted; rounding is not
  modelled.

## Plan per property

(The status column of MANIFEST.json is authoritative; this is the plan written before the proofs, updated
as areas are finished.)

| id | what is modelled | how it is proved |
|----|------------------|------------------|
| C01–C04 | `MediaList`, `MediaQuery`, `and`, `or`, `always_matches`, `never_matches` | semantic evaluation of a query list on a device (media type + truth of atomic features), case analysis + list induction; the code violates C02/C03 for comma lists and for `not` with conditions, so: counterexample theorems + `_partial` theorems under exact guards |
| C05, C06 | condition printer to token trees, `needs_parens`, `negate`, `write_min_max`, and the condition parser | round-trip by mutual structural induction; semantics over an ordered value domain |
| C07 | `process_condition` with fuel = number of unseen names | termination by the `seen` set; semantic preservation by induction |
| C08–C09 | `SupportsCondition` and/or/to_css/parse | evaluation in a capability predicate; token-tree round trip |
| C10–C11 | `Targets`, `TargetsWithSupportsScope`, flags as `BitVec 32` | bitwise lemmas, induction over well-bracketed histories |
| C12 | the whole `is_compatible` table, generated by a script from compat.rs | generic monotonicity lemma over table rows |
| C13 | the whole `prefixes_for` table, generated | generic union lemma over rows |
| C14–C16 | `from_distribs`, `parse_version`, VendorPrefix (de)serialisation | fold invariants; arithmetic on `(major<<16)|...` |
| C17–C18 | `DeclarationBlock::get/set/remove` over an abstract property algebra with its laws | list induction |
| C19, C21 | `DeclarationHandler` restricted to custom properties, `all`, direction, unicode-bidi and unhandled ones | invariant over the fold |
| C20 | `side_handler!` state machine | simulation invariant: pending state + emitted declarations denote the same assignment |
| C22–C24, C25, C26 | rule list minifier | cascade semantics (winner per element and property); list induction |
| C27–C30 | bundler `load_file` (sequential schedule), `order`, `inline` | graph invariants; spec = browser's evaluation of imports |
| C31–C34 | css_modules | string functions over `List Char`, histories of exports |
| C35–C36 | printer | invariant over call sequences |
| C37–C39 | selectors crate: builder, bloom filter, nth | refinement to multiset / lexicographic triple / existential formula |
| C40 | calc | evaluation over a field |
| C58–C61 | math functions | printing, termination, panics and work of the math parser |
| C41–C43, C45 | values | round trips |
| C44 | `is_unused` | implication to matching |
| C53 | selector printing with `&` compiled away | reader for the printed tokens; mutual induction over selectors, induction over the chain of rules |
| C46, C47 | `get_supported_features`, `set_prefixes_for_property` | evaluation in a capability predicate |
| C48, C49 | `DeclarationBlock::get` of shorthands, logical box properties | list induction; simulation |
| C50 | `@keyframes` and `animation-name` under the CSS modules options | case analysis over the options |
| C51, C52 | rule tree printing as operations on the printer, a reader for the printed tokens, effects of a tree | mutual structural induction over rules and rule lists |

A property whose theorem names end in `_partial` is one whose English statement is false of the code or that the model covers only in
part. In the first case there is a theorem exhibiting the input on which the code breaks the property (listed in the sections below), and the
`_partial` theorem is proved under a hypothesis that excludes exactly that kind of input.

## Areas: what is modelled, what is not, where code and property disagree

### Media queries (`Verif/Media`, C01–C07)

Modelled: `MediaList`, `MediaQuery`, `MediaCondition`, `QueryFeature`, `Qualifier` (src/media_query.rs): `and`, `or`, `always_matches`, `never_matches`,
printing of conditions with `needs_parens`, negation, `min-`/`max-` lowering, parsing of the printed token trees, and
`process_condition` for custom media. Not modelled: the tokenizer, parsing of individual feature values, `f32` rounding, the
`-webkit-device-pixel-ratio` aliases. Feature values are an abstract ordered type.

Disagreements (each a theorem): `MediaList::and` of comma lists conjoins all queries, and skips queries it already contains;
`MediaQuery::and` gives `screen` for `not screen` ∧ `screen`, `not all and (c) and (d)` for different types, and is wrong for `not X and (c)`;
`not (width = 100px)` prints `(width = 100px)`; `screen and (not (not ((a) or (b))))` loses parentheses; the empty list prints as
`not all`; custom media whose definition has a media type: disjunctions become conjunctions, negation is lost, nested references stay
unresolved; `(--a) and (--a)` can leave an empty operation.

### Targets, compatibility, prefixes (`Verif/Targets`, C10–C16)

Modelled: src/targets.rs (`Targets`, `TargetsWithSupportsScope`, `from_distribs`, `parse_version`), the whole of src/compat.rs and src/prefixes.rs as tables generated
by `tools/`, src/vendor_prefix.rs. Not modelled: the browserslist crate. Disagreements: `parse_version` masks components with 0xff;
the empty `VendorPrefix` does not round-trip through JSON.

### `@supports` (`Verif/Supports`, C08, C09, C46, C47)

Modelled: src/rules/supports.rs conditions, `and`, `or`, `not`, parse, print, `set_prefixes_for_property`, `get_supported_features`. Not modelled: how a browser
evaluates an atomic declaration (a parameter). Disagreements: `with_prefix(None)` drops the prefix of all but the first of
several declarations of a property; conditions are merged under both `and` and `or`; `(a:b) and foo` yields `And([])` with input left over; `-webkit-all` accepted as
`all`; prefixes added under `not` change the meaning; an existing set of prefixes is replaced by that of the targets.

### Declaration blocks (`Verif/Declarations`, C17, C18, C48)

Modelled: src/declaration.rs `get`, `set`, `remove`, the shorthand/longhand relation generated by `shorthand_property!`, `define_list_shorthand!` and
properties/mod.rs. Values are abstract; each shorthand is a function of its longhands. Disagreements: setting a normal longhand under an
important shorthand; setting in place before a later shorthand that cannot be updated (`border`); setting a shorthand leaves later longhands;
list shorthands are not assembled if any unrelated declaration is present; `remove(border-top)` leaves `border`; `place-content` answers
for `-webkit-align-content` but is not removed by it; unprefixed longhands inside prefixed shorthands are lost when the shorthand is split; an unparsed
shorthand is dropped when one of its longhands is removed.

### Property handlers (`Verif/Handler`, C19–C21, C49)

Modelled: `DeclarationHandler` for custom properties, `all`, `direction`, `unicode-bidi` and unhandled properties (src/declaration.rs, src/context.rs); the `side_handler!` state
machine (src/properties/margin_padding.rs) with its logical compilation and fallbacks; importance. Not modelled: the handlers of border, font, background,
grid and other families. Disagreements: order of `direction: rtl; direction: var(--x)`; `all: var()` before pending properties; stale `@supports`
rules of overridden custom properties; style attributes lose lowered custom values; logical compilation drops `!important`, and its `:dir()` rules override later
physical declarations; merging four longhands of which one is unsupported.

### Rule lists (`Verif/Rules`, C22, C23, C26), layers (C24), keyframes (C25)

Modelled: src/rules/mod.rs `CssRuleList::minify` for style rules (merging, duplicate removal, partition by compatible selectors), src/rules/layer.rs, src/rules/keyframes.rs. The semantics is the cascade:
the winning declaration per element and property. Disagreements: `is_duplicate` ignores importance; a stale key after `pop` makes a rule a
duplicate of itself; clones for incompatible selectors are made after the declarations were moved away; logical entries leak to the next rule;
merging `@layer` blocks reorders sublayers, layers in `@media` are reordered, `@import` between layer statements; keyframes replaced
in place before an intervening `@media { @keyframes }`; stale fallbacks; an added prefix overrides an earlier explicit
`@-webkit-keyframes`.

### Bundler (`Verif/Bundler`, C27–C30)

Modelled: src/bundler.rs `load_file` for one (sequential) schedule, `order`, `inline`, `combine_supports`, layer names, CSS modules `composes` edges. The specification is the
evaluation of `@import` by a browser. Not modelled: rayon's interleavings (a parameter of the order of discovery), reading files. Disagreements: cycles not
through the entry are lost; an entry composing from itself recurses for ever; the order differs from a browser's for files imported several
times; external imports lose their position and their parents' conditions; hoisted `@layer` statements lose their media; conditions of a
shared file's dependencies depend on the schedule; an anonymous layer around an unlayered import is lost.

### CSS modules (`Verif/Modules`, C31–C34, C50)

Modelled: src/css_modules.rs (pattern parser, export table, `composes`, hash text), names in src/printer.rs and src/values/ident.rs, cssparser's
`serialize_identifier`/`serialize_name` and the identifier reader of CSS Syntax. Hash functions are parameters. Disagreements: class `--a` and custom property
`--a` share an export; `custom_idents: false` with `animation: true`; a hash at the start may be `-` and a digit; references to bundled files are not
deduplicated and are lost if the file is printed later.

### Printer (`Verif/Printer`, C35, C36, C51, C52)

Modelled: the position counters and the low-level calls of src/printer.rs; the serialisation of every kind of rule except `@nest`, unknown and custom at-rules, down to braces, semicolons, line
breaks, indentation, selector context and the vendor prefix override. Selectors, declarations and preludes are opaque. The specification is a reader for the
printed tokens and the list of effects of a tree. Disagreements: renamed names with escapes and raw slices with line breaks put source
map columns off; 128 nested blocks overflow the 8-bit indentation; minified `.a { @media all { color: red } .b {…} }` runs the
declaration into the rule; the same in a nested `@scope` when nesting is compiled; a prefixed rule nested in a prefixed rule
resets the override for its later siblings.

### Selectors (`Verif/Selectors`, C37–C39, C44, C53–C57)

Modelled: the component type of selectors/parser.rs; selectors/builder.rs (order of components, packed specificity); selectors/bloom.rs; An+B matching with its
index cache (selectors/matching.rs, selectors/nth_index_cache.rs) and printing; the backtracking matcher of selectors/matching.rs over documents without shadow trees; the collection and packing of
ancestor hashes and `may_match`. The specification of matching is the relational definition of combinators over a tree; that of specificity a
sum over triples. Simple selectors without selector arguments are arbitrary predicates. Not modelled: `:has()` matching (the code does not support it), shadow trees, visited
links, invalidation flags. Disagreements: `:has()` counts zero, `:global()`/`:local()` count as one class, `::view-transition-*(*)` as an element;
`Selector::append` leaves the old specificity; saturated Bloom counters stay; `index - B` may overflow; `:nth-col(1)` loses its argument.

C44 (`Unused.lean`): `is_unused` (src/selector.rs:2188-2221) and the removal of rules with it (src/rules/mod.rs). A removed selector matches no
element in a document without the unused classes and ids. Disagreement: `.u { :not(&) {…} }` is dropped, because every style rule under an unused parent is.

C53 (`Nesting*.lean`): `serialize_selector`, `serialize_component`, `serialize_nesting` (src/selector.rs:1398-1770) as functions from selectors and the
chain of enclosing rules to token lists. The specification reads the tokens from left to right (a simple selector restricts, a combinator moves) and says where a type
selector may stand. Not modelled: white space, relative selectors, escaping, arguments of `:has`, `:host`, `::slotted`, `:nth-child(of)`, `:local`, `:global`.
Disagreements: an unwrapped `:is(&)` or a parent `&.x` is taken for a compound without type selector whatever its own `&` stands for; a type selector after `&`
is moved to the front only in the first compound.

### Math functions (`Verif/MathFn`, C40, C58, C59; `Verif/Units`, C45, C60, C61)

Numbers are the elements of an ordered field with floor instead of `f32` (no rounding errors, infinities, NaN, negative zero); square root and the other elementary functions
are parameters with the laws that are needed. `MathFn`: `Calc<LengthPercentage>` (src/values/calc.rs, length.rs, percentage.rs): parsing from the grammar's tree, the mutually recursive
addition functions (with fuel; `loops` is a result), reduction of arguments, printing to tokens. The specification evaluates source trees, stored values and printed tokens in an
environment (the length of each unit, of 100%). `Units`: `Time`, `Angle`, `Percentage`, `CSSNumber` over the same parser, with trigonometric and other functions; the specification
is a typed evaluation (`Src.sem`). Not modelled: `atan2()`, constants (`pi`, `e`, …), custom identifiers (relative colours), tokenisation.
Disagreements: `round()` with a negative step or a negative tie; `hypot()` of one negative argument and of three arguments in mixed units; `min(10%, 20%)` reduced although 100% may be
negative; `min()`, `max()`, `hypot()` of a single sum printed bare; `calc(0 * min(1px, 1em))` printed with `/inf`; `calc((1ex + 1em) + (1vw + 1vh))` recurses for ever;
`Percentage::parse` panics on `calc(5)`, `calc(10% + 5)`, `abs(10%)`; radians are always printed as degrees; an error in nested functions is read 2^depth times.

### Values made of up to four values (`Verif/Sides`, C41), sRGB colours (`Verif/Color`, C42), `@property` (`Verif/Syntax`, C43, C62)

*Sides.* `Rect`, `Size2D`, `BorderRadius`, `InsetRect`, `BorderImageSlice`: parse and print, over texts. The type of
one value is a parameter (`Codec`); what the proofs assume of it (`Law`) is that a printed value followed by a
delimiter reads back as a value with the same meaning and that values comparing equal mean the same. The law is
satisfied by a concrete type (`digits_law`).
*Color.* The `RGBA` case of `CssColor::to_css`, over characters, with all named colours of CSS Color 4 in the
specification. `u32` operations are operations on `Nat` (no overflow occurs); the alpha of `rgba()` is computed in exact
arithmetic, not in `f32`. Other colour spaces, `light-dark()` and system colours are not modelled.
*Syntax.* `SyntaxString::parse_string`, `to_css` and `parse_value`, `PropertyRule::parse`'s reading of the initial value.
The grammar is an inductive relation; reading is proved equivalent to it. `parse_value` works on an abstract token
list with abstract parsers of single values. Disagreement: an unmultiplied component reads the beginning of a value and
nothing checks that the rest is empty, so `syntax: "<length> | <length>+"` with `initial-value: 10px 20px` becomes
`10px` (`value_truncated`), and an invalid rule becomes a valid one (`invalid_value_accepted`). Newlines in syntax
strings are not read as white space (`newline_rejected`).

### Shorthands (`Verif/Shorthand`, C63–C67)

Modelled: parse and print of `caret`, `border`, `outline`, `flex-flow`, `flex`, `gap`, `container`, `place-content`, `place-self`, `place-items`, `list-style`, `text-decoration`,
`text-emphasis`, `animation`, `animation-range`, `transition`, `scroll()`, `view()`, easing functions, as functions on token lists that contain white space. `try_parse` restores the
input; the loops run with the number of slots as fuel. Numbers, lengths, times, colors, images are parameters (`Codec`); what is assumed of them (`Spec.lean`: `Leaf`, `Plain`, `ColorLaw`, `Apart`)
is satisfied by sample types (`Samples.lean`). The specification is the meaning of a value component by component (`.map`, `.value`), `Separated` (no two tokens run together), and for
`animation-range` a reader that follows the text of the specification. Vendor prefixes, CSS-modules renaming and lists of animations are not modelled. Disagreements: `place-self: auto stretch`,
`place-items: stretch legacy` and the like lose a component; `list-style: inside none` and the like; `text-decoration: none` with other components; `animation: 3s` is printed as `none`; names
such as `Linear` are not protected; `animation-range: entry exit`, `entry 0% 50%`, `entry normal`.

### Raw tokens (`Verif/Tokens`, C68–C70)

Modelled: `Token::to_css`, `TokenList::to_css` for raw tokens, `CSSNumber::to_css`, `serialize_dimension`, and, from its published source, the serialisation of single tokens in cssparser. Texts are lists of
characters. A number is the text `dtoa_short` writes for its float; that this text is the float's is not modelled, nor that floats round. The specification is the complete tokenizer of CSS Syntax 3 (section 4: escapes,
strings, urls and bad urls, numbers with exact rational values, comments, CDO, CDC) and the table of section 9. It is proved to consume at least one character in every step, so `lex` is the whole
tokenization. `Stored` relates tokens of a source to stored ones. Values recognised as lengths, angles, colors, `var()`, `env()` and urls are not in this model (they are printed by other functions). Disagreements: minified
comments vanish, so `a/**/b` becomes `ab`; the sign of numbers and zeros are dropped, so `1.0.5` becomes `1.5`, `2n+1` becomes `2n1`; negative dimensions below 1 that are not written with `0.` get two dashes
(`-0.0000005px` becomes `--5e-7px`, `-0.9999999px` becomes `--1px`); units `e1` and `E`; `\-->`; a backslash before a newline.

### Urls (`Verif/Urls`, C71–C73), variables (`Verif/Vars`, C74), visitors (`Verif/Visit`, C75)

*Urls.* `Url::to_css` without dependencies and `Url::is_absolute`, over characters; lengths are UTF-8 lengths. The specification is the tokenizer of `Verif/Tokens/Spec.lean` and the grammar of `<url>`.
*Variables.* `VarInliner` over trees of token lists. The loop has fuel because it need not end. The specification is an inductive relation. Proved: without circular references and empty values it ends, with the
specified result. Disagreements: `--a: x var(--a)` and `--a: f(var(--a))` run for ever although circular references are meant to be ignored; after an empty value the next reference to the same variable is left.
*Visitors.* The code generated by `derive(Visit)` for 38 types around token lists, images, lengths and queries, as a table of declarations and the functions `visit` and `visit_children` over trees of values. Gradients are one
type. Disagreements: the list of kinds of `TokenOrValue` lacks custom identifiers; `ImageSetOption` skips the type of its image, so urls, colors and images in `image-set()` are not visited.

### Transforms (`Verif/Transform`, C76–C80)

Modelled over the real numbers: the 4×4 matrices with all their operations but `decompose`, parse and print of the transform functions and of `translate`, `rotate`, `scale`, `to_matrix`, and `TransformHandler`. Function names are an
enumeration (the ASCII-case-insensitive comparison of names is not modelled); calculations that stay calculations are opaque. The specification (`Spec.lean`) gives each function call as a map of homogeneous coordinates (Rodrigues' formula for rotations); matrices are
compared with Mathlib's (`Matrix.det`, product, inverse). The handler is compared by the winners of the cascade. Rounding of floats and the interpolation of animations, for which `translate3d(x,0,0)` and `translate(x)` differ, are not modelled.
Disagreements: a bare number is taken for pixels (`translate(5)` becomes valid); the handler drops `translate` before a `transform`, appends a later one at the wrong end of the list, and changes the value of another prefix; `to_matrix` does not clamp perspectives below 1px.

### Positions and gradients (`Verif/Position`, C81; `Verif/Gradient`, C82–C88)

*Positions.* `Position::parse` and `to_css` over token lists with real numbers; keywords are an enumeration, calculations opaque. The specification is the grammar of `<position>` as an inductive relation between tokens and points of a box.
*Gradients.* Parse and print of linear, radial and conic gradients and of `-webkit-gradient()`, the prefixed copies, and the conversion to `-webkit-gradient()`. The arguments are lists of segments between commas; function names, colours (numbers of colours) and vendor
prefixes (a flag: legacy syntax or not) are abstract. The specification follows CSS Images: colour stops with fix-up (first and last position, monotonicity, even spacing), hints, the gradient line through the middle of the box, corners, repetition; a colour is compared at every point
for every way to mix two colours that is symmetric. Places of colour stops themselves (hard transitions) are left out. Prefixed gradients have the meaning of the Compatibility Standard (keywords name the start, angles start at the right and turn counterclockwise).
Radial gradients are compared by shape, centre and stops on a line of any length; colours of ellipses and of conic gradients follow from these. Rounding of floats is not modelled; angles are compared exactly. Disagreements: the hint `50%` is dropped wherever it stands;
`to top` is turned around without regard to hints and to positions that are out of order; prefixed gradients are minified by the rules for standard ones (`left` becomes `270deg`, `bottom` is dropped as though it were the default); prefixed copies of gradients to the top or with `270deg` lose their direction;
angles over 450 degrees; conversion to `-webkit-gradient()` of corners in boxes that are not squares, and of prefixed gradients.

### Mixing and converting colors (`Verif/Mix`, C89–C95)

A float is a real number or missing (NaN). Modelled: the hue fix-up, `fill_missing_components`, `premultiply`, `interpolate`, `unpremultiply` for rectangular spaces and for spaces with a hue, the percentages of `color-mix()`, the recursion through `light-dark()`,
RGB ↔ HSL ↔ HWB, and Lab ↔ LCH. The conversion into the interpolation space (matrices, transfer functions, gamut mapping, powerless components) is a parameter. `hsl_to_rgb` is in the crate `cssparser-color`; it is modelled too, from knowledge of that crate because its source is not in `/repo`.
The specification is CSS Color 4 (§12.4 hue fix-up as a relation, §7.1 and §8.1 formulas of HSL and HWB) and CSS Color 5 (§3 percentages and mixing). Not modelled: rounding, infinities. Disagreement: percentages outside of 0% to 100% are accepted.

### Fallbacks for colors (`Verif/Fallback`, C96–C103)

Modelled: `get_possible_fallbacks`, `get_necessary_fallbacks`, the three ways in which properties make fallbacks (unwrapping, keeping RGB, keeping what cannot be converted), over the list of colors of a value, and `TokenList::get_fallbacks` with its variant for keyframes and font palettes.
A color has a space and an abstract value; conversions are a parameter; the kinds of fallbacks are four flags instead of a byte. Support of features by browsers is the complete table of `compat.rs` from `Verif/Targets`. Specification: a browser understands a value if its table entry says so for
all its color spaces; among declarations it uses the last one it understands, among `@supports` rules the last one whose condition holds. `light-dark()` itself and keywords are taken to be understood (`light-dark()` is compiled separately). Vendor prefixes of images and box shadows are not
in this model. Disagreements: keywords in values where another color needs a fallback crash (`text-shadow: 1px 1px lab(..), 2px 2px`); box shadows with a keyword inside `light-dark()` get no usable fallback; neither do unresolved `light-dark()` with `var()`; custom properties with Lab and P3 colors lose the
Lab version that keyframes get; `color(rec2020 ..)` is turned into RGB for browsers that support it.

### Prefixed declarations and fallback declarations (`Verif/PrefixFb`, C104–C106)

Modelled: `PrefixHandler` and `FallbackHandler` for one property at a time, over the shared list of declarations (others are opaque but take places), with `Targets::prefixes` and the table of prefixes from `Verif/Targets`, `IsCompatible for CssColor`, and the fallbacks of `Verif/Fallback`; and the entries for
`@supports` of custom properties. Specification: a browser knows the property under some names, all of which set the same thing, and understands some values; the last declaration it takes into account wins; unparsed values are always valid. `!important`, lengths of shadows and style attributes are not modelled.
Disagreements: see the theorems `C104_*`, `C105_*`, `C106_*` without the suffix.

### Grid (`Verif/Grid`, C107–C114)

Modelled: the parsers and printers of all grid properties of `properties/grid.rs` over token lists (lengths are opaque tokens, whitespace is not a token), `Grid::is_valid`, `GridTemplate::is_valid`, the whole `GridHandler` with the padding of areas, and the renaming of grid names with CSS modules.
Specification: the grammar of CSS Grid as inductive relations between tokens and values; the cascade (last declaration that sets a longhand wins); two sets of values give the same layout if they are equal up to rows of null cells that fit into the row tracks.
Not modelled: indentation, unit conversions in lengths, `!important` (one handler per importance). Disagreements: `dense` alone is printed but not read; an empty `grid-template-areas` is accepted and later divides by zero; line names before the first string shift by one when there are names later only; `none / 1fr` is not read;
two names before the first row are printed in separate brackets without minification (`C111_two_names`); repeated row tracks are dropped; areas with more rows than tracks; `grid-auto-columns` is lost; padding stays when rows are overridden after a `var()`; CSS modules patterns with two `[local]`.

### Unicode ranges (`Verif/UniRange`, C115)

`UnicodeRange::to_css` with its bit masks, over natural numbers; the parser is in the crate `cssparser` and not modelled. Specification: `<urange>` of CSS Syntax as a relation between texts and ranges.

### Transitions and easing (`Verif/Transition`, C116–C121)

Modelled: `EasingFunction` (parse, print, `is_ease`; numbers are exact decimals), `Transition` (parse and print), the complete `TransitionHandler` with `maybe_flush`, `merge_properties`, `expand_properties` (the index loop, with a panic as result), the table `get_logical_properties`, `get_transitions`, and the logical rules
that are written for both directions. Times are an opaque type with a zero. The map from property names to prefix features is a parameter (it is generated by a macro). Specification: the timing curve that a text denotes; the grammar of `<single-transition>`; a browser knows some prefixes of the transition properties, and has a relation between
written names and physical properties; the last matching name of `transition-property` decides, with the lists of times repeated (css-transitions-1); the table of logical and physical names. Only horizontal writing modes. `!important` and unknown properties are not in the model.
Disagreements: a property named like an easing keyword; duplicates of a property with other prefixes, shorthands of logical properties and prefixed names in longhands shift the times of later entries; `inline-size` becomes `height` from right to left; index out of bounds with `mask-mode` after a logical property; prefixes merged although
another browser only knows one of them.

### Sizes (`Verif/Size`, C122–C125)

Modelled: `Size`/`MaxSize` (parse, print with the `unreachable!()`, `is_compatible`), `AspectRatio`, `Ratio`, and the whole `SizeHandler` (twelve fields, `flushed_properties`, category, prefixed keywords, compilation of logical names). Lengths are opaque with an opaque compatibility. Specification: a browser understands some values as written and may have logical
names; the last declaration for a dimension that it takes into account wins; prefixes do not change the meaning of a keyword; horizontal writing modes. Disagreements: `height: 100px; block-size: stretch` loses its fallback; `min-content` counts as supported where only the prefixed form is; a prefixed value after the unprefixed one replaces it;
`include: VendorPrefixes` with `stretch` panics when printing.

### Border radii (`Verif/Radius`, C126)

Modelled: the whole `BorderRadiusHandler` of `properties/border_radius.rs` (both categories, `maybe_flush`, the shorthand with intersected prefixes, the rules for both directions), with `Targets::prefixes`. A radius is opaque; the shorthand's text is in `Verif/Sides`. Specification: a browser knows some prefixes and values and may have logical
properties; the cascade of the four corners; logical corners of horizontal writing modes; the rules for a direction come after the block. Disagreements: compiled logical corners come after later physical ones; a prefixed `border-radius` drops pending logical corners, and replaces the value of an unprefixed one; a value that is not understood makes the merged shorthand invalid.

### `display` and `overflow` (`Verif/Display`, C127–C130)

Modelled: all of `properties/display.rs` but `visibility` (parsers over words, printers, `DisplayHandler` with the prefix tables and `is_flex_2009`) and `properties/overflow.rs` but `text-overflow`. Specification: the grammar of CSS Display 3 with its defaults, words in any order (`List.Perm`); the last declaration that a browser knows wins.
Disagreements: `list-item list-item` is accepted; fallbacks are dropped (`display: block; display: grid`, `overflow: hidden; overflow: clip`); with targets, `flex` is dropped before a prefixed value.

### Animations (`Verif/Animation`, C131–C140)

Modelled: `Animation` (parse and print over components, with keyword tables as in `EasingFunction::is_ident` and the enums), `ScrollTimeline`, `ViewTimeline`, `AnimationRange` with its two longhands, and the whole `AnimationHandler` (eight prefixed lists, timeline, ranges, `maybe_flush!`, the merged shorthand with intersected
prefixes and drained lists, unparsed values). Values are opaque in the handler, times and lengths elsewhere. Not modelled: the renaming of names in unparsed values for CSS modules. Specification: the grammars of css-animations-2 and scroll-animations-1 as relations; a browser knows some prefixes; declarations with an empty
value are ignored; the shorthand resets ranges and composition. Disagreements: names in other letter cases, nameless animations, `""`, timeline `none`; ends of ranges; one value for all prefixes; a prefixed longhand without a value; implicit resets that appear or disappear when shorthands and longhands are converted; `animation-composition` is
written before the shorthand that resets it.

### Font (C141–C147)

Modelled: `src/properties/font.rs`: the values and keywords, `FontFamily`/`FamilyName` (reading and writing), `Font::parse`, `Font::to_css`, the whole `FontHandler` with `compatible_font_family`. Lengths and angles are opaque; numbers are rationals; `serialize_identifier` is represented by the length of its output. The specification (`Verif/Font/Spec.lean`) is the grammar of css-fonts-4 with its meaning; for the handler a browser is the set of values it accepts for each longhand and inside `font`. Proof: the loop of the parser keeps an invariant that relates the slots with parts of the text; the handler keeps the invariant that the output with the held values has the effect of the declarations read so far, for all browsers. Not modelled: system fonts (`caption`), `@font-face`, `@font-palette-values`, `font-palette`.

### Border (C148–C153)

Modelled: `BorderHandler` of `src/properties/border.rs` (`handle_property`, `flush` with all its macros, `flush_unparsed`, `finalize`), and `border-image` as one property with an opaque value. Widths, styles and colours are opaque; the fallbacks of a colour are a parameter. The specification (`Verif/Border/Spec.lean`) says what a browser computes for the twelve longhands and `border-image` in a writing mode (a bijection of logical and physical sides). Proof: each macro keeps "what is written, with the held values over it"; the handler keeps the invariant that this is what the declarations read so far compute. Hypothesis: the fallbacks of a declaration are declarations of the same property. Not modelled: the longhands and prefixes of `border-image`, `border-radius` (C126), browsers that reject some of the values.

### Background (C154–C160)

Modelled: `src/properties/background.rs`: one layer of `background` over tokens (`Background::parse`, `to_css`, `BackgroundSize`, `BackgroundRepeat`, boxes and clips), the whole `BackgroundHandler` with the prefixed declarations it keeps aside, and the shorthand API (`from_longhands`, `longhand`, `longhands`, `set_longhand`). Colours, images, positions and lengths are opaque; fallbacks and targets are parameters; prefixes other than `-webkit-` and `-moz-` are left out; `get_fallbacks` changing the last value itself is left out (C96–C103). Specification: the grammar of `<bg-layer>` as a relation between components and tokens with the meaning of one or two boxes; the cascade over nine longhands for a browser that ignores declarations it does not understand and invalid ones (no value, colour on a layer other than the last); a prefixed `background-clip` is an alias. Disagreements: an empty value and a colour on any layer are accepted; prefixed images override a later `var()`, lose an unprefixed value between them, and bring back an older colour; `get` ignores `var()`.

### Flex (C161–C163)

Modelled (`Verif/Flex`): `FlexHandler` (src/properties/flex.rs:473-800): merging of prefixes, flushing, clearing of legacy properties, common prefixes of `flex-flow` and `flex`, the properties of 2009 and 2012; values are opaque. `Spec.lean` says which declarations modern browsers (with or without `-webkit-` alias), browsers of 2009 and Internet Explorer 10 read; the last one decides. C161 is by an invariant over the handler's states (what is written and held is what the browser has read); C162 and C163 by a closed form of the state after unprefixed declarations. Not modelled: `-o-`, the text of values, `flex` shorthand defaults (C63 covers them).

### Parse (C164–C169)

Modelled (`Verif/Parse`): the rule parser (src/parser.rs): nested blocks, where declarations go, what errors do with and without error recovery, which at-rules may be in style rules; and the states of the top-level parser that decide on `@import` and `@namespace`. An item of a block is abstract: it parses or not. `Spec.lean` reads source and rules to the sequence of declarations and rules with their paths (important ones apart) and states CSS's rule for the place of `@import`. Proved by mutual structural induction over items nested to any depth, and by induction on the list of top-level rules. Not modelled: the tokenizer, the parsers of preludes, `@nest`, custom at-rules.

### Cow (C170, C171)

Modelled (`Verif/Cow`): `CowArcStr` (src/values/string.rs) with its unsafe code: pointers, the length that marks owned strings, reference counts, freeing. `Spec.lean` has variables with texts of their own and what the compiler and the allocator guarantee. Proved by refinement with an invariant (counts are numbers of references) over all histories. Not modelled: the layout of `CowRcStr`, which is transmuted; weak references; lifetimes (borrowed memory is taken to stay valid).

### Downlevel (`Verif/Downlevel`, C172–C177)

Modelled: `downlevel_selectors`, `get_prefix`, `is_equivalent`, `should_unwrap_is` (src/selector.rs), the choice of prefixes while selectors are
printed, `update_prefix` and the loop over prefixes in `StyleRule::to_css` (src/rules/style.rs), and the merging of prefixed variants
(src/rules/mod.rs:986-1004), over the browser tables of `Verif/Targets`. A printed selector is again a selector (texts are not modelled). The
specification gives selectors a meaning over arbitrary documents, blind to prefixes, and a specificity. Not modelled: elision of namespaces
and universal selectors, nesting context, forgiving lists, nested rules. Bugs found: a prefixed pseudo inside `:not()` loses its prefix without targets; `:is()`
before a prefixed pseudo adds an unprefixed copy; merging `::selection{D} ::-moz-selection{D}` loses the prefixed rule, two different
prefixes lose the second; `:-webkit-any()` is printed with complex arguments.

### SelParse (C190–C193): the selector parser

`selectors/parser.rs:94-190, 417-606, 2114-3133` and `src/selector.rs:88-382, 617-646, 1281-1320`. `Model.lean` follows the code function by function with
the parsing state as a structure of flags; nested blocks are modelled by `lift`, which pairs a function token with the entry points applied to
its argument, so that the mutual recursion through `parse_nested_block` becomes structural recursion over tokens. `Spec.lean` has the grammar as
predicates (`ReadsC`/`ReadsS`/`ReadsP`) by recursion on the *value*, with the places where a component may stand given by the list of the
components before it (`Allowed`), no state. What forgiving lists drop appears as a parameter `D` together with the requirement `Forgiving` that `D` is exactly "not
a selector"; `Local.lean` shows that there is one and only one such `D`. Soundness is `simple_sound`/`complex_sound`, completeness `complete`;
`Flag.lean` shows when the flag for `&` is set. Not modelled: `:local()`/`:global()` (CSS Modules), `>>>` and `/deep/` (behind an option), the
arguments of `:lang()`, `:dir()`, `:state()`, `::picker()`, `::view-transition-*()` (a parameter), and An+B (area Selectors).

### Printing selectors (`SelPrint`, C194)

`Model.lean` is `serialize_selector`, `serialize_component` and the tables of names they use, on the components of `SelParse` and with tokens as
output. `Spec.lean` says what a selector matches: components are tests or moves of an arbitrary interpretation (`Meaning`) for which only `*`,
`:is()` and the `:nth-…(1)` are fixed. The proof has four steps: the components that the parser returns are well-formed (`WF.lean`, from the
grammar of C190); the loop over the compounds prints all components but some `*`, never all of a compound (`Keep.lean`, `Loop.lean`); each
component that is printed is read as one or more components that mean the same, wherever it stands (`Good.lean`, `Round.lean`, mutual induction over
components, selectors and lists); and C190 turns the reading into the result of the parser. The step from tokens to characters is not modelled here.
Unterminated `:nth-col(` is modelled as a function without arguments. Six kinds of selectors are printed wrong; each is a theorem `…_wrong`.

### TextDeco (C195, C196): text decorations, emphasis and alignment

Modelled (`Verif/TextDeco`): `TextDecorationHandler` (src/properties/text.rs:1099-1351). Values are opaque; what the handler asks about them (defaults, colour
fallbacks, compiled percentages, prefixes) is a parameter `Env`. `Spec.lean` says what a browser takes from a declaration: nothing, if it knows none of the written prefixes or
one of the values. C195 is by an invariant over all states that unprefixed declarations lead to: what is written and what waits together are what an
ideal browser has read. Five bugs with prefixed sources are theorems `…_wrong`. C196: `text-align` and the rules for each direction.

### BoxShadow (C197–C199)
`BoxShadow::parse`/`to_css` over component values (lengths and colours opaque) and `BoxShadowHandler` are modelled in full, except the `@supports`
rules of `add_unparsed_fallbacks`. The spec has the grammar (`Writes`: three parts in any order) and a browser with known prefixes and a predicate on
shadows. C197 is an equivalence, by invariants of the loop; C198 looks at the last declaration only; C199 is an invariant over the block.

### LightDark (C200–C202)
`ColorScheme`'s parser and printer, `ColorSchemeHandler` with the dark rule of `get_additional_rules`, and `light-dark()` in `CssColor` (parsing,
conversion, mixing, printing) are modelled; other colours are opaque, and so is the rest of a declaration block. The spec has the cascade with importance
over the rules that match an element, inheritance along the chain of its ancestors, the used colour scheme, and the substitution of `var()`. C202 is
proved by comparing, per block, the last declaration of the variables with the last scheme, and by induction over rules and ancestors.

### Effects (C203–C204)
The basic shapes of `values/shape.rs` with their parsers and printers, over component values; lengths and positions are opaque. The spec is the grammar
of css-shapes as an inductive relation. C203 is an equivalence between it and the parser; C204 shows that the printer writes in the grammar.

### Filter (C205–C206)
`FilterList`, `Filter` and `DropShadow` in `effects.rs`: parsers (with the loop of `DropShadow`) and printers; single values are opaque with their readers,
and fallbacks for colours are in the areas Fallback and PrefixFb. The spec is the grammar of filter-effects as inductive relations, and the meaning of a
filter for any interpretation of its values.

### Align (C207–C209)
`AlignHandler` is modelled in full over opaque values, with the sets of prefixes of the area Flex; properties without prefixes are held with the empty
prefix, which does the same. The tables `from_standard` of `flex.rs` are modelled on the keywords. The spec is a browser (prefixes and shorthands that it
knows) for which the last declaration it reads decides. C207 and C209 are one invariant of the handler for any key; C208 follows what is held.

### Named (C210–C213): `@property` and `@font-feature-values`

Modelled: the branches of `CssRuleList::minify` for the two rules and for style rules (src/rules/mod.rs:532-898), with what is decided
about style rules (`merge_style_rules`, duplicates, additional rules) left as arbitrary functions; `Body.merge`; `IndexMap` as an
association list; parsing of feature value blocks and of the descriptors of `@property`. Not modelled: what happens inside of group
rules and merging of groups (in the statement groups are pushed as they are), printing, `SyntaxString::parse_value` (a function; area
Syntax). Method: an invariant that the stored indices point to the rules they are for, kept by anything that only pops, pushes and
overwrites rules without names (`Shuf`).

### Mask (C214): the handler of mask properties

Modelled: `MaskHandler` with prefixes `-webkit-` and none, arbitrary target prefixes and compatibility, shorthand and longhands, draining of
the lists, values that are not parsed. Not modelled: fallbacks of images, the longhands of `mask-border` (one field stands for them),
gradients with vendor prefixes. Method: what is written plus what is pending means the same as what was read, for every prefix of the block.

## Preludes of `@page` (C216), `Verif/Page`

Modelled: the text of the prelude as characters, a tokenizer for it (white space, colon, comma, names with simple escapes, `@`), the
parser of `PageSelector` and of the comma separated list, and the printer with the space that depends on the first selector and on
`minify`. Proved by induction over the selectors that reading the printed text gives the selectors back, and over the text that every
prelude without backslashes only gives such selectors. Not modelled: comments, hexadecimal escapes, the body of the rule (C51).
The claim is false for names with escapes: `PageSelector::to_css` writes the name without escaping it (`C216_escape_lost`).

## Container conditions (C217), `Verif/Container`

Modelled: `to_css` and `needs_parens` of `ContainerCondition`, `StyleQuery` and `ScrollStateQuery` and `operation_to_css`, on component
values; a size feature, declaration or scroll state is an opaque atom. The specification is the grammar of CSS conditional rules as
mutual inductive relations that give a text its three-valued meaning, and the evaluation of the condition. Proved by induction on the
condition that the text has the meaning, and by induction on derivations that it has no other. The parser (`parse_query_condition` and what it calls,
`Parser.lean`) is modelled on whole blocks of tokens; every condition it makes means what its tokens mean, so the printed text means the
same as the source (`C217_read_print`). Not modelled: `Unknown` conditions, the container name. Trusted: the grammar in `Spec.lean`.
