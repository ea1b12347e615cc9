import Verif.Targets.Model
/-!
# Downlevelling of selectors and the copies of a style rule per vendor prefix

Model of `downlevel_selectors`, `get_prefix`, `is_equivalent` (src/selector.rs), of `update_prefix` and the printing of a
style rule once per vendor prefix (src/rules/style.rs), and of the merging of prefixed rules (src/rules/mod.rs).
-/
namespace Verif.Downlevel
open Verif.Targets

/-- The pseudo-classes and pseudo-elements that carry a vendor prefix (src/selector.rs:870-876 and 1333-1339). -/
inductive Pseudo
  | fullscreen | anyLink | readOnly | readWrite | placeholderShown | autofill
  | selection | placeholder | backdrop | fileSelectorButton
  deriving DecidableEq, Repr

/-- The prefix feature of a pseudo (src/selector.rs:881-889 and 1345-1351). -/
def Pseudo.feature : Pseudo → PrefixFeature
  | .fullscreen => .pseudoClassFullscreen
  | .anyLink => .pseudoClassAnyLink
  | .readOnly => .pseudoClassReadOnly
  | .readWrite => .pseudoClassReadWrite
  | .placeholderShown => .pseudoClassPlaceholderShown
  | .autofill => .pseudoClassAutofill
  | .selection => .pseudoElementSelection
  | .placeholder => .pseudoElementPlaceholder
  | .backdrop => .pseudoElementBackdrop
  | .fileSelectorButton => .pseudoElementFileSelectorButton

/-- `enum Component` (selectors/parser.rs:1391-1488) as far as it matters here. A selector is the list of its components
in match order (its stored specificity is left out). `comb` is a combinator, with a flag for the tree combinators (the
others stand before pseudo-elements, slots and parts); `ns` a namespace; `typ` a type or universal selector; `other` any
simple selector without prefix and without selector arguments; `pre` a pseudo with its set of prefixes; `fn` the
functions whose arguments these passes do not visit (`:nth-child(… of S)`, `::slotted(S)`, `:host(S)`, `::cue(S)`). -/
inductive Comp
  | comb (tree : Bool) (k : Str)
  | ns (s : Str)
  | typ (s : Str)
  | other (s : Str)
  | pre (k : Pseudo) (p : PrefixSet)
  | lang (ls : List Str)
  | dir (rtl : Bool)
  | is (l : List (List Comp))
  | neg (l : List (List Comp))
  | wher (l : List (List Comp))
  | any (p : PrefixSet) (l : List (List Comp))
  | has (l : List (List Comp))
  | fn (s : Str) (l : List (List Comp))

/-- `struct Selector` (selectors/parser.rs:713): the components in match order. -/
abbrev Sel := List Comp

/-! ### Prefix sets -/

/-- `VendorPrefix::is_empty`. -/
def isEmpty (p : PrefixSet) : Bool := p == .empty

/-- `VendorPrefix::or` (src/vendor_prefix.rs:62-68). -/
def or (a b : PrefixSet) : PrefixSet := if isEmpty a then b else a

/-- `&` on flags. -/
def inter (a b : PrefixSet) : PrefixSet :=
  ⟨a.none && b.none, a.webkit && b.webkit, a.moz && b.moz, a.ms && b.ms, a.o && b.o⟩

/-- `a - VendorPrefix::None`. -/
def dropNone (a : PrefixSet) : PrefixSet := { a with none := false }

/-- Iteration over the flags of a set, in the order of their declaration (src/vendor_prefix.rs:22-33). -/
def flags (p : PrefixSet) : List Prefix := [Prefix.webkit, .moz, .ms, .o, .none].filter p.has

/-! ### Shape of selectors -/

/-- `is_type_selector` (src/selector.rs:1762-1767). -/
def isType : Option Comp → Bool
  | some (.typ _) => true
  | _ => false

/-- `has_type_selector` (src/selector.rs:1741-1754). -/
def hasType : Sel → Bool
  | .ns _ :: rest => isType rest.head?
  | s => isType s.head?

/-- `Component::is_combinator`. -/
def isComb : Comp → Bool
  | .comb _ _ => true
  | _ => false

/-- `is_simple` (src/selector.rs:1757-1759). -/
def isSimple (s : Sel) : Bool := !(s.any isComb)

/-- A tree combinator (selectors/parser.rs:1160-1170 `is_tree_combinator`). -/
def isTree : Comp → Bool
  | .comb tree _ => tree
  | _ => false

/-- `Selector::has_combinator` (selectors/parser.rs:819-823). -/
def hasCombinator (s : Sel) : Bool := s.any isTree

/-- `should_unwrap_is` (src/selector.rs:1696-1705). -/
def shouldUnwrap : List Sel → Bool
  | [s] => !hasType s && isSimple s
  | _ => false

/-! ### Targets -/

/-- src/targets.rs:155-158: the flags of the selector features. -/
def Flags.notSelectorList : Flags := 1#32 <<< 1
/-- src/targets.rs:156. -/
def Flags.dirSelector : Flags := 1#32 <<< 2
/-- src/targets.rs:157. -/
def Flags.langSelectorList : Flags := 1#32 <<< 3
/-- src/targets.rs:158. -/
def Flags.isSelector : Flags := 1#32 <<< 4

/-- `should_compile!(targets, IsSelector)` (src/targets.rs:317-324). -/
def compIs (t : Targets) : Bool := t.shouldCompile .isSelector Flags.isSelector
/-- `should_compile!(targets, NotSelectorList)`. -/
def compNot (t : Targets) : Bool := t.shouldCompile .notSelectorList Flags.notSelectorList
/-- `should_compile!(targets, LangSelectorList)`. -/
def compLang (t : Targets) : Bool := t.shouldCompile .langSelectorList Flags.langSelectorList
/-- `should_compile!(targets, DirSelector)`. -/
def compDir (t : Targets) : Bool := t.shouldCompile .dirSelector Flags.dirSelector

/-! ### Downlevelling -/

/-- `RTL_LANGS` (src/selector.rs:2073-2076). -/
def rtlLangs : List Str :=
  [cs!"ae", cs!"ar", cs!"arc", cs!"bcc", cs!"bqi", cs!"ckb", cs!"dv", cs!"fa", cs!"glk", cs!"he", cs!"ku", cs!"mzn",
   cs!"nqo", cs!"pnb", cs!"ps", cs!"sd", cs!"ug", cs!"ur", cs!"yi"]

/-- `lang_list_to_selectors` (src/selector.rs:2151-2161). -/
def langSels (ls : List Str) : List Sel := ls.map fun l => [Comp.lang [l]]

/-- `downlevel_dir` (src/selector.rs:2163-2183). -/
def downDir (t : Targets) (rtl : Bool) : Comp :=
  if !compLang t then
    if !rtl then .neg [[.lang rtlLangs]] else .lang rtlLangs
  else
    if !rtl then .neg (langSels rtlLangs) else .is (langSels rtlLangs)

/-- src/selector.rs:2117-2130: the prefixes of `:is(l)`, after its arguments needed `p`. -/
def isPrefixes (t : Targets) (l : List Sel) (p : PrefixSet) : PrefixSet :=
  if compIs t && !shouldUnwrap l && l.all (fun s => !hasCombinator s) then
    p.union (t.prefixes Prefix.none.set .anyPseudo)
  else p.union Prefix.none.set

/-- src/selector.rs:2132-2148: `:not(l)`, after its arguments needed `p`. -/
def downNeg (t : Targets) (l : List Sel) (p : PrefixSet) : Comp × PrefixSet :=
  if 1 < l.length && compNot t then
    (.neg [[.is l]],
      if compIs t then p.union (t.prefixes Prefix.none.set .anyPseudo) else p.union Prefix.none.set)
  else (.neg l, p)

mutual
/-- `downlevel_component` (src/selector.rs:2092-2149): the new component and the necessary prefixes. The recursive calls
after `:dir()` and `:lang()` were replaced are written out: the arguments are then `:lang()` with one language, which
the recursive call leaves unchanged (`down_dir` in Props.lean shows that this is the recursive call). -/
def downComp (t : Targets) : Comp → Comp × PrefixSet
  | .dir rtl =>
    if compDir t then
      if !compLang t then
        if !rtl then (.neg [[.lang rtlLangs]], .empty) else (.lang rtlLangs, .empty)
      else
        if !rtl then downNeg t (langSels rtlLangs) .empty
        else (.is (langSels rtlLangs), isPrefixes t (langSels rtlLangs) .empty)
    else (.dir rtl, .empty)
  | .lang ls =>
    if 1 < ls.length && compLang t then (.is (langSels ls), isPrefixes t (langSels ls) .empty)
    else (.lang ls, .empty)
  | .pre k p => (.pre k (t.prefixes p k.feature), t.prefixes p k.feature)
  | .is l => (.is (downList t l).1, isPrefixes t (downList t l).1 (downList t l).2)
  | .neg l => downNeg t (downList t l).1 (downList t l).2
  | .wher l => (.wher (downList t l).1, (downList t l).2)
  | .any p l => (.any p (downList t l).1, (downList t l).2)
  | .has l => (.has (downList t l).1, (downList t l).2)
  | .comb b k => (.comb b k, .empty)
  | .ns s => (.ns s, .empty)
  | .typ s => (.typ s, .empty)
  | .other s => (.other s, .empty)
  | .fn s l => (.fn s l, .empty)
/-- The inner loop of `downlevel_selectors` (src/selector.rs:2083-2085). -/
def downSel (t : Targets) : List Comp → List Comp × PrefixSet
  | [] => ([], .empty)
  | c :: cs => ((downComp t c).1 :: (downSel t cs).1, (downComp t c).2.union (downSel t cs).2)
/-- `downlevel_selectors` (src/selector.rs:2080-2089). -/
def downList (t : Targets) : List (List Comp) → List (List Comp) × PrefixSet
  | [] => ([], .empty)
  | s :: ss => ((downSel t s).1 :: (downList t ss).1, (downSel t s).2.union (downList t ss).2)
end

/-! ### The prefix of a rule -/

/-- The prefix a component contributes (src/selector.rs:2045-2056). -/
def compPrefix : Comp → PrefixSet
  | .lang _ | .dir _ | .is _ | .wher _ | .has _ | .neg _ => Prefix.none.set
  | .any p _ => p
  | .pre _ p => p
  | _ => .empty

/-- src/selector.rs:2040-2070: the loop of `get_prefix` over all components; `none` is the early return. -/
def prefixLoop (acc : PrefixSet) : List Comp → Option PrefixSet
  | [] => some acc
  | c :: cs =>
    if isEmpty (compPrefix c) then prefixLoop acc cs
    else if isEmpty (dropNone acc) || dropNone acc == compPrefix c then prefixLoop (acc.union (compPrefix c)) cs
    else none

/-- `get_prefix` (src/selector.rs:2039-2071). -/
def getPrefix (l : List Sel) : PrefixSet := (prefixLoop .empty l.flatten).getD .empty

/-- A style rule as far as its selectors are concerned: `StyleRule` (src/rules/style.rs:24-48). -/
structure Rule where
  sels : List Sel
  vp : PrefixSet

/-- `update_prefix` (src/rules/style.rs:174-179). -/
def updatePrefix (t : Targets) (l : List Sel) : Rule :=
  if (getPrefix l).has .none && t.shouldCompileSelectors then ⟨(downList t l).1, (downList t l).2⟩
  else ⟨l, getPrefix l⟩

/-! ### Printing -/

/-- The prefix written for a pseudo with prefixes `p` when the printer's override is `vp` (src/selector.rs:701-705 and
1161-1165). -/
def shown (vp p : PrefixSet) : PrefixSet := if isEmpty vp then p else or (inter vp p) Prefix.none.set

/-- `vp.intersects(VendorPrefix::WebKit | VendorPrefix::Moz)`. -/
def anyLike (vp : PrefixSet) : Bool := vp.webkit || vp.moz

mutual
/-- `serialize_component` (src/selector.rs:1565-1694), as far as it chooses prefixes: the components that are written.
A written component is again a `Comp`, whose prefix set is the set whose text is written. -/
def printComp (vp : PrefixSet) : Comp → List Comp
  | .pre k p => [.pre k (shown vp p)]
  | .is l =>
    if shouldUnwrap l then printFirst vp l
    else if anyLike vp then [.any vp (printList vp l)] else [.is (printList vp l)]
  | .any p l => if anyLike (or vp p) then [.any (or vp p) (printList vp l)] else [.is (printList vp l)]
  | .neg l => [.neg (printList vp l)]
  | .wher l => [.wher (printList vp l)]
  | .has l => [.has (printList vp l)]
  | .fn s l => [.fn s (printList vp l)]
  | .lang ls => [.lang ls]
  | .dir r => [.dir r]
  | .comb b k => [.comb b k]
  | .ns s => [.ns s]
  | .typ s => [.typ s]
  | .other s => [.other s]
/-- `serialize_selector` (src/selector.rs:1398-1563) without the elision of namespaces and universal selectors. -/
def printSel (vp : PrefixSet) : List Comp → List Comp
  | [] => []
  | c :: cs => printComp vp c ++ printSel vp cs
/-- `selectors.first().unwrap()` of an unwrapped `:is()` (src/selector.rs:1620). -/
def printFirst (vp : PrefixSet) : List (List Comp) → List Comp
  | [] => []
  | s :: _ => printSel vp s
/-- `serialize_selector_list` (src/selector.rs:1780-1799). -/
def printList (vp : PrefixSet) : List (List Comp) → List (List Comp)
  | [] => []
  | s :: ss => printSel vp s :: printList vp ss
end

/-- The selector lists of the printed copies of a rule: `StyleRule::to_css` (src/rules/style.rs:217-242). -/
def copies (r : Rule) : List (List Sel) :=
  if isEmpty r.vp then [printList .empty r.sels] else (flags r.vp).map fun p => printList p.set r.sels

/-- What a rule with selectors `l` becomes: minification (src/rules/mod.rs:710) and printing. -/
def output (t : Targets) (l : List Sel) : List (List Sel) := copies (updatePrefix t l)

/-! ### Merging prefixed rules -/

mutual
/-- The derived `PartialEq` of `Component` (selectors/parser.rs:1390). -/
def beqComp : Comp → Comp → Bool
  | .comb b k, .comb b' k' => b == b' && k == k'
  | .ns s, .ns s' => s == s'
  | .typ s, .typ s' => s == s'
  | .other s, .other s' => s == s'
  | .pre k p, .pre k' p' => k == k' && p == p'
  | .lang ls, .lang ls' => ls == ls'
  | .dir r, .dir r' => r == r'
  | .is l, .is l' => beqList l l'
  | .neg l, .neg l' => beqList l l'
  | .wher l, .wher l' => beqList l l'
  | .any p l, .any p' l' => p == p' && beqList l l'
  | .has l, .has l' => beqList l l'
  | .fn s l, .fn s' l' => s == s' && beqList l l'
  | _, _ => false
/-- … of selectors. -/
def beqSel : List Comp → List Comp → Bool
  | [], [] => true
  | c :: cs, c' :: cs' => beqComp c c' && beqSel cs cs'
  | _, _ => false
/-- … of selector lists. -/
def beqList : List (List Comp) → List (List Comp) → Bool
  | [], [] => true
  | s :: ss, s' :: ss' => beqSel s s' && beqList ss ss'
  | _, _ => false
end

mutual
/-- The comparison of two components in `is_equivalent` (src/selector.rs:2018-2026), with `PseudoClass::is_equivalent`
and `PseudoElement::is_equivalent` (src/selector.rs:855-868 and 1322-1331). -/
def eqvComp : Comp → Comp → Bool
  | .pre k _, .pre k' _ => k == k'
  | .any _ l, .is l' => eqvList l l'
  | .is l, .any _ l' => eqvList l l'
  | .any _ l, .any _ l' => eqvList l l'
  | .is l, .is l' => eqvList l l'
  | c, c' => beqComp c c'
/-- The inner loop of `is_equivalent`: same length, and component by component. -/
def eqvSel : List Comp → List Comp → Bool
  | [], [] => true
  | c :: cs, c' :: cs' => eqvComp c c' && eqvSel cs cs'
  | _, _ => false
/-- `is_equivalent` (src/selector.rs:2003-2035). -/
def eqvList : List (List Comp) → List (List Comp) → Bool
  | [], [] => true
  | s :: ss, s' :: ss' => eqvSel s s' && eqvList ss ss'
  | _, _ => false
end

/-- `merge_style_rules` (src/rules/mod.rs:986-1004) for two rules with the same declarations and no nested rules whose
selectors differ: the merged rule, if they are the same minus prefixes. -/
def mergeEqv (t : Targets) (style last : Rule) : Option Rule :=
  if !isEmpty style.vp && !isEmpty last.vp && eqvList style.sels last.sels then
    some ⟨last.sels,
      if style.vp.has .none && t.shouldCompileSelectors then style.vp else last.vp.union style.vp⟩
  else none

end Verif.Downlevel
