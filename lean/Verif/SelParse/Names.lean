import Verif.SelParse.Ast
/-!
# Vocabulary: names of pseudo-classes and pseudo-elements by kind
-/
namespace Verif.SelParse

/-- ASCII lower case (`match_ignore_ascii_case!`). -/
def lower (s : Str) : Str := s.map Char.toLower

/-- The pseudo-elements that are not `Custom` (src/selector.rs:269-311); `::-ms-input-placeholder` is stored as `::-moz-placeholder` (285). -/
def knownElems : List Str :=
  [cs!"before", cs!"after", cs!"first-line", cs!"first-letter", cs!"details-content", cs!"target-text", cs!"cue", cs!"cue-region",
   cs!"selection", cs!"-moz-selection", cs!"placeholder", cs!"-webkit-input-placeholder", cs!"-moz-placeholder", cs!"marker",
   cs!"backdrop", cs!"-webkit-backdrop", cs!"file-selector-button", cs!"-webkit-file-upload-button", cs!"-ms-browse",
   cs!"-webkit-scrollbar", cs!"-webkit-scrollbar-button", cs!"-webkit-scrollbar-track", cs!"-webkit-scrollbar-track-piece",
   cs!"-webkit-scrollbar-thumb", cs!"-webkit-scrollbar-corner", cs!"-webkit-resizer", cs!"picker-icon", cs!"checkmark",
   cs!"view-transition", cs!"grammar-error", cs!"spelling-error"]

/-- `is_webkit_scrollbar` (src/selector.rs:1300-1302 with 293-299). -/
def scrollbarElems : List Str :=
  [cs!"-webkit-scrollbar", cs!"-webkit-scrollbar-button", cs!"-webkit-scrollbar-track", cs!"-webkit-scrollbar-track-piece",
   cs!"-webkit-scrollbar-thumb", cs!"-webkit-scrollbar-corner", cs!"-webkit-resizer"]

/-- `valid_after_slotted` (src/selector.rs:1286-1298). -/
def treeAbiding : List Str :=
  [cs!"before", cs!"after", cs!"marker", cs!"placeholder", cs!"-webkit-input-placeholder", cs!"-moz-placeholder",
   cs!"file-selector-button", cs!"-webkit-file-upload-button", cs!"-ms-browse"]

/-- The functional pseudo-elements that are not `CustomFunction` and hold no selector (src/selector.rs:322-326). -/
def knownElemFns : List Str :=
  [cs!"picker", cs!"view-transition-group", cs!"view-transition-image-pair", cs!"view-transition-old", cs!"view-transition-new"]

/-- `is_view_transition` (src/selector.rs:1304-1312). -/
def viewTransitionFns : List Str :=
  [cs!"view-transition-group", cs!"view-transition-image-pair", cs!"view-transition-old", cs!"view-transition-new"]

/-- `is_user_action_state` (src/selector.rs:621-630). -/
def userAction : List Str := [cs!"active", cs!"hover", cs!"focus", cs!"focus-within", cs!"focus-visible"]

/-- The pseudo-classes of scroll bars (src/selector.rs:186-197). -/
def scrollbarClasses : List Str :=
  [cs!"horizontal", cs!"vertical", cs!"decrement", cs!"increment", cs!"start", cs!"end", cs!"double-button", cs!"single-button",
   cs!"no-button", cs!"corner-present", cs!"window-inactive"]

/-- `is_valid_after_webkit_scrollbar` (src/selector.rs:636-646). -/
def afterScrollbar : List Str := scrollbarClasses ++ [cs!"enabled", cs!"disabled", cs!"hover", cs!"active"]

/-- Which arguments of functions that are not selectors are valid (`:lang()`, `:dir()`, `:state()`, `::picker()`, `::view-transition-*()` and
functions that are not known, src/selector.rs:213-250, 319-340): a parameter. -/
structure Opts where
  classArgs : Str → List Tok → Bool
  elemArgs : Str → List Tok → Bool

end Verif.SelParse
