import Verif.Tokens.Spec
/-! What a url means (CSS Values 4, "Resource Locators"; the URL standard), independent of the code. -/
namespace Verif.Urls
open Verif.Tokens

/-- `<url>`: a url token, or the function `url()` with one string (white space around it does not count); gives the url and the tokens after it. -/
def readUrl : List Tok → Option (Str × List Tok)
  | .url s :: r => some (s, r)
  | .func n :: .string s :: .closeParen :: r => if isUrlName n then some (s, r) else none
  | _ => none

/-- The number of bytes of a text in UTF-8. -/
def bytes (s : Str) : Nat := s.foldr (fun c n => c.utf8Size + n) 0

/-- A text that starts with a scheme: a letter, then letters, digits, `+`, `-`, `.`, then a colon (URL standard, scheme state). -/
def HasScheme (url : Str) : Prop :=
  ∃ a s r, url = a :: (s ++ ':' :: r) ∧ a.isAlpha = true ∧ ∀ c ∈ s, c.isAlphanum = true ∨ c = '+' ∨ c = '-' ∨ c = '.'

/-- A url that does not depend on the place of the style sheet below the root: it has a scheme, or starts at the root, or is a fragment of the document. -/
def Absolute (url : Str) : Prop := (∃ r, url = '/' :: r) ∨ (∃ r, url = '#' :: r) ∨ HasScheme url

end Verif.Urls
