import Verif.Tokens.Model
/-! `url()` values: how they are printed, and when they are absolute (src/values/url.rs). -/
namespace Verif.Urls
open Verif.Tokens

/-- Rust `str::len`: the number of bytes of the text in UTF-8. -/
def utf8Len (s : Str) : Nat := (s.map Char.utf8Size).sum

/-- src/values/url.rs:40-91 `Url::to_css`, when no dependencies are collected. -/
def printUrl (minify : Bool) (url : Str) : Str :=
  if minify then
    let buf := printToken true (.url url)
    if utf8Len buf > utf8Len url + 7 then
      let buf2 := serString url
      if utf8Len buf2 + 5 < utf8Len buf then cs!"url(" ++ buf2 ++ [')'] else buf
    else buf
  else cs!"url(" ++ serString url ++ [')']

/-- src/values/url.rs:121-124, the pattern for an ASCII letter. -/
def isLetter (c : Char) : Bool := ('a' ≤ c && c ≤ 'z') || ('A' ≤ c && c ≤ 'Z')

/-- src/values/url.rs:121-129, the loop over the bytes of the url. The model goes over characters: the bytes of a character outside ASCII
are at least 0x80, so they end the loop just as the character does here. -/
def schemeLoop : Str → Bool
  | [] => false
  | c :: s =>
    if isLetter c || ('0' ≤ c && c ≤ '9') || c = '+' || c = '-' || c = '.' then schemeLoop s
    else if c = ':' then true
    else false

/-- src/values/url.rs:96-132 `Url::is_absolute`. -/
def isAbsolute (url : Str) : Bool :=
  if url.head? = some '.' then false
  else if url.head? = some '/' then true
  else if url.head? = some '#' then true
  else if !(match url with | c :: _ => isLetter c | [] => false) then false
  else schemeLoop url

end Verif.Urls
