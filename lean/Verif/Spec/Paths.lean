import Verif.Model.Text
/-
Specification of file names and links, independent of the code: where a POSIX path leads (without
symbolic links), what an attribute of an HTML page says, and where a link of a page leads
(RFC 3986, for pages that are files).
-/
namespace Javatools.Spec

open Javatools

/-- A place in the file system: the names on the way from the root. -/
abbrev Place := List Str

/-- One step: nothing and `.` stay, `..` goes up (not above the root), a name goes down. -/
def step (here : Place) (c : Str) : Place :=
  if c = [] ∨ c = ['.'] then here
  else if c = ['.', '.'] then here.dropLast
  else here ++ [c]

/-- The place a path leads to from a directory. -/
def place (here : Place) (p : Str) : Place :=
  (splitAll '/' p).foldl step (if p.head? = some '/' then [] else here)

/-- A directory or what is below it. -/
def Below (dir p : Place) : Prop := dir <+: p

/-! ### HTML -/

/-- The text that a piece of HTML source shows; of the character references only those for `&`,
`<`, `>` and `"`. -/
def htmlText : Str → Str
  | '&' :: 'a' :: 'm' :: 'p' :: ';' :: s => '&' :: htmlText s
  | '&' :: 'l' :: 't' :: ';' :: s => '<' :: htmlText s
  | '&' :: 'g' :: 't' :: ';' :: s => '>' :: htmlText s
  | '&' :: 'q' :: 'u' :: 'o' :: 't' :: ';' :: s => '"' :: htmlText s
  | c :: s => c :: htmlText s
  | [] => []

/-- The value of an attribute whose source, after the opening `"`, is this (up to the closing
one). -/
def attrValue (src : Str) : Str := htmlText (src.takeWhile fun c => c ≠ '"')

/-! ### Links -/

def hexVal (c : Char) : Option Nat :=
  if '0' ≤ c ∧ c ≤ '9' then some (c.toNat - 48)
  else if 'a' ≤ c ∧ c ≤ 'f' then some (c.toNat - 87)
  else if 'A' ≤ c ∧ c ≤ 'F' then some (c.toNat - 55)
  else none

/-- Percent-encoding undone (for one-byte characters). -/
def percentDecode : Str → Str
  | '%' :: a :: b :: s =>
    match hexVal a, hexVal b with
    | some x, some y => Char.ofNat (16 * x + y) :: percentDecode s
    | _, _ => '%' :: percentDecode (a :: b :: s)
  | c :: s => c :: percentDecode s
  | [] => []

/-- Where a link on a page leads; `dir` is the directory of the page. `none` is a link with a scheme
or a host, which is no file name. -/
def follow (dir : Place) (href : Str) : Option Place :=
  let ref := href.takeWhile fun c => c ≠ '#'
  if ':' ∈ ref.takeWhile fun c => c ≠ '/' then none
  else if "//".toList.isPrefixOf ref then none
  else some (place dir (percentDecode (ref.takeWhile fun c => c ≠ '?')))

example : place ["r".toList] "a/./b//../c".toList = ["r".toList, "a".toList, "c".toList] := by decide
example : place ["r".toList] "/x/../../y/".toList = ["y".toList] := by decide
example : htmlText "a &lt;b&gt; &amp;lt;".toList = "a <b> &lt;".toList := by decide
example : follow ["r".toList, "d".toList] "../x%41.html#top".toList = some ["r".toList, "xA.html".toList] ∧
    follow [] "http://x/y".toList = none := by decide

end Javatools.Spec
