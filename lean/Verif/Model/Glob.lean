import Verif.Model.Base
/-
Model of `fnmatch.fnmatch` (standard library) and of javatools/dirutils.py:39-48.

`fnmatch(name, pat)` on POSIX translates the pattern to a regular expression that must match the
whole name, and asks the `re` module. The translation is modelled as a list of tokens, the regular
expression match as the search over all ways to divide the name (the meaning of a regular
expression without groups). In a bracket expression the translation's treatment of ranges (cut the
text at the '-' that make ranges, drop empty ranges, escape the rest) amounts to reading the text
from left to right, which is what is written here.
-/
namespace Javatools

/-- One token of the translated pattern. -/
inductive GlobTok where
  | star
  | any
  | lit (c : Char)
  /-- a set: negated?, the inclusive ranges (a single character is a range) -/
  | set (neg : Bool) (ranges : List (Char × Char))
  deriving DecidableEq, Repr

/-- The ranges of the text of a bracket expression. -/
def globRanges : Str → List (Char × Char)
  | a :: '-' :: b :: rest => (a, b) :: globRanges rest
  | a :: rest => (a, a) :: globRanges rest
  | [] => []

/-- Text up to the first `]`, and what follows it. -/
def untilBracket : Str → Option (Str × Str)
  | [] => none
  | c :: cs => if c = ']' then some ([], cs) else (untilBracket cs).map fun p => (c :: p.1, p.2)

/-- The end of the bracket expression whose text starts here: a `]` that comes first (or after
`!`) belongs to the text. -/
def bracketText : Str → Option (Str × Str)
  | '!' :: ']' :: cs => (untilBracket cs).map fun p => ('!' :: ']' :: p.1, p.2)
  | ']' :: cs => (untilBracket cs).map fun p => (']' :: p.1, p.2)
  | cs => untilBracket cs

/-- The token of a bracket expression. -/
def bracketTok : Str → GlobTok
  | '!' :: text => .set true (globRanges text)
  | text => .set false (globRanges text)

/-- `fnmatch.translate`; the fuel is the length of the pattern. -/
def globToksAux : Nat → Str → List GlobTok
  | 0, _ => []
  | fuel + 1, pat =>
    match pat with
    | [] => []
    | '*' :: cs => .star :: globToksAux fuel cs
    | '?' :: cs => .any :: globToksAux fuel cs
    | '[' :: cs =>
      match bracketText cs with
      | some (text, rest) => bracketTok text :: globToksAux fuel rest
      | none => .lit '[' :: globToksAux fuel cs
    | c :: cs => .lit c :: globToksAux fuel cs

def globToks (pat : Str) : List GlobTok := globToksAux pat.length pat

/-- Does the token match the single character? (`star` matches none by itself) -/
def GlobTok.char : GlobTok → Char → Bool
  | .star, _ => false
  | .any, _ => true
  | .lit a, c => a = c
  | .set neg rs, c => (rs.any fun r => decide (r.1 ≤ c) && decide (c ≤ r.2)) != neg

/-- All suffixes of the text, the text itself first. -/
def suffixes : Str → List Str
  | [] => [[]]
  | c :: cs => (c :: cs) :: suffixes cs

/-- Does the token list match the whole text? -/
def toksMatch : List GlobTok → Str → Bool
  | [], s => s.isEmpty
  | .star :: ts, s => (suffixes s).any fun r => toksMatch ts r
  | _ :: _, [] => false
  | t :: ts, c :: cs => t.char c && toksMatch ts cs

/-- `fnmatch.fnmatch(name, pat)` -/
def fnmatch (name pat : Str) : Bool := toksMatch (globToks pat) name

/-- javatools/dirutils.py:39-48 `fnmatches` -/
def fnmatches (entry : Str) (patterns : List Str) : Bool :=
  match patterns with
  | [] => false
  | p :: ps => if !p.isEmpty && fnmatch entry p then true else fnmatches entry ps

end Javatools
