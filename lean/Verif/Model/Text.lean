import Verif.Model.Utf8
/-
Python string operations the JAR modules use: `str.splitlines`, `str.upper`, `str.rstrip(chars)`,
`str.split(sep)`, `base64.b64encode`.
-/
namespace Javatools

/-- The characters at which `str.splitlines` breaks a line. -/
def isLineBreak (c : Char) : Bool :=
  let n := c.toNat
  n == 0x0a || n == 0x0d || n == 0x0b || n == 0x0c || n == 0x1c || n == 0x1d || n == 0x1e ||
  n == 0x85 || n == 0x2028 || n == 0x2029

/-- `s.splitlines()`, `acc` being the current line reversed: a CR LF pair is one break, and the
text after the last break is a line only if it is not empty. -/
def splitLinesAux (acc : Str) : Str → List Str
  | [] => if acc.isEmpty then [] else [acc.reverse]
  | [c] => if isLineBreak c then [acc.reverse] else [(c :: acc).reverse]
  | c :: d :: cs =>
    if c = '\r' ∧ d = '\n' then acc.reverse :: splitLinesAux [] cs
    else if isLineBreak c then acc.reverse :: splitLinesAux [] (d :: cs)
    else splitLinesAux (c :: acc) (d :: cs)

/-- `s.splitlines()` -/
def splitLines (s : Str) : List Str := splitLinesAux [] s

/-- `sub in s` -/
def hasSub (sub : Str) : Str → Bool
  | [] => sub.isEmpty
  | c :: cs => sub.isPrefixOf (c :: cs) || hasSub sub cs

/-- `s.split(sep, 1)` for one character: `none` when `sep` does not occur. -/
def splitFirst (sep : Char) : Str → Option (Str × Str)
  | [] => none
  | c :: cs => if c = sep then some ([], cs) else (splitFirst sep cs).map fun p => (c :: p.1, p.2)

/-- `s.split(sep)` for one character -/
def splitAll (sep : Char) : Str → List Str
  | [] => [[]]
  | c :: cs =>
    if c = sep then [] :: splitAll sep cs
    else
      match splitAll sep cs with
      | [] => [[c]]
      | p :: ps => (c :: p) :: ps

/-- `s.endswith(suffix)` -/
def endsWith (s suffix : Str) : Bool := suffix.isSuffixOf s

/-- `s.rstrip(chars)`: removes trailing characters that occur in `chars`. -/
def rstripChars (s chars : Str) : Str := (s.reverse.dropWhile fun c => chars.contains c).reverse

/-- `s.upper()`: character by character, one character may become several. `up` is Unicode's full
upper case mapping. -/
def upperWith (up : Char → Str) (s : Str) : Str := s.flatMap up

/-- What is used of Unicode's upper case mapping: ASCII letters are mapped as expected, other
ASCII characters to themselves, and the other characters to text whose ASCII characters are
capital letters ('ß' to "SS", 'ſ' to "S"). -/
structure IsUpper (up : Char → Str) : Prop where
  ascii : ∀ c, c.toNat < 128 → up c = [c.toUpper]
  other : ∀ c, 128 ≤ c.toNat → up c ≠ [] ∧ ∀ d ∈ up c, 128 ≤ d.toNat ∨ d.isUpper = true

/-! ### Base 64 (RFC 4648) -/

def b64Digit (n : Nat) : Char :=
  if n < 26 then Char.ofNat (65 + n)
  else if n < 52 then Char.ofNat (71 + n)
  else if n < 62 then Char.ofNat (n - 4)
  else if n = 62 then '+' else '/'

/-- `base64.b64encode(data).decode("ascii")` -/
def b64encode : Bytes → Str
  | [] => []
  | [a] => [b64Digit (a.toNat / 4), b64Digit (a.toNat % 4 * 16), '=', '=']
  | [a, b] => [b64Digit (a.toNat / 4), b64Digit (a.toNat % 4 * 16 + b.toNat / 16),
      b64Digit (b.toNat % 16 * 4), '=']
  | a :: b :: c :: rest =>
    b64Digit (a.toNat / 4) :: b64Digit (a.toNat % 4 * 16 + b.toNat / 16) ::
    b64Digit (b.toNat % 16 * 4 + c.toNat / 64) :: b64Digit (c.toNat % 64) :: b64encode rest

example : b64encode [0x4d, 0x61, 0x6e] = "TWFu".toList ∧ b64encode [0x4d, 0x61] = "TWE=".toList ∧
    b64encode [0x4d] = "TQ==".toList := by decide

example : splitLines "a\r\nb\n\nc\rd".toList = ["a".toList, "b".toList, [], "c".toList, "d".toList] := by
  decide

end Javatools
