import Verif.Model.Base
/-
Model of CPython's `bytes.decode("utf8")` (strict) and `bytes.decode("utf8", errors="ignore")`,
`str.encode("utf8")` and `bytes.replace` for the one pattern the library uses.

CPython facts relied on: the strict decoder accepts exactly the well-formed UTF-8 sequences
of Unicode table 3-7 (no overlong forms, no surrogates, at most U+10FFFF); with
`errors="ignore"` an undecodable position contributes nothing. (CPython skips the maximal
ill-formed prefix at once; skipping one byte at a time gives the same text, because the
remaining bytes of that prefix are continuation bytes, which are themselves undecodable.)
-/
namespace Javatools

def isCont (b : UInt8) : Bool := 0x80 ≤ b.toNat && b.toNat ≤ 0xBF

/-- Decode the first character, if the text starts with a well-formed sequence. -/
def utf8Step : Bytes → Option (Char × Bytes)
  | [] => none
  | b0 :: r0 =>
    let a := b0.toNat
    if a < 0x80 then some (Char.ofNat a, r0)
    else if a < 0xC2 then none
    else if a ≤ 0xDF then
      match r0 with
      | b1 :: r1 =>
        if isCont b1 then some (Char.ofNat ((a - 0xC0) * 64 + (b1.toNat - 0x80)), r1) else none
      | [] => none
    else if a ≤ 0xEF then
      match r0 with
      | b1 :: b2 :: r2 =>
        let cp := (a - 0xE0) * 4096 + (b1.toNat - 0x80) * 64 + (b2.toNat - 0x80)
        if isCont b1 && isCont b2 && 0x800 ≤ cp && !(0xD800 ≤ cp && cp ≤ 0xDFFF) then
          some (Char.ofNat cp, r2)
        else none
      | _ => none
    else if a ≤ 0xF4 then
      match r0 with
      | b1 :: b2 :: b3 :: r3 =>
        let cp := (a - 0xF0) * 262144 + (b1.toNat - 0x80) * 4096 + (b2.toNat - 0x80) * 64
          + (b3.toNat - 0x80)
        if isCont b1 && isCont b2 && isCont b3 && 0x10000 ≤ cp && cp ≤ 0x10FFFF then
          some (Char.ofNat cp, r3)
        else none
      | _ => none
    else none

/-- `bs.decode("utf8")`, `none` for `UnicodeDecodeError`; the fuel is the length. -/
def decodeStrictAux : Nat → Bytes → Option Str
  | 0, _ => some []
  | fuel + 1, bs =>
    match bs with
    | [] => some []
    | _ :: _ =>
      match utf8Step bs with
      | none => none
      | some (c, r) => (decodeStrictAux fuel r).map (c :: ·)

/-- `bs.decode("utf8")` -/
def decodeStrict (bs : Bytes) : Option Str := decodeStrictAux bs.length bs

def decodeIgnoreAux : Nat → Bytes → Str
  | 0, _ => []
  | fuel + 1, bs =>
    match bs with
    | [] => []
    | _ :: r0 =>
      match utf8Step bs with
      | none => decodeIgnoreAux fuel r0
      | some (c, r) => c :: decodeIgnoreAux fuel r

/-- `bs.decode("utf8", errors="ignore")` -/
def decodeIgnore (bs : Bytes) : Str := decodeIgnoreAux bs.length bs

/-- `bs.replace(b"\xC0\x80", b"\x00")` -/
def replaceC080 : Bytes → Bytes
  | [] => []
  | [b] => [b]
  | b0 :: b1 :: r =>
    if b0 = 0xC0 ∧ b1 = 0x80 then 0 :: replaceC080 r else b0 :: replaceC080 (b1 :: r)

/-- UTF-8 encoding of one code point (`str.encode("utf8")` character by character). -/
def encodeChar (c : Char) : Bytes :=
  let n := c.toNat
  if n < 0x80 then [UInt8.ofNat n]
  else if n < 0x800 then [UInt8.ofNat (0xC0 + n / 64), UInt8.ofNat (0x80 + n % 64)]
  else if n < 0x10000 then
    [UInt8.ofNat (0xE0 + n / 4096), UInt8.ofNat (0x80 + n / 64 % 64), UInt8.ofNat (0x80 + n % 64)]
  else
    [UInt8.ofNat (0xF0 + n / 262144), UInt8.ofNat (0x80 + n / 4096 % 64),
     UInt8.ofNat (0x80 + n / 64 % 64), UInt8.ofNat (0x80 + n % 64)]

/-- `s.encode("utf8")` -/
def encodeUtf8 (s : Str) : Bytes := s.flatMap encodeChar

end Javatools
