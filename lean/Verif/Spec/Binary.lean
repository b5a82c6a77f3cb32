import Verif.Model.Base
/-
Specification: big-endian and two's complement encodings, as in the Python `struct`
documentation and JVMS 4.1. Independent of the decoding model.
-/
namespace Javatools.Spec

/-- `w` bytes, most significant first. -/
def be (w n : Nat) : Bytes :=
  match w with
  | 0 => []
  | w + 1 => be w (n / 256) ++ [UInt8.ofNat (n % 256)]

/-- two's complement in `w` bytes -/
def beInt (w : Nat) (v : Int) : Bytes := be w (v % (256 ^ w : Nat)).toNat

/-- Range of an unsigned `w`-byte integer. -/
def URange (w : Nat) (v : Int) : Prop := 0 ≤ v ∧ v < (256 ^ w : Nat)

/-- Range of a signed `w`-byte integer (`w ≥ 1`). -/
def SRange (w : Nat) (v : Int) : Prop := -(256 ^ w : Nat) ≤ 2 * v ∧ 2 * v < (256 ^ w : Nat)

end Javatools.Spec
