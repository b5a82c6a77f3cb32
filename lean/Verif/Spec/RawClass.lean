import Verif.Spec.ClassObject
/-
Specification: class files as they lie in memory, before any meaning is given to names and
strings. Utf8 constants are raw bytes, references need not point anywhere sensible, and the
constant pool count may end in the middle of a long or double.
-/
namespace Javatools.Spec
open Javatools

/-- A constant: the bytes of a Utf8 entry, or any other entry. -/
inductive RawCp where
  | text (raw : Bytes)
  | other (c : CpInfo)
  deriving DecidableEq, Repr

namespace RawCp

def enc : RawCp → Bytes
  | text raw => be 1 1 ++ (be 2 raw.length ++ raw)
  | other c => c.enc

/-- Numbers fit their fields. -/
def Fits : RawCp → Prop
  | text raw => raw.length < 65536
  | other c => c.Valid ∧ ∀ us, c ≠ .utf8 us

def width : RawCp → Nat
  | text _ => 1
  | other c => c.width

/-- What the reader keeps: raw bytes become a text (which one is C11), everything else is kept. -/
def const : RawCp → Const
  | text raw => .utf8 (decodeUtf8Const raw)
  | other c => constOf c

/-- The slots at indices 1, 2, ... -/
def slots : List RawCp → List (Option RawCp)
  | [] => []
  | e :: es => some e :: (List.replicate (e.width - 1) none ++ slots es)

/-- `es` are the entries of a pool of `n` slots: there are enough, and none too many. -/
def Fill (n : Nat) (es : List RawCp) : Prop :=
  n ≤ (es.map width).sum ∧ ∀ k, k < es.length → ((es.take k).map width).sum < n

end RawCp

/-- A class file. `count` is `constant_pool_count`. -/
structure RawClass where
  minor : Nat
  major : Nat
  count : Nat
  consts : List RawCp
  access : Nat
  this : Nat
  super : Nat
  interfaces : List Nat
  fields : List MemberS
  methods : List MemberS
  attrs : List AttrS

namespace RawClass

/-- `ClassFile` (JVMS 4.1) -/
def enc (c : RawClass) : Bytes :=
  [0xCA, 0xFE, 0xBA, 0xBE] ++ ((be 2 c.minor ++ be 2 c.major) ++
  ((be 2 c.count ++ c.consts.flatMap RawCp.enc) ++
  ((be 2 c.access ++ (be 2 c.this ++ be 2 c.super)) ++
  (be 2 c.interfaces.length ++ (c.interfaces.flatMap (be 2) ++
  ((be 2 c.fields.length ++ c.fields.flatMap MemberS.enc) ++
  ((be 2 c.methods.length ++ c.methods.flatMap MemberS.enc) ++
  encAttrs c.attrs)))))))

/-- The constant pool the reader keeps. -/
def pool (c : RawClass) : Pool :=
  none :: ((RawCp.slots c.consts).take (c.count - 1)).map (Option.map RawCp.const)

end RawClass

/-- The value of an attribute's name. -/
def keyAt (pool : Pool) (lim i : Nat) : PVal :=
  match deref pool lim i with
  | .ok k => k
  | .error _ => .str []

/-- An attribute fits, and its name has a value. -/
def AttrS.Fits (pool : Pool) (lim : Nat) (a : AttrS) : Prop :=
  a.name < 65536 ∧ a.info.length < 2 ^ 32 ∧ ∃ k, deref pool lim a.name = .ok k

def attribsAt (pool : Pool) (lim : Nat) (as : List AttrS) : Attribs :=
  PyDict.ofPairs (as.map fun a => (keyAt pool lim a.name, a.info))

def MemberS.Fits (pool : Pool) (lim : Nat) (m : MemberS) : Prop :=
  m.access < 65536 ∧ m.name < 65536 ∧ m.desc < 65536 ∧ m.attrs.length < 65536 ∧
  ∀ a ∈ m.attrs, a.Fits pool lim

def memberAt (pool : Pool) (lim : Nat) (isMethod : Bool) (m : MemberS) : Member :=
  ⟨m.access, m.name, m.desc, attribsAt pool lim m.attrs, isMethod⟩

namespace RawClass

/-- Numbers fit their fields, the entries fill the pool, and attribute names have a value. -/
def Fits (lim : Nat) (c : RawClass) : Prop :=
  (c.minor < 65536 ∧ c.major < 65536) ∧
  (c.count < 65536 ∧ (∀ e ∈ c.consts, e.Fits) ∧ RawCp.Fill (c.count - 1) c.consts) ∧
  (c.access < 65536 ∧ c.this < 65536 ∧ c.super < 65536) ∧
  (c.interfaces.length < 65536 ∧ ∀ i ∈ c.interfaces, i < 65536) ∧
  (c.fields.length < 65536 ∧ ∀ m ∈ c.fields, m.Fits c.pool lim) ∧
  (c.methods.length < 65536 ∧ ∀ m ∈ c.methods, m.Fits c.pool lim) ∧
  (c.attrs.length < 65536 ∧ ∀ a ∈ c.attrs, a.Fits c.pool lim)

/-- The object the reader should return. -/
def object (lim : Nat) (c : RawClass) : ClassInfo where
  version := (c.major, c.minor)
  pool := c.pool
  access := c.access
  thisRef := c.this
  superRef := c.super
  interfaces := c.interfaces
  fields := c.fields.map (memberAt c.pool lim false)
  methods := c.methods.map (memberAt c.pool lim true)
  attribs := attribsAt c.pool lim c.attrs

end RawClass
end Javatools.Spec
