import Verif.Spec.Binary
/-
Specification of the class-file format (JVMS chapter 4): the abstract structure and its
encoding. Independent of the reader model.
-/
namespace Javatools.Spec

/-- A constant as the class-file format defines it (JVMS 4.4). Strings are sequences of
UTF-16 code units. -/
inductive CpInfo where
  | utf8 (units : List Nat)
  | integer (v : Int)
  | float (bits : Nat)
  | long (v : Int)
  | double (bits : Nat)
  | cls (n : Nat)
  | string (n : Nat)
  | fieldref (a b : Nat)
  | methodref (a b : Nat)
  | ifaceMethodref (a b : Nat)
  | nameAndType (a b : Nat)
  | moduleId (a b : Nat)
  | methodHandle (kind i : Nat)
  | methodType (n : Nat)
  | dynamic (a b : Nat)
  | invokeDynamic (a b : Nat)
  | module (n : Nat)
  | package (n : Nat)
  deriving DecidableEq, Repr

/-- Modified UTF-8 of one UTF-16 code unit (JVMS 4.4.7). -/
def mutf8Unit (u : Nat) : Bytes :=
  if 0 < u ∧ u < 0x80 then [UInt8.ofNat u]
  else if u < 0x800 then [UInt8.ofNat (0xC0 + u / 64), UInt8.ofNat (0x80 + u % 64)]
  else [UInt8.ofNat (0xE0 + u / 4096), UInt8.ofNat (0x80 + u / 64 % 64), UInt8.ofNat (0x80 + u % 64)]

/-- Modified UTF-8 of a string of code units. -/
def mutf8 (us : List Nat) : Bytes := us.flatMap mutf8Unit

/-- The code units that are not halves of surrogate pairs. -/
def isSurrogate (u : Nat) : Prop := 0xD800 ≤ u ∧ u ≤ 0xDFFF
instance (u : Nat) : Decidable (isSurrogate u) := inferInstanceAs (Decidable (_ ∧ _))

/-- `cp_info` encoding (JVMS 4.4, tags of table 4.4-A; 13 is the pre-release ModuleId). -/
def CpInfo.enc : CpInfo → Bytes
  | .utf8 us => be 1 1 ++ (be 2 (mutf8 us).length ++ mutf8 us)
  | .integer v => be 1 3 ++ beInt 4 v
  | .float b => be 1 4 ++ be 4 b
  | .long v => be 1 5 ++ beInt 8 v
  | .double b => be 1 6 ++ be 8 b
  | .cls n => be 1 7 ++ be 2 n
  | .string n => be 1 8 ++ be 2 n
  | .fieldref a b => be 1 9 ++ (be 2 a ++ be 2 b)
  | .methodref a b => be 1 10 ++ (be 2 a ++ be 2 b)
  | .ifaceMethodref a b => be 1 11 ++ (be 2 a ++ be 2 b)
  | .nameAndType a b => be 1 12 ++ (be 2 a ++ be 2 b)
  | .moduleId a b => be 1 13 ++ (be 2 a ++ be 2 b)
  | .methodHandle k i => be 1 15 ++ (be 1 k ++ be 2 i)
  | .methodType n => be 1 16 ++ be 2 n
  | .dynamic a b => be 1 17 ++ (be 2 a ++ be 2 b)
  | .invokeDynamic a b => be 1 18 ++ (be 2 a ++ be 2 b)
  | .module n => be 1 19 ++ be 2 n
  | .package n => be 1 20 ++ be 2 n

/-- Field ranges of a constant. -/
def CpInfo.Valid : CpInfo → Prop
  | .utf8 us => (∀ u ∈ us, u < 65536) ∧ (mutf8 us).length < 65536
  | .integer v => SRange 4 v
  | .long v => SRange 8 v
  | .float b => b < 256 ^ 4
  | .double b => b < 256 ^ 8
  | .cls n | .string n | .methodType n | .module n | .package n => n < 65536
  | .fieldref a b | .methodref a b | .ifaceMethodref a b | .nameAndType a b | .moduleId a b
  | .dynamic a b | .invokeDynamic a b => a < 65536 ∧ b < 65536
  | .methodHandle k i => k < 256 ∧ i < 65536

/-- Number of indices an entry occupies (JVMS 4.4.5: long and double take two). -/
def CpInfo.width : CpInfo → Nat
  | .long _ => 2
  | .double _ => 2
  | _ => 1

/-- `constant_pool_count` -/
def cpCount (es : List CpInfo) : Nat := 1 + (es.map CpInfo.width).sum

/-- JVM index of the `k`-th entry of the table. -/
def cpIndex (es : List CpInfo) (k : Nat) : Nat := 1 + ((es.take k).map CpInfo.width).sum

/-- constant pool with its count -/
def encPool (es : List CpInfo) : Bytes := be 2 (cpCount es) ++ es.flatMap CpInfo.enc

structure AttrS where
  name : Nat
  info : Bytes
  deriving DecidableEq, Repr

/-- `attribute_info` (JVMS 4.7) -/
def AttrS.enc (a : AttrS) : Bytes := (be 2 a.name ++ be 4 a.info.length) ++ a.info

/-- attributes_count and the table -/
def encAttrs (as : List AttrS) : Bytes := be 2 as.length ++ as.flatMap AttrS.enc

structure MemberS where
  access : Nat
  name : Nat
  desc : Nat
  attrs : List AttrS
  deriving DecidableEq, Repr

/-- `field_info` / `method_info` (JVMS 4.5, 4.6) -/
def MemberS.enc (m : MemberS) : Bytes :=
  (be 2 m.access ++ (be 2 m.name ++ be 2 m.desc)) ++ encAttrs m.attrs

structure ClassS where
  minor : Nat
  major : Nat
  pool : List CpInfo
  access : Nat
  this : Nat
  super : Nat
  interfaces : List Nat
  fields : List MemberS
  methods : List MemberS
  attrs : List AttrS
  deriving DecidableEq, Repr

/-- `ClassFile` (JVMS 4.1) -/
def ClassS.enc (c : ClassS) : Bytes :=
  [0xCA, 0xFE, 0xBA, 0xBE] ++ ((be 2 c.minor ++ be 2 c.major) ++ (encPool c.pool ++
  ((be 2 c.access ++ (be 2 c.this ++ be 2 c.super)) ++
  (be 2 c.interfaces.length ++ (c.interfaces.flatMap (be 2) ++
  ((be 2 c.fields.length ++ c.fields.flatMap MemberS.enc) ++
  ((be 2 c.methods.length ++ c.methods.flatMap MemberS.enc) ++
  encAttrs c.attrs)))))))

/-- The entries at JVM indices 1, 2, ...: each entry at its index, and an unusable slot after
a long or double (JVMS 4.4.5). -/
def cpSlots : List CpInfo → List (Option CpInfo)
  | [] => []
  | e :: es => some e :: (List.replicate (e.width - 1) none ++ cpSlots es)

/-- `us` is the text of the Utf8 entry with JVM index `i`. -/
def utf8At (es : List CpInfo) (i : Nat) (us : List Nat) : Prop :=
  ∃ k, es[k]? = some (.utf8 us) ∧ cpIndex es k = i

def AttrS.Valid (es : List CpInfo) (a : AttrS) : Prop :=
  a.info.length < 2 ^ 32 ∧ a.name < 65536 ∧ ∃ us, utf8At es a.name us

def MemberS.Valid (es : List CpInfo) (m : MemberS) : Prop :=
  m.access < 65536 ∧ m.name < 65536 ∧ m.desc < 65536 ∧ m.attrs.length < 65536 ∧
  ∀ a ∈ m.attrs, a.Valid es

/-- A class file structure that has an encoding: numbers fit their fields and attribute names
refer to Utf8 entries. -/
def ClassS.Valid (c : ClassS) : Prop :=
  c.minor < 65536 ∧ c.major < 65536 ∧ cpCount c.pool < 65536 ∧ (∀ e ∈ c.pool, e.Valid) ∧
  c.access < 65536 ∧ c.this < 65536 ∧ c.super < 65536 ∧
  c.interfaces.length < 65536 ∧ (∀ i ∈ c.interfaces, i < 65536) ∧
  c.fields.length < 65536 ∧ (∀ m ∈ c.fields, m.Valid c.pool) ∧
  c.methods.length < 65536 ∧ (∀ m ∈ c.methods, m.Valid c.pool) ∧
  c.attrs.length < 65536 ∧ (∀ a ∈ c.attrs, a.Valid c.pool)

end Javatools.Spec
