import Verif.Model.Pack
import Verif.Model.Utf8
/-
Model of the class-file reader of javatools/__init__.py: constant pool, attributes,
members, classes, code blocks.

Simplifications: a float/double constant is kept as its bit pattern and given its exact
numeric value (`PyFloat`); Python's recursion limit is the `lim` argument of `deref`;
attribute names that do not dereference to a string are kept as structural keys.
-/
namespace Javatools

/-! ### Python values produced by dereferencing -/

/-- A Python float: exact value `(-1)^neg * m * 2^e`, an infinity, or not-a-number. -/
inductive PyFloat where
  | nan
  | inf (neg : Bool)
  | fin (neg : Bool) (m : Nat) (e : Int)
  deriving DecidableEq, Repr

/-- `struct.unpack(">f")`: IEEE single, given its bits. -/
def float32 (bits : Nat) : PyFloat :=
  let s : Bool := decide (bits / 2 ^ 31 % 2 = 1)
  let e : Nat := bits / 2 ^ 23 % 256
  let f := bits % 2 ^ 23
  if e = 255 then (if f = 0 then .inf s else .nan)
  else if e = 0 then .fin s f (-149)
  else .fin s (f + 2 ^ 23) ((e : Int) - 150)

/-- `struct.unpack(">d")`: IEEE double, given its bits. -/
def float64 (bits : Nat) : PyFloat :=
  let s : Bool := decide (bits / 2 ^ 63 % 2 = 1)
  let e : Nat := bits / 2 ^ 52 % 2048
  let f := bits % 2 ^ 52
  if e = 2047 then (if f = 0 then .inf s else .nan)
  else if e = 0 then .fin s f (-1074)
  else .fin s (f + 2 ^ 52) ((e : Int) - 1075)

/-- The values `deref_const` returns: all its tuples are pairs. -/
inductive PVal where
  | str (s : Str)
  | int (i : Int)
  | flt (f : PyFloat)
  | pair (a b : PVal)
  deriving DecidableEq, Repr

/-! ### Constant pool -/

/-- A constant pool entry `(tag, value)`; the tags are javatools/__init__.py:80-99. -/
inductive Const where
  | utf8 (s : Str)                  -- 1
  | integer (v : Int)               -- 3
  | float (bits : Nat)              -- 4
  | long (v : Int)                  -- 5
  | double (bits : Nat)             -- 6
  | cls (n : Nat)                   -- 7
  | string (n : Nat)                -- 8
  | fieldref (a b : Nat)            -- 9
  | methodref (a b : Nat)           -- 10
  | ifaceMethodref (a b : Nat)      -- 11
  | nameAndType (a b : Nat)         -- 12
  | moduleId (a b : Nat)            -- 13
  | methodHandle (kind i : Nat)     -- 15
  | methodType (n : Nat)            -- 16
  | dynamic (a b : Nat)             -- 17
  | invokeDynamic (a b : Nat)       -- 18
  | module (n : Nat)                -- 19
  | package (n : Nat)               -- 20
  deriving DecidableEq, Repr

/-- `JavaConstantPool.consts`; `none` is the `(None, None)` slot. -/
abbrev Pool := List (Option Const)

/-- javatools/__init__.py:2124-2134: decode the bytes of a Utf8 constant. -/
def decodeUtf8Const (raw : Bytes) : Str :=
  match decodeStrict raw with
  | some s => s
  | none => decodeIgnore (replaceC080 raw)

/-- javatools/__init__.py:2115-2167 `_unpack_const_item`. -/
def unpackConstItem : Prog Const :=
  u1.bind fun t =>
  if t = 1 then u2.bind fun n => (readBytes n).bind fun raw => .ret (.utf8 (decodeUtf8Const raw))
  else if t = 3 then .read (some ">i") 4 fun bs => .ret (.integer (toSigned 4 (beNat bs)))
  else if t = 4 then .read (some ">f") 4 fun bs => .ret (.float (beNat bs))
  else if t = 5 then .read (some ">q") 8 fun bs => .ret (.long (toSigned 8 (beNat bs)))
  else if t = 6 then .read (some ">d") 8 fun bs => .ret (.double (beNat bs))
  else if t = 7 then u2.bind fun n => .ret (.cls n)
  else if t = 8 then u2.bind fun n => .ret (.string n)
  else if t = 16 then u2.bind fun n => .ret (.methodType n)
  else if t = 19 then u2.bind fun n => .ret (.module n)
  else if t = 20 then u2.bind fun n => .ret (.package n)
  else if t = 9 then u2u2.bind fun p => .ret (.fieldref p.1 p.2)
  else if t = 10 then u2u2.bind fun p => .ret (.methodref p.1 p.2)
  else if t = 11 then u2u2.bind fun p => .ret (.ifaceMethodref p.1 p.2)
  else if t = 12 then u2u2.bind fun p => .ret (.nameAndType p.1 p.2)
  else if t = 13 then u2u2.bind fun p => .ret (.moduleId p.1 p.2)
  else if t = 18 then u2u2.bind fun p => .ret (.invokeDynamic p.1 p.2)
  else if t = 17 then u2u2.bind fun p => .ret (.dynamic p.1 p.2)
  else if t = 15 then u1u2.bind fun p => .ret (.methodHandle p.1 p.2)
  else .fail .unknownTag

/-- `item[0] in (CONST_Long, CONST_Double)`, javatools/__init__.py:221 -/
def Const.isWide : Const → Bool
  | .long _ => true
  | .double _ => true
  | _ => false

/-- The loop of javatools/__init__.py:206-222; the flag is `hackpass`. -/
def poolLoop : Nat → Bool → Prog Pool
  | 0, _ => .ret []
  | n + 1, true => (poolLoop n false).bind fun r => .ret (none :: r)
  | n + 1, false => unpackConstItem.bind fun c =>
      (poolLoop n c.isWide).bind fun r => .ret (some c :: r)

/-- javatools/__init__.py:192-224 `JavaConstantPool.unpack`. -/
def unpackPool : Prog Pool :=
  u2.bind fun count => (poolLoop (count - 1) false).bind fun r => .ret (none :: r)

/-- javatools/__init__.py:235-301 `deref_const`. `lim` is the number of nested calls the
Python recursion limit still allows. -/
def deref (pool : Pool) : Nat → Nat → Res PVal
  | 0, _ => .error .recursionError
  | lim + 1, index =>
    if index = 0 then .error .indexError
    else
      match pool[index]? with
      | none => .error .indexError
      | some none => .error .unknownTag
      | some (some c) =>
        match c with
        | .utf8 s => .ok (.str s)
        | .integer v => .ok (.int v)
        | .float b => .ok (.flt (float32 b))
        | .long v => .ok (.int v)
        | .double b => .ok (.flt (float64 b))
        | .cls n | .string n | .methodType n | .module n | .package n => deref pool lim n
        | .fieldref a b | .methodref a b | .ifaceMethodref a b | .nameAndType a b
        | .moduleId a b => do
            let x ← deref pool lim a
            let y ← deref pool lim b
            .ok (.pair x y)
        | .invokeDynamic a b | .dynamic a b | .methodHandle a b => do
            let y ← deref pool lim b
            .ok (.pair (.int a) y)

/-! ### Attributes, members, class -/

/-- javatools/__init__.py:421-445 `JavaAttributes`. -/
abbrev Attribs := PyDict PVal Bytes

/-- One iteration of javatools/__init__.py:443-445 (the right-hand side `read(size)` is
evaluated before the subscript `cval(name)`). -/
def unpackAttr (pool : Pool) (lim : Nat) : Prog (PVal × Bytes) :=
  u2u4.bind fun h => (readBytes h.2).bind fun buf =>
    (Prog.lift (deref pool lim h.1)).bind fun k => .ret (k, buf)

/-- javatools/__init__.py:433-445 `JavaAttributes.unpack` -/
def unpackAttribs (pool : Pool) (lim : Nat) : Prog Attribs :=
  (counted (unpackAttr pool lim)).bind fun ps => .ret (PyDict.ofPairs ps)

/-- `get_attribute(name)`, javatools/__init__.py:483-488, 1049-1054, 1636-1641 -/
def getAttribute (a : Attribs) (name : String) : Option Bytes :=
  PyDict.get? a (PVal.str name.toList)

/-- javatools/__init__.py:1023-1038 `JavaMemberInfo`. -/
structure Member where
  access : Nat
  nameRef : Nat
  descRef : Nat
  attribs : Attribs
  isMethod : Bool
  deriving DecidableEq, Repr

/-- javatools/__init__.py:1096-1106 `JavaMemberInfo.unpack` -/
def unpackMember (pool : Pool) (lim : Nat) (isMethod : Bool) : Prog Member :=
  u2u2u2.bind fun h => (unpackAttribs pool lim).bind fun a =>
    .ret ⟨h.1, h.2.1, h.2.2, a, isMethod⟩

/-- javatools/__init__.py:448-472 `JavaClassInfo`. -/
structure ClassInfo where
  version : Nat × Nat          -- (major, minor)
  pool : Pool
  access : Nat
  thisRef : Nat
  superRef : Nat
  interfaces : List Nat
  fields : List Member
  methods : List Member
  attribs : Attribs
  deriving DecidableEq, Repr

/-- `unpack_struct(_BBBB)` -/
def readMagic : Prog Bytes := .read (some ">BBBB") 4 .ret

/-- javatools/__init__.py:74 -/
def javaMagic : Bytes := [0xCA, 0xFE, 0xBA, 0xBE]

/-- javatools/__init__.py:514-540, the part of `JavaClassInfo.unpack` after the magic. -/
def unpackClassBody (lim : Nat) : Prog ClassInfo :=
  u2u2.bind fun v =>
  unpackPool.bind fun pool =>
  u2u2u2.bind fun h =>
  u2.bind fun nifs =>
  (u2s nifs).bind fun ifs =>
  (counted (unpackMember pool lim false)).bind fun fields =>
  (counted (unpackMember pool lim true)).bind fun methods =>
  (unpackAttribs pool lim).bind fun attribs =>
  .ret ⟨(v.2, v.1), pool, h.1, h.2.1, h.2.2, ifs, fields, methods, attribs⟩

/-- javatools/__init__.py:2432-2456 `unpack_class(data)` (with `magic=None`), as a decoding
routine; the second check inside `JavaClassInfo.unpack` (:501-512) cannot fail then. -/
def unpackClassProg (lim : Nat) : Prog ClassInfo :=
  readMagic.bind fun m => if m ≠ javaMagic then .fail .classUnpack else unpackClassBody lim

/-- `unpack_class(data)` -/
def unpackClass (lim : Nat) (src : Source) : Res ClassInfo := (unpackClassProg lim).runOn src

/-- javatools/__init__.py:2401-2416 `is_class` -/
def isClass (src : Source) : Res Bool :=
  match readMagic.runOn src with
  | .ok m => .ok (m == javaMagic)
  | .error (.unpack _ _ _) => .ok false
  | .error e => .error e

/-- javatools/__init__.py:2419-2429 `is_class_file`, on the file's content -/
def isClassFile (content : Bytes) : Bool := content.take 4 == javaMagic

/-! ### Code -/

/-- javatools/__init__.py:1792-1818 `JavaExceptionInfo` -/
structure ExcInfo where
  startPc : Nat
  endPc : Nat
  handlerPc : Nat
  catchRef : Nat
  deriving DecidableEq, Repr

/-- javatools/__init__.py:1807-1818 -/
def unpackExc : Prog ExcInfo := u2x4.bind fun q => .ret ⟨q.1, q.2.1, q.2.2.1, q.2.2.2⟩

/-- javatools/__init__.py:1606-1625 `JavaCodeInfo` -/
structure CodeInfo where
  maxStack : Nat
  maxLocals : Nat
  code : Bytes
  exceptions : List ExcInfo
  attribs : Attribs
  deriving DecidableEq, Repr

/-- javatools/__init__.py:1644-1659 `JavaCodeInfo.unpack` -/
def unpackCode (pool : Pool) (lim : Nat) : Prog CodeInfo :=
  u2u2u4.bind fun h => (readBytes h.2.2).bind fun code =>
  (counted unpackExc).bind fun excs => (unpackAttribs pool lim).bind fun a =>
  .ret ⟨h.1, h.2.1, code, excs, a⟩

/-- javatools/__init__.py:1371-1387 `get_code` -/
def Member.getCode (m : Member) (pool : Pool) (lim : Nat) : Res (Option CodeInfo) :=
  match getAttribute m.attribs "Code" with
  | none => .ok none
  | some buf => (unpackCode pool lim).run buf |>.map some

/-- javatools/__init__.py:1872-1898 `JavaInnerClassInfo` -/
structure InnerClassInfo where
  innerRef : Nat
  outerRef : Nat
  nameRef : Nat
  access : Nat
  deriving DecidableEq, Repr

/-- javatools/__init__.py:1888-1898 -/
def unpackInner : Prog InnerClassInfo := u2x4.bind fun q => .ret ⟨q.1, q.2.1, q.2.2.1, q.2.2.2⟩

/-- javatools/__init__.py:785-798 `get_innerclasses` -/
def ClassInfo.getInnerclasses (c : ClassInfo) : Res (List InnerClassInfo) :=
  match getAttribute c.attribs "InnerClasses" with
  | none => .ok []
  | some buf => (counted unpackInner).run buf

/-- javatools/__init__.py:1390-1404 `get_exceptions` (the generator dereferences each entry
right after reading it) -/
def Member.getExceptions (m : Member) (pool : Pool) (lim : Nat) : Res (List PVal) :=
  match getAttribute m.attribs "Exceptions" with
  | none => .ok []
  | some buf => (counted (u2.bind fun i => Prog.lift (deref pool lim i))).run buf

/-- javatools/__init__.py:1407-1422 `get_constantvalue` -/
def Member.getConstantvalue (m : Member) : Res (Option Nat) :=
  match getAttribute m.attribs "ConstantValue" with
  | none => .ok none
  | some buf => (u2.run buf).map some

/-- javatools/__init__.py:1425-1434 `deref_constantvalue` -/
def Member.derefConstantvalue (m : Member) (pool : Pool) (lim : Nat) : Res (Option PVal) := do
  match ← m.getConstantvalue with
  | none => .ok none
  | some i => (deref pool lim i).map some

/-- javatools/__init__.py:1341-1356 `get_annotationdefault` -/
def Member.getAnnotationdefault (m : Member) : Res (Option Nat) :=
  match getAttribute m.attribs "AnnotationDefault" with
  | none => .ok none
  | some buf => (u2.run buf).map some

/-- `get_sourcefile`, `get_signature` (class and member), javatools/__init__.py:757-772,
801-815, 1057-1070: a u2 index, dereferenced. -/
def derefAttr (a : Attribs) (pool : Pool) (lim : Nat) (name : String) : Res (Option PVal) := do
  match getAttribute a name with
  | none => .ok none
  | some buf => do
    let i ← u2.run buf
    let v ← deref pool lim i
    .ok (some v)

/-- `bool(self.get_attribute(name))`: false when absent and when empty. -/
def truthyAttr (a : Attribs) (name : String) : Bool :=
  match getAttribute a name with
  | none => false
  | some [] => false
  | some _ => true

/-- javatools/__init__.py:688-695, 1256-1263 `is_deprecated` -/
def isDeprecated (a : Attribs) : Bool := truthyAttr a "Deprecated"

/-- javatools/__init__.py:1229-1237 `is_synthetic` -/
def Member.isSynthetic (m : Member) : Bool :=
  (m.access &&& 0x1000) ≠ 0 || truthyAttr m.attribs "Synthetic"

/-- javatools/__init__.py:1109-1114 -/
def Member.getName (m : Member) (pool : Pool) (lim : Nat) : Res PVal := deref pool lim m.nameRef

/-- javatools/__init__.py:1117-1122 -/
def Member.getDescriptor (m : Member) (pool : Pool) (lim : Nat) : Res PVal :=
  deref pool lim m.descRef

/-- javatools/__init__.py:680-685 -/
def ClassInfo.getThis (c : ClassInfo) (lim : Nat) : Res PVal := deref c.pool lim c.thisRef

/-- javatools/__init__.py:698-703: "" when there is no super class -/
def ClassInfo.getSuper (c : ClassInfo) (lim : Nat) : Res PVal :=
  if c.superRef = 0 then .ok (.str []) else deref c.pool lim c.superRef

/-- javatools/__init__.py:706-711 -/
def ClassInfo.getInterfaces (c : ClassInfo) (lim : Nat) : Res (List PVal) :=
  c.interfaces.mapM (deref c.pool lim)

end Javatools
