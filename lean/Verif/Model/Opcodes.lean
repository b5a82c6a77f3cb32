import Verif.Model.Pack
/-
Model of javatools/opcodes.py: the opcode table, the operand unpackers and `disassemble`.

CPython facts relied on: `Struct.unpack_from(buf, off)` raises `struct.error` unless at least
`size` bytes are present from `off`; `ord(b"")` raises `TypeError`; `range` of a negative
number is empty; a generator that raises has already yielded its earlier items.
-/
namespace Javatools

/-- The `fmt` of an op (javatools/opcodes.py:113-117): no operands, a struct format, or one of
the three unpacking functions. -/
inductive ArgFmt where
  | none
  | struct (cs : List FmtCode)
  | lookupswitch
  | tableswitch
  | wide
  deriving DecidableEq, Repr

/-- The operand tuple registered by `__op` (javatools/opcodes.py:105-127). `consume` and
`produce` are never given nor read, so they are left out. -/
structure OpDef where
  name : Str
  val : Nat
  fmt : ArgFmt
  const : Bool
  deriving DecidableEq, Repr

/-- javatools/opcodes.py:265-481, the calls of `__op` in source order. -/
def opDefs : List OpDef := [
  ⟨"aaload".toList, 0x32, .none, false⟩,
  ⟨"aastore".toList, 0x53, .none, false⟩,
  ⟨"aconst_null".toList, 0x1, .none, false⟩,
  ⟨"aload".toList, 0x19, .struct [.B], false⟩,
  ⟨"aload_0".toList, 0x2a, .none, false⟩,
  ⟨"aload_1".toList, 0x2b, .none, false⟩,
  ⟨"aload_2".toList, 0x2c, .none, false⟩,
  ⟨"aload_3".toList, 0x2d, .none, false⟩,
  ⟨"anewarray".toList, 0xbd, .struct [.H], true⟩,
  ⟨"areturn".toList, 0xb0, .none, false⟩,
  ⟨"arraylength".toList, 0xbe, .none, false⟩,
  ⟨"astore".toList, 0x3a, .struct [.B], false⟩,
  ⟨"astore_0".toList, 0x4b, .none, false⟩,
  ⟨"astore_1".toList, 0x4c, .none, false⟩,
  ⟨"astore_2".toList, 0x4d, .none, false⟩,
  ⟨"astore_3".toList, 0x4e, .none, false⟩,
  ⟨"athrow".toList, 0xbf, .none, false⟩,
  ⟨"baload".toList, 0x33, .none, false⟩,
  ⟨"bastore".toList, 0x54, .none, false⟩,
  ⟨"bipush".toList, 0x10, .struct [.B], false⟩,
  ⟨"caload".toList, 0x34, .none, false⟩,
  ⟨"castore".toList, 0x55, .none, false⟩,
  ⟨"checkcast".toList, 0xc0, .struct [.H], true⟩,
  ⟨"d2f".toList, 0x90, .none, false⟩,
  ⟨"d2i".toList, 0x8e, .none, false⟩,
  ⟨"d2l".toList, 0x8f, .none, false⟩,
  ⟨"dadd".toList, 0x63, .none, false⟩,
  ⟨"daload".toList, 0x31, .none, false⟩,
  ⟨"dastore".toList, 0x52, .none, false⟩,
  ⟨"dcmpg".toList, 0x98, .none, false⟩,
  ⟨"dcmpl".toList, 0x97, .none, false⟩,
  ⟨"dconst_0".toList, 0xe, .none, false⟩,
  ⟨"dconst_1".toList, 0xf, .none, false⟩,
  ⟨"ddiv".toList, 0x6f, .none, false⟩,
  ⟨"dload".toList, 0x18, .struct [.B], false⟩,
  ⟨"dload_0".toList, 0x26, .none, false⟩,
  ⟨"dload_1".toList, 0x27, .none, false⟩,
  ⟨"dload_2".toList, 0x28, .none, false⟩,
  ⟨"dload_3".toList, 0x29, .none, false⟩,
  ⟨"dmul".toList, 0x6b, .none, false⟩,
  ⟨"dneg".toList, 0x77, .none, false⟩,
  ⟨"drem".toList, 0x73, .none, false⟩,
  ⟨"dreturn".toList, 0xaf, .none, false⟩,
  ⟨"dstore".toList, 0x39, .struct [.B], false⟩,
  ⟨"dstore_0".toList, 0x47, .none, false⟩,
  ⟨"dstore_1".toList, 0x48, .none, false⟩,
  ⟨"dstore_2".toList, 0x49, .none, false⟩,
  ⟨"dstore_3".toList, 0x4a, .none, false⟩,
  ⟨"dsub".toList, 0x67, .none, false⟩,
  ⟨"dup".toList, 0x59, .none, false⟩,
  ⟨"dup_x1".toList, 0x5a, .none, false⟩,
  ⟨"dup_x2".toList, 0x5b, .none, false⟩,
  ⟨"dup2".toList, 0x5c, .none, false⟩,
  ⟨"dup2_x1".toList, 0x5d, .none, false⟩,
  ⟨"dup2_x2".toList, 0x5e, .none, false⟩,
  ⟨"f2d".toList, 0x8d, .none, false⟩,
  ⟨"f2i".toList, 0x8b, .none, false⟩,
  ⟨"f2l".toList, 0x8c, .none, false⟩,
  ⟨"fadd".toList, 0x62, .none, false⟩,
  ⟨"faload".toList, 0x30, .none, false⟩,
  ⟨"fastore".toList, 0x51, .none, false⟩,
  ⟨"fcmpg".toList, 0x96, .none, false⟩,
  ⟨"fcmpl".toList, 0x95, .none, false⟩,
  ⟨"fconst_0".toList, 0xb, .none, false⟩,
  ⟨"fconst_1".toList, 0xc, .none, false⟩,
  ⟨"fconst_2".toList, 0xd, .none, false⟩,
  ⟨"fdiv".toList, 0x6e, .none, false⟩,
  ⟨"fload".toList, 0x17, .struct [.B], false⟩,
  ⟨"fload_0".toList, 0x22, .none, false⟩,
  ⟨"fload_1".toList, 0x23, .none, false⟩,
  ⟨"fload_2".toList, 0x24, .none, false⟩,
  ⟨"fload_3".toList, 0x25, .none, false⟩,
  ⟨"fmul".toList, 0x6a, .none, false⟩,
  ⟨"fneg".toList, 0x76, .none, false⟩,
  ⟨"frem".toList, 0x72, .none, false⟩,
  ⟨"freturn".toList, 0xae, .none, false⟩,
  ⟨"fstore".toList, 0x38, .struct [.B], false⟩,
  ⟨"fstore_0".toList, 0x43, .none, false⟩,
  ⟨"fstore_1".toList, 0x44, .none, false⟩,
  ⟨"fstore_2".toList, 0x45, .none, false⟩,
  ⟨"fstore_3".toList, 0x46, .none, false⟩,
  ⟨"fsub".toList, 0x66, .none, false⟩,
  ⟨"getfield".toList, 0xb4, .struct [.H], true⟩,
  ⟨"getstatic".toList, 0xb2, .struct [.H], true⟩,
  ⟨"goto".toList, 0xa7, .struct [.h], false⟩,
  ⟨"goto_w".toList, 0xc8, .struct [.i], false⟩,
  ⟨"i2b".toList, 0x91, .none, false⟩,
  ⟨"i2c".toList, 0x92, .none, false⟩,
  ⟨"i2d".toList, 0x87, .none, false⟩,
  ⟨"i2f".toList, 0x86, .none, false⟩,
  ⟨"i2l".toList, 0x85, .none, false⟩,
  ⟨"i2s".toList, 0x93, .none, false⟩,
  ⟨"iadd".toList, 0x60, .none, false⟩,
  ⟨"iaload".toList, 0x2e, .none, false⟩,
  ⟨"iand".toList, 0x7e, .none, false⟩,
  ⟨"iastore".toList, 0x4f, .none, false⟩,
  ⟨"iconst_m1".toList, 0x2, .none, false⟩,
  ⟨"iconst_0".toList, 0x3, .none, false⟩,
  ⟨"iconst_1".toList, 0x4, .none, false⟩,
  ⟨"iconst_2".toList, 0x5, .none, false⟩,
  ⟨"iconst_3".toList, 0x6, .none, false⟩,
  ⟨"iconst_4".toList, 0x7, .none, false⟩,
  ⟨"iconst_5".toList, 0x8, .none, false⟩,
  ⟨"idiv".toList, 0x6c, .none, false⟩,
  ⟨"if_acmpeq".toList, 0xa5, .struct [.h], false⟩,
  ⟨"if_acmpne".toList, 0xa6, .struct [.h], false⟩,
  ⟨"if_icmpeq".toList, 0x9f, .struct [.h], false⟩,
  ⟨"if_icmpne".toList, 0xa0, .struct [.h], false⟩,
  ⟨"if_icmplt".toList, 0xa1, .struct [.h], false⟩,
  ⟨"if_icmpge".toList, 0xa2, .struct [.h], false⟩,
  ⟨"if_icmpgt".toList, 0xa3, .struct [.h], false⟩,
  ⟨"if_icmple".toList, 0xa4, .struct [.h], false⟩,
  ⟨"ifeq".toList, 0x99, .struct [.h], false⟩,
  ⟨"ifne".toList, 0x9a, .struct [.h], false⟩,
  ⟨"iflt".toList, 0x9b, .struct [.h], false⟩,
  ⟨"ifge".toList, 0x9c, .struct [.h], false⟩,
  ⟨"ifgt".toList, 0x9d, .struct [.h], false⟩,
  ⟨"ifle".toList, 0x9e, .struct [.h], false⟩,
  ⟨"ifnonnull".toList, 0xc7, .struct [.h], false⟩,
  ⟨"ifnull".toList, 0xc6, .struct [.h], false⟩,
  ⟨"iinc".toList, 0x84, .struct [.B, .b], false⟩,
  ⟨"iload".toList, 0x15, .struct [.B], false⟩,
  ⟨"iload_0".toList, 0x1a, .none, false⟩,
  ⟨"iload_1".toList, 0x1b, .none, false⟩,
  ⟨"iload_2".toList, 0x1c, .none, false⟩,
  ⟨"iload_3".toList, 0x1d, .none, false⟩,
  ⟨"imul".toList, 0x68, .none, false⟩,
  ⟨"ineg".toList, 0x74, .none, false⟩,
  ⟨"instanceof".toList, 0xc1, .struct [.H], true⟩,
  ⟨"invokedynamic".toList, 0xba, .struct [.H, .B, .B], true⟩,
  ⟨"invokeinterface".toList, 0xb9, .struct [.H, .B, .B], true⟩,
  ⟨"invokespecial".toList, 0xb7, .struct [.H], true⟩,
  ⟨"invokestatic".toList, 0xb8, .struct [.H], true⟩,
  ⟨"invokevirtual".toList, 0xb6, .struct [.H], true⟩,
  ⟨"ior".toList, 0x80, .none, false⟩,
  ⟨"irem".toList, 0x70, .none, false⟩,
  ⟨"ireturn".toList, 0xac, .none, false⟩,
  ⟨"ishl".toList, 0x78, .none, false⟩,
  ⟨"ishr".toList, 0x7a, .none, false⟩,
  ⟨"istore".toList, 0x36, .struct [.B], false⟩,
  ⟨"istore_0".toList, 0x3b, .none, false⟩,
  ⟨"istore_1".toList, 0x3c, .none, false⟩,
  ⟨"istore_2".toList, 0x3d, .none, false⟩,
  ⟨"istore_3".toList, 0x3e, .none, false⟩,
  ⟨"isub".toList, 0x64, .none, false⟩,
  ⟨"iushr".toList, 0x7c, .none, false⟩,
  ⟨"ixor".toList, 0x82, .none, false⟩,
  ⟨"jsr".toList, 0xa8, .struct [.h], false⟩,
  ⟨"jsr_w".toList, 0xc9, .struct [.i], false⟩,
  ⟨"l2d".toList, 0x8a, .none, false⟩,
  ⟨"l2f".toList, 0x89, .none, false⟩,
  ⟨"l2i".toList, 0x88, .none, false⟩,
  ⟨"ladd".toList, 0x61, .none, false⟩,
  ⟨"laload".toList, 0x2f, .none, false⟩,
  ⟨"land".toList, 0x7f, .none, false⟩,
  ⟨"lastore".toList, 0x50, .none, false⟩,
  ⟨"lcmp".toList, 0x94, .none, false⟩,
  ⟨"lconst_0".toList, 0x9, .none, false⟩,
  ⟨"lconst_1".toList, 0xa, .none, false⟩,
  ⟨"ldc".toList, 0x12, .struct [.B], true⟩,
  ⟨"ldc_w".toList, 0x13, .struct [.H], true⟩,
  ⟨"ldc2_w".toList, 0x14, .struct [.H], true⟩,
  ⟨"ldiv".toList, 0x6d, .none, false⟩,
  ⟨"lload".toList, 0x16, .struct [.B], false⟩,
  ⟨"lload_0".toList, 0x1e, .none, false⟩,
  ⟨"lload_1".toList, 0x1f, .none, false⟩,
  ⟨"lload_2".toList, 0x20, .none, false⟩,
  ⟨"lload_3".toList, 0x21, .none, false⟩,
  ⟨"lmul".toList, 0x69, .none, false⟩,
  ⟨"lneg".toList, 0x75, .none, false⟩,
  ⟨"lookupswitch".toList, 0xab, .lookupswitch, false⟩,
  ⟨"lor".toList, 0x81, .none, false⟩,
  ⟨"lrem".toList, 0x71, .none, false⟩,
  ⟨"lreturn".toList, 0xad, .none, false⟩,
  ⟨"lshl".toList, 0x79, .none, false⟩,
  ⟨"lshr".toList, 0x7b, .none, false⟩,
  ⟨"lstore".toList, 0x37, .struct [.B], false⟩,
  ⟨"lstore_0".toList, 0x3f, .none, false⟩,
  ⟨"lstore_1".toList, 0x40, .none, false⟩,
  ⟨"lstore_2".toList, 0x41, .none, false⟩,
  ⟨"lstore_3".toList, 0x42, .none, false⟩,
  ⟨"lsub".toList, 0x65, .none, false⟩,
  ⟨"lushr".toList, 0x7d, .none, false⟩,
  ⟨"lxor".toList, 0x83, .none, false⟩,
  ⟨"monitorentry".toList, 0xc2, .none, false⟩,
  ⟨"monitorexit".toList, 0xc3, .none, false⟩,
  ⟨"multianewarray".toList, 0xc5, .struct [.H, .B], false⟩,
  ⟨"new".toList, 0xbb, .struct [.H], true⟩,
  ⟨"newarray".toList, 0xbc, .struct [.B], false⟩,
  ⟨"nop".toList, 0x0, .none, false⟩,
  ⟨"pop".toList, 0x57, .none, false⟩,
  ⟨"pop2".toList, 0x58, .none, false⟩,
  ⟨"putfield".toList, 0xb5, .struct [.H], true⟩,
  ⟨"putstatic".toList, 0xb3, .struct [.H], true⟩,
  ⟨"ret".toList, 0xa9, .struct [.B], false⟩,
  ⟨"return".toList, 0xb1, .none, false⟩,
  ⟨"saload".toList, 0x35, .none, false⟩,
  ⟨"sastore".toList, 0x56, .none, false⟩,
  ⟨"sipush".toList, 0x11, .struct [.h], false⟩,
  ⟨"swap".toList, 0x5f, .none, false⟩,
  ⟨"tableswitch".toList, 0xaa, .tableswitch, false⟩,
  ⟨"wide".toList, 0xc4, .wide, false⟩]

/-- Keys of `__OPTABLE`: names and values share one dictionary. -/
inductive OpKey where
  | name (s : Str)
  | val (n : Nat)
  deriving DecidableEq, Repr

abbrev OpTable := PyDict OpKey OpDef

/-- javatools/opcodes.py:105-127 `__op`. `lower` is `str.lower`. -/
def opRegister (lower : Str → Str) (t : OpTable) (d : OpDef) : Res OpTable :=
  let name := lower d.name
  let d' := { d with name := name }
  if (t.get? (.name name)).isSome then .error .assertionError
  else if (t.get? (.val d.val)).isSome then .error .assertionError
  else .ok ((t.set (.name name) d').set (.val d.val) d')

/-- Importing the module: all the `__op` calls in order. -/
def opRegisterAll (lower : Str → Str) (t : OpTable) : List OpDef → Res OpTable
  | [] => .ok t
  | d :: ds =>
    match opRegister lower t d with
    | .ok t' => opRegisterAll lower t' ds
    | .error e => .error e

/-- `str.lower` restricted to ASCII. -/
def asciiLower (s : Str) : Str := s.map Char.toLower

/-- `__OPTABLE` after import, computed: `opRegisterAll` never fails on the table (proved in
Props/Opcodes.lean), so this is its value. -/
def opTable : OpTable := opDefs.flatMap fun d => [(.name d.name, d), (.val d.val, d)]

/-- `__OPTABLE[k]` -/
def opLookup (k : OpKey) : Res OpDef :=
  match opTable.get? k with
  | some d => .ok d
  | none => .error .keyError

/-- javatools/opcodes.py:130-135 -/
def getOpcodeByName (lower : Str → Str) (name : Str) : Res Nat :=
  (opLookup (.name (lower name))).map OpDef.val

/-- javatools/opcodes.py:138-143 -/
def getOpnameByCode (code : Nat) : Res Str := (opLookup (.val code)).map OpDef.name

/-- javatools/opcodes.py:146-151 -/
def getArgFormat (code : Nat) : Res ArgFmt := (opLookup (.val code)).map OpDef.fmt

/-- javatools/opcodes.py:154-159 -/
def hasConstArg (code : Nat) : Res Bool := (opLookup (.val code)).map OpDef.const

/-! ### operands -/

/-- The argument tuple of a disassembled instruction. -/
inductive Args where
  | ints (vs : List Int)
  | lookup (dflt : Int) (pairs : List (Int × Int))
  | table (dflt low high : Int) (joffs : List Int)
  deriving DecidableEq, Repr

/-- javatools/opcodes.py:162-168 `_unpack`. -/
def opUnpack (cs : List FmtCode) (bc : Bytes) (off : Nat) : Res (List Int × Nat) :=
  if bc.length < off + fmtSize cs then .error .structError
  else .ok (structUnpack cs ((bc.drop off).take (fmtSize cs)), off + fmtSize cs)

/-- javatools/opcodes.py:176-178, 195-197: skip to the next multiple of four. -/
def opAlign (off : Nat) : Nat :=
  let jump := off % 4
  if jump ≠ 0 then off + (4 - jump) else off

/-- `for _index in range(n): x, offset = _unpack(struct, bc, offset); list.append(x)`
(javatools/opcodes.py:182-185, 201-204). -/
def opUnpackMany (cs : List FmtCode) (bc : Bytes) : Nat → Nat → Res (List (List Int) × Nat)
  | 0, off => .ok ([], off)
  | n + 1, off =>
    match opUnpack cs bc off with
    | .error e => .error e
    | .ok (x, off') =>
      match opUnpackMany cs bc n off' with
      | .error e => .error e
      | .ok (xs, off'') => .ok (x :: xs, off'')

/-- A tuple unpacked by `">ii"`. -/
def asPair (xs : List Int) : Int × Int := (xs.getD 0 0, xs.getD 1 0)

/-- javatools/opcodes.py:171-187 -/
def unpackLookupswitch (bc : Bytes) (off : Nat) : Res (Args × Nat) :=
  match opUnpack [.i, .i] bc (opAlign off) with
  | .error e => .error e
  | .ok (hd, off1) =>
    let dflt := hd.getD 0 0
    let npairs := hd.getD 1 0
    match opUnpackMany [.i, .i] bc npairs.toNat off1 with
    | .error e => .error e
    | .ok (prs, off2) => .ok (.lookup dflt (prs.map asPair), off2)

/-- javatools/opcodes.py:190-206 -/
def unpackTableswitch (bc : Bytes) (off : Nat) : Res (Args × Nat) :=
  match opUnpack [.i, .i, .i] bc (opAlign off) with
  | .error e => .error e
  | .ok (hd, off1) =>
    let dflt := hd.getD 0 0
    let low := hd.getD 1 0
    let high := hd.getD 2 0
    match opUnpackMany [.i] bc ((high - low) + 1).toNat off1 with
    | .error e => .error e
    | .ok (js, off2) => .ok (.table dflt low high (js.map fun j => j.getD 0 0), off2)

/-- The opcodes `_unpack_wide` accepts besides iinc (javatools/opcodes.py:219-221): iload,
fload, aload, lload, dload, istore, fstore, astore, lstore, dstore, ret. -/
def wideOps : List Nat := [0x15, 0x17, 0x19, 0x16, 0x18, 0x36, 0x38, 0x3a, 0x37, 0x39, 0xa9]

/-- javatools/opcodes.py:209-228 -/
def unpackWide (bc : Bytes) (off : Nat) : Res (Args × Nat) :=
  match bc[off]? with
  | none => .error .typeError
  | some c =>
    if c.toNat = 0x84 then
      match opUnpack [.B, .H, .h] bc off with
      | .error e => .error e
      | .ok (vs, o) => .ok (.ints vs, o)
    else if c.toNat ∈ wideOps then
      match opUnpack [.B, .H] bc off with
      | .error e => .error e
      | .ok (vs, o) => .ok (.ints vs, o)
    else .error .assertionError

/-- javatools/opcodes.py:250-253: the operands for a given format. -/
def unpackArgs (fmt : ArgFmt) (bc : Bytes) (off : Nat) : Res (Args × Nat) :=
  match fmt with
  | .none => .ok (.ints [], off)
  | .struct cs =>
    match opUnpack cs bc off with
    | .error e => .error e
    | .ok (vs, o) => .ok (.ints vs, o)
  | .lookupswitch => unpackLookupswitch bc off
  | .tableswitch => unpackTableswitch bc off
  | .wide => unpackWide bc off

/-- One `(offset, code, args)` tuple. -/
structure Insn where
  off : Nat
  code : Nat
  args : Args
  deriving DecidableEq, Repr

/-- javatools/opcodes.py:241-255, the loop of the generator. The result is what was yielded
and the exception that ended it, if any. The first argument bounds the number of rounds; that
`disassemble` gives enough of them is `C28_terminates`. -/
def disasmLoop : Nat → Bytes → Nat → List Insn × Option PyErr
  | fuel, bc, off =>
    match bc[off]? with
    | none => ([], none)
    | some b =>
      match fuel with
      | 0 => ([], some (.other "diverges"))
      | fuel + 1 =>
        match getArgFormat b.toNat with
        | .error e => ([], some e)
        | .ok fmt =>
          match unpackArgs fmt bc (off + 1) with
          | .error e => ([], some e)
          | .ok (args, off') =>
            let (rest, err) := disasmLoop fuel bc off'
            (⟨off, b.toNat, args⟩ :: rest, err)

/-- javatools/opcodes.py:231-255 `disassemble`, as a generator run to its end. -/
def disassemble (bc : Bytes) : List Insn × Option PyErr := disasmLoop bc.length bc 0

/-- `list(disassemble(bytecode))` -/
def disassembleAll (bc : Bytes) : Res (List Insn) :=
  match disassemble bc with
  | (is, none) => .ok is
  | (_, some e) => .error e

end Javatools
