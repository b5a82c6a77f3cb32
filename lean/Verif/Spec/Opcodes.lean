import Verif.Spec.Binary
/-
Specification: the JVM instruction set (JVMS chapters 6 and 7), independent of the model.
-/
namespace Javatools.Spec

/-- What an operand of a fixed-format instruction is. -/
inductive Operand where
  /-- one byte local variable index -/
  | local1
  /-- one byte constant pool index (ldc) -/
  | pool1
  /-- two byte constant pool index -/
  | pool2
  /-- signed one byte immediate -/
  | imm1
  /-- signed two byte immediate -/
  | imm2
  /-- signed two byte branch offset -/
  | branch2
  /-- signed four byte branch offset -/
  | branch4
  /-- unsigned byte: invokeinterface count, multianewarray dimensions, newarray type code, and
  the bytes that must be zero -/
  | byte
  deriving DecidableEq, Repr

def Operand.width : Operand → Nat
  | .local1 | .pool1 | .imm1 | .byte => 1
  | .pool2 | .imm2 | .branch2 => 2
  | .branch4 => 4

def Operand.signed : Operand → Bool
  | .imm1 | .imm2 | .branch2 | .branch4 => true
  | .local1 | .pool1 | .pool2 | .byte => false

def Operand.isPool : Operand → Bool
  | .pool1 | .pool2 => true
  | _ => false

/-- Values the operand can have. -/
def Operand.InRange (o : Operand) (v : Int) : Prop :=
  if o.signed then SRange o.width v else URange o.width v

/-- The operands of a fixed-format opcode; `none` for tableswitch, lookupswitch, wide and for
numbers that are not opcodes of the instruction set (JVMS chapter 7 leaves 203-255 unused or
reserved). -/
def operands (op : Nat) : Option (List Operand) :=
  if 201 < op then none
  else if op = 0x10 then some [.imm1]                                -- bipush
  else if op = 0x11 then some [.imm2]                                -- sipush
  else if op = 0x12 then some [.pool1]                               -- ldc
  else if op = 0x13 ∨ op = 0x14 then some [.pool2]                   -- ldc_w, ldc2_w
  else if 0x15 ≤ op ∧ op ≤ 0x19 then some [.local1]                  -- iload .. aload
  else if 0x36 ≤ op ∧ op ≤ 0x3a then some [.local1]                  -- istore .. astore
  else if op = 0x84 then some [.local1, .imm1]                       -- iinc
  else if 0x99 ≤ op ∧ op ≤ 0xa8 then some [.branch2]                 -- ifeq .. jsr
  else if op = 0xa9 then some [.local1]                              -- ret
  else if op = 0xaa ∨ op = 0xab ∨ op = 0xc4 then none
  else if 0xb2 ≤ op ∧ op ≤ 0xb8 then some [.pool2]                   -- getstatic .. invokestatic
  else if op = 0xb9 then some [.pool2, .byte, .byte]                 -- invokeinterface
  else if op = 0xba then some [.pool2, .byte, .byte]                 -- invokedynamic
  else if op = 0xbb then some [.pool2]                               -- new
  else if op = 0xbc then some [.byte]                                -- newarray
  else if op = 0xbd then some [.pool2]                               -- anewarray
  else if op = 0xc0 ∨ op = 0xc1 then some [.pool2]                   -- checkcast, instanceof
  else if op = 0xc5 then some [.pool2, .byte]                        -- multianewarray
  else if op = 0xc6 ∨ op = 0xc7 then some [.branch2]                 -- ifnull, ifnonnull
  else if op = 0xc8 ∨ op = 0xc9 then some [.branch4]                 -- goto_w, jsr_w
  else some []

/-- The opcodes `wide` may modify, apart from iinc. -/
def WideOp (op : Nat) : Prop := (0x15 ≤ op ∧ op ≤ 0x19) ∨ (0x36 ≤ op ∧ op ≤ 0x3a) ∨ op = 0xa9

/-- JVMS chapter 7, mnemonics by opcode. -/
def mnemonics : List String := [
  "nop", "aconst_null", "iconst_m1", "iconst_0", "iconst_1", "iconst_2", "iconst_3", "iconst_4",
  "iconst_5", "lconst_0", "lconst_1", "fconst_0", "fconst_1", "fconst_2", "dconst_0", "dconst_1",
  "bipush", "sipush", "ldc", "ldc_w", "ldc2_w",
  "iload", "lload", "fload", "dload", "aload",
  "iload_0", "iload_1", "iload_2", "iload_3", "lload_0", "lload_1", "lload_2", "lload_3",
  "fload_0", "fload_1", "fload_2", "fload_3", "dload_0", "dload_1", "dload_2", "dload_3",
  "aload_0", "aload_1", "aload_2", "aload_3",
  "iaload", "laload", "faload", "daload", "aaload", "baload", "caload", "saload",
  "istore", "lstore", "fstore", "dstore", "astore",
  "istore_0", "istore_1", "istore_2", "istore_3", "lstore_0", "lstore_1", "lstore_2", "lstore_3",
  "fstore_0", "fstore_1", "fstore_2", "fstore_3", "dstore_0", "dstore_1", "dstore_2", "dstore_3",
  "astore_0", "astore_1", "astore_2", "astore_3",
  "iastore", "lastore", "fastore", "dastore", "aastore", "bastore", "castore", "sastore",
  "pop", "pop2", "dup", "dup_x1", "dup_x2", "dup2", "dup2_x1", "dup2_x2", "swap",
  "iadd", "ladd", "fadd", "dadd", "isub", "lsub", "fsub", "dsub",
  "imul", "lmul", "fmul", "dmul", "idiv", "ldiv", "fdiv", "ddiv",
  "irem", "lrem", "frem", "drem", "ineg", "lneg", "fneg", "dneg",
  "ishl", "lshl", "ishr", "lshr", "iushr", "lushr", "iand", "land", "ior", "lor", "ixor", "lxor",
  "iinc",
  "i2l", "i2f", "i2d", "l2i", "l2f", "l2d", "f2i", "f2l", "f2d", "d2i", "d2l", "d2f",
  "i2b", "i2c", "i2s",
  "lcmp", "fcmpl", "fcmpg", "dcmpl", "dcmpg",
  "ifeq", "ifne", "iflt", "ifge", "ifgt", "ifle",
  "if_icmpeq", "if_icmpne", "if_icmplt", "if_icmpge", "if_icmpgt", "if_icmple",
  "if_acmpeq", "if_acmpne",
  "goto", "jsr", "ret", "tableswitch", "lookupswitch",
  "ireturn", "lreturn", "freturn", "dreturn", "areturn", "return",
  "getstatic", "putstatic", "getfield", "putfield",
  "invokevirtual", "invokespecial", "invokestatic", "invokeinterface", "invokedynamic",
  "new", "newarray", "anewarray", "arraylength", "athrow", "checkcast", "instanceof",
  "monitorenter", "monitorexit", "wide", "multianewarray", "ifnull", "ifnonnull",
  "goto_w", "jsr_w"]

/-- A JVM instruction. -/
inductive Instr where
  | fixed (op : Nat) (args : List Int)
  | tableswitch (dflt low high : Int) (offsets : List Int)
  | lookupswitch (dflt : Int) (pairs : List (Int × Int))
  | wide (op index : Nat)
  | wideIinc (index : Nat) (inc : Int)
  deriving DecidableEq, Repr

def Instr.opcode : Instr → Nat
  | .fixed op _ => op
  | .tableswitch .. => 0xaa
  | .lookupswitch .. => 0xab
  | .wide .. => 0xc4
  | .wideIinc .. => 0xc4

/-- Operands fit their encodings; a table has one offset per value. -/
def Instr.Valid : Instr → Prop
  | .fixed op args => ∃ os, operands op = some os ∧ os.length = args.length ∧
      ∀ p ∈ os.zip args, p.1.InRange p.2
  | .tableswitch d l h js => SRange 4 d ∧ SRange 4 l ∧ SRange 4 h ∧ l ≤ h ∧
      (js.length : Int) = h - l + 1 ∧ ∀ j ∈ js, SRange 4 j
  | .lookupswitch d ps => SRange 4 d ∧ SRange 4 ps.length ∧
      ∀ p ∈ ps, SRange 4 p.1 ∧ SRange 4 p.2
  | .wide op i => WideOp op ∧ i < 65536
  | .wideIinc i v => i < 65536 ∧ SRange 2 v

/-- Bytes between a switch opcode at `pos` and its first operand: the operands start at a
multiple of four. -/
def switchPad (pos : Nat) : Nat := (3 - pos % 4)

/-- The bytes of the operands of a fixed-format instruction. -/
def encArgs : List Operand → List Int → Bytes
  | o :: os, v :: vs => beInt o.width v ++ encArgs os vs
  | _, _ => []

/-- The encoding of an instruction at position `pos` of the code array (switch padding is zero
bytes). -/
def Instr.enc (pos : Nat) : Instr → Bytes
  | .fixed op args => UInt8.ofNat op :: encArgs ((operands op).getD []) args
  | .tableswitch d l h js => (0xaa : UInt8) :: (List.replicate (switchPad pos) 0 ++
      (beInt 4 d ++ beInt 4 l ++ beInt 4 h ++ js.flatMap (beInt 4)))
  | .lookupswitch d ps => (0xab : UInt8) :: (List.replicate (switchPad pos) 0 ++
      (beInt 4 d ++ beInt 4 ps.length ++ ps.flatMap fun p => beInt 4 p.1 ++ beInt 4 p.2))
  | .wide op i => [(0xc4 : UInt8), UInt8.ofNat op] ++ be 2 i
  | .wideIinc i v => [(0xc4 : UInt8), 0x84] ++ be 2 i ++ beInt 2 v

/-- The code array of a sequence of instructions starting at `pos`. -/
def encCode (pos : Nat) : List Instr → Bytes
  | [] => []
  | i :: is => i.enc pos ++ encCode (pos + (i.enc pos).length) is

/-- The positions of the instructions. -/
def positions (pos : Nat) : List Instr → List Nat
  | [] => []
  | i :: is => pos :: positions (pos + (i.enc pos).length) is

end Javatools.Spec
