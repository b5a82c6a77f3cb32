import Verif.Model.ClassDiff
/-
Model of the remaining readers of javatools/__init__.py: the `magic` argument of
`unpack_class`, local variable tables, enclosing methods, exception handlers and
`pretty_deref_const`.

Simplifications: `fmt` and `repr` are Python's `%s` and `%r` formatting of a dereferenced
value, left abstract (a string is formatted as itself by `%s`); a component that is not a
string where the code needs one is an error here (see `PVal.asStr`).
-/
namespace Javatools

/-! ### The magic argument -/

/-- The `magic` argument of `unpack_class`: absent, a tuple of integers, a `bytes` object or a
`str`. -/
inductive MagicArg where
  | absent
  | tuple (ns : List Nat)
  | bytes (bs : Bytes)
  | str (s : Str)
  deriving DecidableEq, Repr

/-- Falsy values mean "read it" (`magic or ...`). -/
def MagicArg.truthy : MagicArg → Bool
  | .absent => false
  | .tuple ns => decide (ns ≠ [])
  | .bytes bs => decide (bs ≠ [])
  | .str s => decide (s ≠ [])

/-- `magic == JAVA_CLASS_MAGIC`: only a tuple equals a tuple. -/
def MagicArg.isMagicTuple : MagicArg → Bool
  | .tuple ns => decide (ns = javaMagic.map UInt8.toNat)
  | _ => false

/-- javatools/__init__.py:2432-2456 `unpack_class(data, magic)` -/
def unpackClassArg (lim : Nat) (magic : MagicArg) : Prog ClassInfo :=
  if magic.truthy then
    if magic.isMagicTuple then unpackClassBody lim else .fail .classUnpack
  else unpackClassProg lim

/-- javatools/__init__.py:504-507: `JavaClassInfo.unpack` turns its argument into a tuple
(`buffer` is `memoryview`, so `bytes` takes the second branch). -/
def MagicArg.asTuple : MagicArg → List Nat
  | .absent => []
  | .tuple ns => ns
  | .bytes bs => bs.map UInt8.toNat
  | .str s => s.map Char.toNat

/-- javatools/__init__.py:491-540 `JavaClassInfo.unpack(unpacker, magic)` -/
def classUnpackArg (lim : Nat) (magic : MagicArg) : Prog ClassInfo :=
  if magic.truthy then
    if magic.asTuple = javaMagic.map UInt8.toNat then unpackClassBody lim else .fail .classUnpack
  else unpackClassProg lim

/-! ### Tables -/

/-- `unpack_struct(_HHHHH)` -/
def u2x5 : Prog (Nat × Nat × Nat × Nat × Nat) := .read (some ">HHHHH") 10 fun bs =>
  .ret (beNat (bs.take 2), beNat ((bs.drop 2).take 2), beNat ((bs.drop 4).take 2),
    beNat ((bs.drop 6).take 2), beNat (bs.drop 8))

/-- javatools/__init__.py:1696-1709, 1712-1725 `get_localvariabletable` and
`get_localvariabletypetable` (by attribute name). -/
def CodeInfo.getVariableTable (c : CodeInfo) (attr : String) :
    Res (List (Nat × Nat × Nat × Nat × Nat)) :=
  match getAttribute c.attribs attr with
  | none => .ok []
  | some buf => (counted u2x5).run buf

/-- javatools/__init__.py:1901-1906 `JavaInnerClassInfo.get_name` -/
def InnerClassInfo.getName (i : InnerClassInfo) (pool : Pool) (lim : Nat) : Res PVal :=
  deref pool lim i.nameRef

/-! ### Enclosing method -/

/-- `a, b = v`: a pair, or a string of two characters. -/
def PVal.unpackTwo : PVal → Res (PVal × PVal)
  | .pair a b => .ok (a, b)
  | .str [a, b] => .ok (.str [a], .str [b])
  | .str _ => .error .valueError
  | _ => .error .typeError

/-- javatools/__init__.py:826-861 `get_enclosingmethod` -/
def ClassInfo.getEnclosingmethod (fmt : PVal → Str) (c : ClassInfo) (lim : Nat) :
    Res (Option PVal) :=
  match getAttribute c.attribs "EnclosingMethod" with
  | none => .ok none
  | some buf => do
    let p ← u2u2.run buf
    if p.1 ≠ 0 ∧ p.2 ≠ 0 then do
      let cls ← deref c.pool lim p.1
      let mt ← deref c.pool lim p.2
      let nt ← mt.unpackTwo
      .ok (some (.str (fmt cls ++ ".".toList ++ fmt nt.1 ++ fmt nt.2)))
    else if p.1 ≠ 0 then do
      let cls ← deref c.pool lim p.1
      .ok (some cls)
    else .ok none

/-! ### Exception handlers -/

/-- javatools/__init__.py:1833-1847 `pretty_catch_type` -/
def ExcInfo.prettyCatchType (e : ExcInfo) (pool : Pool) (lim : Nat) : Res Str := do
  match ← e.catchType pool lim with
  | none => .ok "any".toList
  | some (.str []) => .ok "any".toList
  | some v => do .ok ("Class ".toList ++ prettyClass (← v.asStr))

/-- javatools/__init__.py:1850-1856 `info` -/
def ExcInfo.info (e : ExcInfo) (pool : Pool) (lim : Nat) :
    Res (Nat × Nat × Nat × Option PVal) := do
  let ct ← e.catchType pool lim
  .ok (e.startPc, e.endPc, e.handlerPc, ct)

/-- javatools/__init__.py:1868-1869 `JavaExceptionInfo.__str__`: `",".join` over a tuple that
starts with three integers. -/
def ExcInfo.str (e : ExcInfo) (pool : Pool) (lim : Nat) : Res Str := do
  let _ ← e.info pool lim
  .error .typeError

/-! ### pretty_deref_const -/

/-- javatools/__init__.py:341-418 `pretty_deref_const`. A text is a `.str`. -/
def prettyDerefConst (fmt repr : PVal → Str) (pool : Pool) (lim index : Nat) : Res PVal :=
  match pool[index]? with
  | none => .error .indexError
  | some none => .ok (.str [])
  | some (some c) =>
    match c with
    | .string v => deref pool lim v
    | .utf8 s => .ok (.str s)
    | .integer v => .ok (.int v)
    | .float b => .ok (.flt (float32 b))
    | .long v => .ok (.int v)
    | .double b => .ok (.flt (float64 b))
    | .cls _ | .fieldref _ _ | .methodref _ _ | .ifaceMethodref _ _ =>
      (prettyDerefApi pool lim c).map PVal.str
    | .nameAndType a b => do
      let x ← deref pool lim a
      let y ← deref pool lim b
      let ts ← prettyTypeseq (← y.asStr)
      .ok (.str (fmt x ++ ":".toList ++ ts.flatten))
    | .moduleId a b => do
      let x ← deref pool lim a
      let y ← deref pool lim b
      .ok (.str (fmt x ++ "@".toList ++ fmt y))
    | .invokeDynamic a b => do
      let y ← deref pool lim b
      .ok (.str ("InvokeDynamic ".toList ++ repr (.int a) ++ " ".toList ++ repr y))
    | .dynamic a b => do
      let y ← deref pool lim b
      .ok (.str ("Dynamic ".toList ++ repr (.int a) ++ " ".toList ++ repr y))
    | .methodType _ => .error .typeError       -- `v[0]` of an integer
    | .module _ => .error .attributeError      -- `self.deref_cons`
    | .package _ => .error .attributeError
    | .methodHandle _ _ => .error .unknownTag

end Javatools
