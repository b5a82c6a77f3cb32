import Verif.Model.Info
import Verif.Model.Attrs
import Verif.Model.Annotation
import Verif.Model.Lines
/-
Model of the classinfo tool (javatools/classinfo.py) and of the texts it prints
(javatools/__init__.py `pretty_descriptor`, `pretty_annotation`, `_pretty_const_type_val`).
Standard output is a text; what a run gives is the text that was printed and the exception that
ended it, if any.
-/
namespace Javatools

/-! ### Output -/

/-- What was printed, and the exception that ended it, if any. -/
abbrev Out := List Char × Option PyErr

/-- `print(s, end="")` -/
def say (s : Str) : Out := (s, none)

/-- `print(s)` -/
def sayLine (s : Str) : Out := (s ++ ['\n'], none)

/-- Go on with a value, unless its computation raises. -/
def withRes {α : Type} (r : Res α) (k : α → Out) : Out :=
  match r with
  | .error e => ([], some e)
  | .ok a => k a

/-- One after the other, up to an exception. -/
def seqOut : List Out → Out
  | [] => ([], none)
  | o :: os => andThen o (seqOut os)

/-- Only under a condition. -/
def onlyIf (b : Bool) (o : Out) : Out := if b then o else ([], none)

/-! ### Formatting -/

/-- `"%i" % v`, `str(v)`, `repr(v)` -/
def intText : Int → Str
  | .ofNat n => natText n
  | .negSucc n => '-' :: natText (n + 1)

/-- `"% 4i" % n` -/
def padText (n : Nat) : Str :=
  let s := ' ' :: natText n
  List.replicate (4 - s.length) ' ' ++ s

/-- `x / y` to the nearest integer, halves to the even one. -/
def roundHalfEven (x y : Nat) : Nat :=
  let q := x / y
  let r := x % y
  if 2 * r < y then q
  else if y < 2 * r then q + 1
  else if q % 2 = 0 then q else q + 1

/-- So many digits, with zeros in front. -/
def zeroPad (w : Nat) (s : Str) : Str := List.replicate (w - s.length) '0' ++ s

/-- `"%f" % v` -/
def floatText : PyFloat → Str
  | .nan => "nan".toList
  | .inf neg => if neg then "-inf".toList else "inf".toList
  | .fin neg m e =>
    let scaled := m * 10 ^ 6
    let n := if 0 ≤ e then scaled * 2 ^ e.toNat else roundHalfEven scaled (2 ^ (-e).toNat)
    (if neg then ['-'] else []) ++ natText (n / 10 ^ 6) ++ ['.'] ++ zeroPad 6 (natText (n % 10 ^ 6))

/-- A hexadecimal digit. -/
def hexDigit (n : Nat) : Char := "0123456789abcdef".toList.getD n '0'

/-- So many hexadecimal digits. -/
def hexText : Nat → Nat → Str
  | 0, _ => []
  | k + 1, n => hexText k (n / 16) ++ [hexDigit (n % 16)]

/-- `repr` of one character inside quotes; `printable` is `str.isprintable`. -/
def reprChar (printable : Char → Bool) (quote c : Char) : Str :=
  if c = quote ∨ c = '\\' then ['\\', c]
  else if c = '\t' then "\\t".toList
  else if c = '\n' then "\\n".toList
  else if c = '\r' then "\\r".toList
  else if c.toNat < 0x20 ∨ c.toNat = 0x7f then "\\x".toList ++ hexText 2 c.toNat
  else if c.toNat < 0x7f then [c]
  else if printable c then [c]
  else if c.toNat ≤ 0xff then "\\x".toList ++ hexText 2 c.toNat
  else if c.toNat ≤ 0xffff then "\\u".toList ++ hexText 4 c.toNat
  else "\\U".toList ++ hexText 8 c.toNat

/-- `repr(s)[1:-1]` -/
def reprBody (printable : Char → Bool) (s : Str) : Str :=
  let quote := if '\'' ∈ s ∧ '"' ∉ s then '"' else '\''
  s.flatMap (reprChar printable quote)

/-- `bool(v)` -/
def PVal.truthy : PVal → Bool
  | .str s => !s.isEmpty
  | .int i => decide (i ≠ 0)
  | .flt (.fin _ m _) => decide (m ≠ 0)
  | .flt _ => true
  | .pair _ _ => true

/-- What the texts depend on. -/
structure PrintEnv where
  /-- recursion limits, see Model/ClassFile and Model/Annotation -/
  lim : Nat
  depth : Nat
  /-- `str.isprintable` of one character -/
  printable : Char → Bool
  /-- `str(v)` of a value that is not a string -/
  other : PVal → Str

/-- `str(v)` -/
def PrintEnv.str (E : PrintEnv) : PVal → Str
  | .str s => s
  | v => E.other v

/-- `str(v)` of a value or `None` -/
def PrintEnv.strOpt (E : PrintEnv) : Option PVal → Str
  | none => "None".toList
  | some v => E.str v

variable (E : PrintEnv)

/-! ### Constants -/

/-- javatools/__init__.py:2170-2231 `_pretty_const_type_val`: type and text (an integer is printed as
its decimal text). -/
def constText : Const → Res (Str × Str)
  | .utf8 s => .ok ("Utf8".toList, reprBody E.printable s)
  | .integer v => .ok ("int".toList, intText v)
  | .float b => .ok ("float".toList, floatText (float32 b) ++ ['f'])
  | .long v => .ok ("long".toList, intText v ++ ['l'])
  | .double b => .ok ("double".toList, floatText (float64 b) ++ ['d'])
  | .cls n => .ok ("class".toList, '#' :: natText n)
  | .string n => .ok ("String".toList, '#' :: natText n)
  | .fieldref a b => .ok ("Field".toList, '#' :: natText a ++ ".#".toList ++ natText b)
  | .methodref a b => .ok ("Method".toList, '#' :: natText a ++ ".#".toList ++ natText b)
  | .ifaceMethodref a b => .ok ("InterfaceMethod".toList, '#' :: natText a ++ ".#".toList ++ natText b)
  | .nameAndType a b => .ok ("NameAndType".toList, '#' :: natText a ++ ":#".toList ++ natText b)
  | .moduleId a b => .ok ("ModuleId".toList, '#' :: natText a ++ "@#".toList ++ natText b)
  | .methodHandle k i => .ok ("MethodHandle".toList, '(' :: natText k ++ ", ".toList ++ natText i ++ [')'])
  | .methodType n => .ok ("MethodType".toList, natText n)
  | .invokeDynamic a b => .ok ("InvokeDynamic".toList, '(' :: natText a ++ ", ".toList ++ natText b ++ [')'])
  | .module n => .ok ("Module".toList, natText n)
  | .package n => .ok ("Package".toList, natText n)
  | .dynamic _ _ => .error .unknownTag

/-- javatools/__init__.py:328-338 `pretty_const(index)` with the texts; `none` is `(None, None)`. -/
def poolText (pool : Pool) (i : Nat) : Res (Option (Str × Str)) :=
  match pool[i]? with
  | none => .error .indexError
  | some none => .ok none
  | some (some c) => (constText E c).map some

/-- javatools/classinfo.py:265: the line for a constant. -/
def constLine (i : Nat) (p : Str × Str) : Str :=
  "const #".toList ++ natText i ++ " = ".toList ++ p.1 ++ ['\t'] ++ p.2 ++ [';']

/-- javatools/classinfo.py:260-265: the loop, for the slots from index `i` on. -/
def constLines : Nat → Pool → Out
  | _, [] => ([], none)
  | i, none :: rest => constLines (i + 1) rest
  | i, some c :: rest =>
    withRes (constText E c) fun p => andThen (sayLine (constLine i p)) (constLines (i + 1) rest)

/-- javatools/classinfo.py:252-266 -/
def printPool (pool : Pool) : Out :=
  seqOut [sayLine "  Constants pool:".toList, constLines E 1 (pool.drop 1), sayLine []]

/-! ### Annotations -/

/-- javatools/__init__.py:1933-1934 `pretty_type` -/
def annoType (pool : Pool) (typeRef : Nat) : Res Str :=
  match deref pool E.lim typeRef with
  | .error e => .error e
  | .ok v =>
    match v.asStr with
    | .error e => .error e
    | .ok s => prettyType s

/-- javatools/__init__.py:2066-2067: an annotation inside an annotation has the `@`. -/
def atSign : AVal → Str → Str
  | .anno _ _, s => '@' :: s
  | _, s => s

mutual
/-- javatools/__init__.py:2051-2076 `_pretty_annotation_val`; for an annotation :1947-1950
`pretty_annotation`, without the `@`. -/
def annoText (pool : Pool) : AVal → Res Str
  | .const t i => .ok (Char.ofNat t :: '#' :: natText i)
  | .enum a b => .ok ("e#".toList ++ natText a ++ ".#".toList ++ natText b)
  | .anno t es =>
    match annoType E pool t with
    | .error e => .error e
    | .ok name =>
      match annoElems pool es with
      | .error e => .error e
      | .ok ts => .ok (name ++ "(".toList ++ joinWith ", ".toList ts ++ ")".toList)
  | .arr vs =>
    match annoVals pool vs with
    | .error e => .error e
    | .ok ts => .ok ("[".toList ++ joinWith ", ".toList ts ++ "]".toList)
/-- javatools/__init__.py:1937-1944 `pretty_elements` -/
def annoElems (pool : Pool) : List (PVal × AVal) → Res (List Str)
  | [] => .ok []
  | kv :: rest =>
    match annoElem pool kv with
    | .error e => .error e
    | .ok t =>
      match annoElems pool rest with
      | .error e => .error e
      | .ok ts => .ok (t :: ts)
/-- javatools/__init__.py:1943-1944: one element. -/
def annoElem (pool : Pool) : PVal × AVal → Res Str
  | (k, v) =>
    match annoText pool v with
    | .error e => .error e
    | .ok t => .ok (E.str k ++ "=".toList ++ atSign v t)
/-- The loop javatools/__init__.py:2070-2073 -/
def annoVals (pool : Pool) : List AVal → Res (List Str)
  | [] => .ok []
  | v :: rest =>
    match annoText pool v with
    | .error e => .error e
    | .ok t =>
      match annoVals pool rest with
      | .error e => .error e
      | .ok ts => .ok (atSign v t :: ts)
end

/-- javatools/classinfo.py:86-88, 109-111, 240-242: `index` stays 0. -/
def annoLines (pool : Pool) : List AVal → Out
  | [] => ([], none)
  | a :: rest =>
    withRes (annoText E pool a) fun s =>
      andThen (sayLine ("  ".toList ++ natText 0 ++ ": ".toList ++ s)) (annoLines pool rest)

/-- javatools/classinfo.py:84-88, 107-111, 238-242 -/
def printAnnotations (pool : Pool) (a : Attribs) : Out :=
  withRes (getAnnotations a pool E.lim E.depth "RuntimeVisibleAnnotations") fun as =>
    onlyIf (!as.isEmpty)
      (andThen (sayLine "  RuntimeVisibleAnnotations:".toList) (annoLines E pool as))

/-! ### Descriptors -/

/-- `_pretty_class` of each value -/
def classTexts : List PVal → Res (List Str)
  | [] => .ok []
  | v :: vs =>
    match v.asStr with
    | .error e => .error e
    | .ok s =>
      match classTexts vs with
      | .error e => .error e
      | .ok ts => .ok (prettyClass s :: ts)

/-- `" ".join` of the keywords -/
def keywords (ws : List String) : Str := joinWith " ".toList (ws.map String.toList)

/-- javatools/__init__.py:1562-1567 `pretty_exceptions`, fully consumed -/
def Member.prettyExceptions (m : Member) (pool : Pool) (lim : Nat) : Res (List Str) :=
  match m.getExceptions pool lim with
  | .error e => .error e
  | .ok vs => classTexts vs

/-- javatools/__init__.py:1485-1509 `pretty_descriptor` of a member -/
def Member.prettyDescriptor (m : Member) (pool : Pool) (lim : Nat) : Res Str := do
  let f := keywords (m.prettyAccessFlags false)
  let p ← m.prettyType pool lim
  let n ← m.name pool lim
  let t := joinWith ",".toList (← m.prettyExceptions pool lim)
  let p := if n = "<init>".toList then [] else p
  let n ← (if m.isMethod then do
      let args ← m.prettyArgTypes pool lim
      Except.ok (n ++ "(".toList ++ joinWith ",".toList args ++ ")".toList)
    else Except.ok n : Res Str)
  let t := if t.isEmpty then [] else "throws ".toList ++ t
  .ok (joinWith " ".toList ([f, p, n, t].filter fun z => !z.isEmpty))

/-- `pretty_this` -/
def ClassInfo.prettyThis (c : ClassInfo) (lim : Nat) : Res Str := do
  .ok (prettyClass (← (← c.getThis lim).asStr))

/-- javatools/__init__.py:916-933 `pretty_descriptor` of a class -/
def ClassInfo.prettyDescriptor (c : ClassInfo) (lim : Nat) : Res Str := do
  let f := keywords c.prettyAccessFlags
  let f := if c.isInterface then f else f ++ " class".toList
  let n ← c.prettyThis lim
  let e := prettyClass (← (← c.getSuper lim).asStr)
  let i := joinWith ",".toList (← classTexts (← c.getInterfaces lim))
  if i.isEmpty then .ok (f ++ " ".toList ++ n ++ " extends ".toList ++ e)
  else .ok (f ++ " ".toList ++ n ++ " extends ".toList ++ e ++ " implements ".toList ++ i)

/-! ### Options -/

/-- The namespace of the tool. -/
structure InfoArgs where
  /-- `SHOW_HEADER` 0, `SHOW_PUBLIC` 1, `SHOW_PACKAGE` 3, `SHOW_PRIVATE` 7 -/
  level : Nat := 1
  lines : Bool := false
  locals : Bool := false
  disassemble : Bool := false
  sigs : Bool := false
  constpool : Bool := false
  verbose : Bool := false
  classProvides : Bool := false
  classRequires : Bool := false
  apiIgnore : List Str := []
  json : Bool := false

/-- javatools/classinfo.py:387-393: `--verbose` sets `-locsp`. -/
def InfoArgs.norm (o : InfoArgs) : InfoArgs :=
  if o.verbose then
    { o with lines := true, locals := true, disassemble := true, sigs := true, constpool := true }
  else o

/-- javatools/classinfo.py:395-399 -/
def InfoArgs.indent (o : InfoArgs) : Bool := !(o.lines || o.disassemble || o.sigs)

/-- javatools/classinfo.py:57-70 `should_show`, as a truth value -/
def shouldShow (o : InfoArgs) (m : Member) : Bool :=
  if o.level = 1 then m.isPublic
  else if o.level = 3 then m.isPublic || m.isProtected
  else if o.level = 7 then true
  else false

/-! ### Members -/

section
variable (o : InfoArgs) (pool : Pool)

/-- javatools/classinfo.py:75-81, 99-105: the line of a member and its signature. -/
def printHead (m : Member) : Out :=
  seqOut [
    onlyIf o.indent (say "   ".toList),
    withRes (m.prettyDescriptor pool E.lim) fun d => sayLine (d ++ ";".toList),
    onlyIf o.sigs (withRes (derefAttr m.attribs pool E.lim "Signature") fun s =>
      sayLine ("  Signature: ".toList ++ E.strOpt s))]

/-- javatools/classinfo.py:90-94 -/
def printConstValue (m : Member) : Out :=
  withRes m.getConstantvalue fun cv =>
    match cv with
    | none => ([], none)
    | some i =>
      withRes (poolText E pool i) fun p =>
        match p with
        | none => ([], none)
        | some (t, v) => sayLine ("  Constant value: ".toList ++ t ++ " ".toList ++ v)

/-- javatools/classinfo.py:73-95 `print_field` -/
def printField (m : Member) : Out :=
  seqOut [
    printHead E o pool m,
    onlyIf o.verbose (seqOut [
      printAnnotations E pool m.attribs,
      printConstValue E pool m,
      sayLine []])]

/-- `str` of the operands of an instruction: `", ".join(str(arg) for arg in args)` -/
def argsText : Args → Str
  | .ints vs => joinWith ", ".toList (vs.map intText)
  | .lookup d ps => joinWith ", ".toList [intText d, "[".toList ++ joinWith ", ".toList
      (ps.map fun p => "(".toList ++ intText p.1 ++ ", ".toList ++ intText p.2 ++ ")".toList) ++
      "]".toList]
  | .table d lo hi js => joinWith ", ".toList [intText d, intText lo, intText hi,
      "[".toList ++ joinWith ", ".toList (js.map fun j => "(".toList ++ intText j ++ ",)".toList) ++
      "]".toList]

/-- javatools/classinfo.py:130-137: the line of one instruction. -/
def insnLine (i : Insn) : Res Str :=
  match getOpnameByCode i.code with
  | .error e => .error e
  | .ok name =>
    if i.args = .ints [] then .ok ("   ".toList ++ natText i.off ++ ":\t".toList ++ name)
    else .ok ("   ".toList ++ natText i.off ++ ":\t".toList ++ name ++ "\t".toList ++ argsText i.args)

/-- javatools/classinfo.py:130-137: the loop. -/
def insnLines : List Insn → Out
  | [] => ([], none)
  | i :: is => withRes (insnLine i) fun s => andThen (sayLine s) (insnLines is)

/-- javatools/classinfo.py:143-146: the loop over the exception table. -/
def excLines : List ExcInfo → Out
  | [] => ([], none)
  | e :: es =>
    withRes (e.prettyCatchType pool E.lim) fun t =>
      andThen (sayLine ("  ".toList ++ padText e.startPc ++ "\t".toList ++ padText e.endPc ++
        "\t".toList ++ padText e.handlerPc ++ "\t".toList ++ t)) (excLines es)

/-- javatools/classinfo.py:114-146: the code of a method. -/
def printCode (m : Member) (code : CodeInfo) : Out :=
  seqOut [
    sayLine "  Code:".toList,
    onlyIf o.verbose (withRes (m.argTypeDescriptors pool E.lim) fun as =>
      sayLine ("   Stack=".toList ++ natText code.maxStack ++ ", Locals=".toList ++
        natText code.maxLocals ++ ", Args_size=".toList ++
        natText (as.length + if m.isStatic then 0 else 1))),
    withRes code.disassemble insnLines,
    onlyIf (!code.exceptions.isEmpty) (seqOut [
      sayLine "  Exception table:".toList,
      sayLine "   from\tto\ttarget\ttype".toList,
      excLines E pool code.exceptions])]

/-- javatools/classinfo.py:165-166 -/
def lineLines : List (Nat × Nat) → Out
  | [] => ([], none)
  | (off, line) :: rest =>
    andThen (sayLine ("   line ".toList ++ natText line ++ ": ".toList ++ natText off)) (lineLines rest)

/-- `cval(n)` where `join` needs a string -/
def constStr (i : Nat) : Res Str :=
  match deref pool E.lim i with
  | .error e => .error e
  | .ok (.str s) => .ok s
  | .ok _ => .error .typeError

/-- javatools/classinfo.py:180-182, 187-189: the rows of a table of local variables. The two
constants are looked up before either is joined. -/
def localLines : List (Nat × Nat × Nat × Nat × Nat) → Out
  | [] => ([], none)
  | (off, len, n, d, i) :: rest =>
    withRes (deref pool E.lim n) fun _ => withRes (deref pool E.lim d) fun _ =>
    withRes (constStr E pool n) fun a => withRes (constStr E pool d) fun b =>
      andThen (sayLine ("   ".toList ++
        joinWith "\t".toList [natText off, natText len, natText i, a, b])) (localLines rest)

/-- javatools/classinfo.py:168-189: the tables of local variables. -/
def printLocals (code : CodeInfo) : Out :=
  withRes (code.getVariableTable "LocalVariableTable") fun lvt =>
  withRes (code.getVariableTable "LocalVariableTypeTable") fun lvtt =>
    seqOut [
      onlyIf (!lvt.isEmpty) (seqOut [
        sayLine "  LocalVariableTable:".toList,
        sayLine "   Start  Length  Slot\tName\tDescriptor".toList,
        localLines E pool lvt]),
      onlyIf (!lvtt.isEmpty) (seqOut [
        sayLine "  LocalVariableTypeTable:".toList,
        sayLine "   Start  Length  Slot\tName\tSignature".toList,
        localLines E pool lvtt])]

/-- javatools/classinfo.py:195-196 -/
def throwsLines : List PVal → Out
  | [] => ([], none)
  | v :: vs =>
    withRes v.asStr fun e =>
      andThen (sayLine ("   throws ".toList ++ prettyClass e)) (throwsLines vs)

/-- javatools/classinfo.py:191-198. `exps` is a generator, which is true even if it is empty. -/
def printThrows (m : Member) : Out :=
  withRes (m.getExceptions pool E.lim) fun vs =>
    seqOut [
      sayLine "  Exceptions:".toList,
      throwsLines vs,
      sayLine []]

/-- javatools/classinfo.py:98-198 `print_method` -/
def printMethod (m : Member) : Out :=
  seqOut [
    printHead E o pool m,
    printAnnotations E pool m.attribs,
    withRes (m.getCode pool E.lim) fun code =>
      seqOut [
        match code with
        | none => ([], none)
        | some code => onlyIf o.disassemble (printCode E o pool m code),
        onlyIf o.verbose (seqOut [
          onlyIf (isDeprecated m.attribs) (sayLine "  Deprecated: true".toList),
          onlyIf m.isSynthetic (sayLine "  Synthetic: true".toList),
          onlyIf m.isBridge (sayLine "  Bridge: true".toList),
          onlyIf m.isVarargs (sayLine "  Varargs: true".toList)]),
        match code with
        | none => ([], none)
        | some code => onlyIf o.lines (withRes code.getLinenumbertable fun lnt =>
            onlyIf (!lnt.isEmpty)
              (andThen (sayLine "  LineNumberTable:".toList) (lineLines lnt))),
        match code with
        | none => ([], none)
        | some code => onlyIf o.locals (printLocals E pool code),
        onlyIf o.verbose (printThrows E pool m)]]

end

/-! ### Classes -/

/-- `for x in xs: print(" ", x)` -/
def nameLines : List Str → Out
  | [] => ([], none)
  | x :: xs => andThen (sayLine ("  ".toList ++ x)) (nameLines xs)

section
variable (o : InfoArgs) (c : ClassInfo)

/-- javatools/classinfo.py:201-206 `cli_class_provides`, 209-214 `cli_class_requires`: `names` is
what `get_provides` or `get_requires` gives. -/
def printSymbols (word : String) (names : Res (List Str)) : Out :=
  withRes (c.prettyThis E.lim) fun n =>
    seqOut [
      sayLine ("class ".toList ++ n ++ " ".toList ++ word.toList ++ ":".toList),
      withRes names fun ns => seqOut [nameLines (sortNames ns), sayLine []]]

/-- javatools/classinfo.py:218-223: both, with what the first leaves in the caches. -/
def printApi : Out :=
  let p := getProvides fnmatch c E.lim o.apiIgnore false .empty
  let st := if o.classProvides then p.2 else ApiCache.empty
  seqOut [
    onlyIf o.classProvides (printSymbols E c "provides" p.1),
    onlyIf o.classRequires
      (printSymbols E c "requires" (getRequires fnmatch c E.lim o.apiIgnore st).1)]

/-- javatools/classinfo.py:231-250: what `--header` and `--verbose` add. -/
def printHeader : Out :=
  seqOut [
    sayLine [],
    withRes (derefAttr c.attribs c.pool E.lim "SourceFile") fun s =>
      match s with
      | some v => onlyIf v.truthy (sayLine ("  SourceFile: \"".toList ++ E.str v ++ "\"".toList))
      | none => ([], none),
    withRes (derefAttr c.attribs c.pool E.lim "Signature") fun s =>
      match s with
      | some v => onlyIf v.truthy (sayLine ("  Signature: ".toList ++ E.str v))
      | none => ([], none),
    printAnnotations E c.pool c.attribs,
    withRes (c.getEnclosingmethod E.str E.lim) fun s =>
      match s with
      | some v => onlyIf v.truthy (sayLine ("  EnclosingMethod: ".toList ++ E.str v))
      | none => ([], none),
    sayLine ("  minor version: ".toList ++ natText c.version.1),
    sayLine ("  major version: ".toList ++ natText c.version.2),
    sayLine ("  Platform: ".toList ++
      ((platformFromVersion c.version.1 c.version.2).getD "unknown").toList)]

/-- javatools/classinfo.py:271-281: the members. -/
def printMembers : Out :=
  seqOut [
    sayLine "{".toList,
    seqOut ((c.fields.filter (shouldShow o)).map (printField E o c.pool)),
    seqOut ((c.methods.filter (shouldShow o)).map (printMethod E o c.pool)),
    sayLine "}\n".toList]

/-- javatools/classinfo.py:217-283 `cli_print_classinfo` -/
def printClassinfo : Out :=
  if o.classProvides || o.classRequires then printApi E o c
  else
    seqOut [
      withRes (derefAttr c.attribs c.pool E.lim "SourceFile") fun s =>
        match s with
        | some v => onlyIf v.truthy (sayLine ("Compiled from \"".toList ++ E.str v ++ "\"".toList))
        | none => ([], none),
      withRes (c.prettyDescriptor E.lim) say,
      onlyIf (o.verbose || decide (o.level = 0)) (printHeader E c),
      onlyIf o.constpool (printPool E c.pool),
      onlyIf (!decide (o.level = 0)) (printMembers E o c)]

/-! ### JSON -/

/-- javatools/classinfo.py:326-339 `cli_simplify_fields`, `cli_simplify_methods`: the options are
passed as the member, and have no `get_name`. -/
def simplifyMembers (ms : List Member) : Res (List Unit) :=
  match ms.filter (shouldShow o) with
  | [] => .ok []
  | _ :: _ => .error .attributeError

/-- The values of the report, as far as they are strings, lists of strings or versions. -/
structure ClassJson where
  provides : Option (List Str)
  requires : Option (List Str)
  name : Str
  extends_ : Str
  implements : List Str
  sourceFile : Option PVal
  signature : Option PVal
  enclosingMethod : Option PVal
  version : Nat × Nat
  platform : Option String
  constants : Option (List (Nat × Str × Str))

/-- `tuple(info.cpool.pretty_constants())` with the texts -/
def poolTexts : Nat → Pool → Res (List (Nat × Str × Str))
  | _, [] => .ok []
  | i, none :: rest => poolTexts (i + 1) rest
  | i, some c :: rest =>
    match constText E c with
    | .error e => .error e
    | .ok p =>
      match poolTexts (i + 1) rest with
      | .error e => .error e
      | .ok ps => .ok ((i, p) :: ps)

/-- `ifonly`: only if it is true (javatools/classinfo.py:371-377) -/
def truthyOnly : Option PVal → Option PVal
  | some v => if v.truthy then some v else none
  | none => none

/-- javatools/classinfo.py:342-368 `cli_simplify_classinfo`. -/
def simplifyClassinfo : Res ClassJson := do
  let p := getProvides fnmatch c E.lim o.apiIgnore false .empty
  let provides ← (if o.classProvides then p.1.map some else .ok none : Res (Option (List Str)))
  let st := if o.classProvides then p.2 else ApiCache.empty
  let requires ← (if o.classRequires then (getRequires fnmatch c E.lim o.apiIgnore st).1.map some
    else .ok none : Res (Option (List Str)))
  let name ← c.prettyThis E.lim
  let super := prettyClass (← (← c.getSuper E.lim).asStr)
  let ifs ← classTexts (← c.getInterfaces E.lim)
  let src ← derefAttr c.attribs c.pool E.lim "SourceFile"
  let sig ← derefAttr c.attribs c.pool E.lim "Signature"
  let enc ← c.getEnclosingmethod E.str E.lim
  let consts ← (if o.constpool then (poolTexts E 1 (c.pool.drop 1)).map some
    else .ok none : Res (Option (List (Nat × Str × Str))))
  let _ ← simplifyMembers o c.fields
  let _ ← simplifyMembers o c.methods
  .ok { provides := provides, requires := requires, name := name, extends_ := super,
        implements := ifs, sourceFile := src, signature := truthyOnly sig,
        enclosingMethod := truthyOnly enc, version := c.version,
        platform := platformFromVersion c.version.1 c.version.2, constants := consts }

end

/-! ### The command line -/

/-- javatools/classinfo.py:286-288 `cli_print_class`, with what the file holds. -/
def printClass (o : InfoArgs) (content : Res Bytes) : Out :=
  withRes content fun b => withRes (unpackClass E.lim (.bytes b)) fun c => printClassinfo E o c

/-- javatools/classinfo.py:386-408 `cli` without `--json`: what is printed; the status is 0 unless
an exception ends it. -/
def classinfoCli (o : InfoArgs) (files : List (Res Bytes)) : Out :=
  seqOut (files.map (printClass E o.norm))

end Javatools
