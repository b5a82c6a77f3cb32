import Verif.Model.Descriptor
/-
Model of the remaining class/member accessors of javatools/__init__.py: access flags,
platform, member lookup, pretty constants, provided and required symbols.
-/
namespace Javatools

/-! ### Access flags -/

/-- `self.access_flags & mask`, as a truth value -/
def flag (access mask : Nat) : Bool := decide (access &&& mask ≠ 0)

namespace ClassInfo
variable (c : ClassInfo)
/-- javatools/__init__.py:621-626 -/ def isPublic := flag c.access 0x0001
/-- javatools/__init__.py:629-634 -/ def isFinal := flag c.access 0x0010
/-- javatools/__init__.py:637-645 -/ def isSuper := flag c.access 0x0020
/-- javatools/__init__.py:648-653 -/ def isInterface := flag c.access 0x0200
/-- javatools/__init__.py:656-661 -/ def isAbstract := flag c.access 0x0400
/-- javatools/__init__.py:664-669 -/ def isAnnotation := flag c.access 0x2000
/-- javatools/__init__.py:672-677 -/ def isEnum := flag c.access 0x4000

/-- javatools/__init__.py:864-889 `pretty_access_flags` -/
def prettyAccessFlags : List String :=
  (if c.isPublic then ["public"] else []) ++ (if c.isFinal then ["final"] else []) ++
  (if c.isAbstract then ["abstract"] else []) ++
  (if c.isInterface then (if c.isAnnotation then ["@interface"] else ["interface"]) else []) ++
  (if c.isEnum then ["enum"] else [])

end ClassInfo

namespace Member
variable (m : Member)
/-- javatools/__init__.py:1125-1130 -/ def isPublic := flag m.access 0x0001
/-- javatools/__init__.py:1133-1138 -/ def isPrivate := flag m.access 0x0002
/-- javatools/__init__.py:1141-1146 -/ def isProtected := flag m.access 0x0004
/-- javatools/__init__.py:1149-1154 -/ def isStatic := flag m.access 0x0008
/-- javatools/__init__.py:1157-1162 -/ def isFinal := flag m.access 0x0010
/-- javatools/__init__.py:1165-1170 -/ def isSynchronized := flag m.access 0x0020
/-- javatools/__init__.py:1173-1178 -/ def isNative := flag m.access 0x0100
/-- javatools/__init__.py:1181-1186 -/ def isAbstract := flag m.access 0x0400
/-- javatools/__init__.py:1189-1194 -/ def isStrict := flag m.access 0x0800
/-- javatools/__init__.py:1197-1202 -/ def isVolatile := flag m.access 0x0040
/-- javatools/__init__.py:1205-1210 -/ def isTransient := flag m.access 0x0080
/-- javatools/__init__.py:1221-1226 -/ def isVarargs := flag m.access 0x0080
/-- javatools/__init__.py:1240-1245 -/ def isEnum := flag m.access 0x4000
/-- javatools/__init__.py:1248-1253 -/ def isModule := flag m.access 0x8000

/-- javatools/__init__.py:1512-1559 `pretty_access_flags(showall)` -/
def prettyAccessFlags (showall : Bool) : List String :=
  (if m.isPublic then ["public"] else []) ++ (if m.isPrivate then ["private"] else []) ++
  (if m.isProtected then ["protected"] else []) ++ (if m.isStatic then ["static"] else []) ++
  (if m.isFinal then ["final"] else []) ++ (if m.isStrict then ["strict"] else []) ++
  (if m.isNative then ["native"] else []) ++ (if m.isAbstract then ["abstract"] else []) ++
  (if m.isEnum then ["enum"] else []) ++ (if m.isModule then ["module"] else []) ++
  (if showall && m.isSynthetic then ["synthetic"] else []) ++
  (if m.isMethod then
    (if m.isSynchronized then ["synchronized"] else []) ++
    (if showall && m.isBridge then ["bridge"] else []) ++
    (if showall && m.isVarargs then ["varargs"] else [])
  else
    (if m.isTransient then ["transient"] else []) ++
    (if m.isVolatile then ["volatile"] else []))

end Member

/-! ### Platform -/

/-- javatools/__init__.py:2085-2094 `_platforms` -/
def platforms : List ((Nat × Nat) × (Nat × Nat) × String) :=
  [((45, 0), (45, 3), "1.0.2"),
   ((45, 4), (45, 65535), "1.1"),
   ((46, 0), (46, 65535), "1.2"),
   ((47, 0), (47, 65535), "1.3"),
   ((48, 0), (48, 65535), "1.4"),
   ((49, 0), (49, 65535), "1.5"),
   ((50, 0), (50, 65535), "1.6"),
   ((51, 0), (51, 65535), "1.7"),
   ((52, 0), (52, 65535), "1.8")]

/-- `<=` of Python tuples of two numbers -/
def tupLe (a b : Nat × Nat) : Bool := decide (a.1 < b.1 ∨ (a.1 = b.1 ∧ a.2 ≤ b.2))

/-- `low <= v <= high`, javatools/__init__.py:2106 -/
def inRow (v : Nat × Nat) (row : (Nat × Nat) × (Nat × Nat) × String) : Bool :=
  tupLe row.1 v && tupLe v row.2.1

/-- javatools/__init__.py:2097-2108 `platform_from_version` -/
def platformFromVersion (major minor : Nat) : Option String :=
  (platforms.find? (inRow (major, minor))).map fun row => row.2.2

/-! ### Lookup -/

/-- The loop of javatools/__init__.py:543-551 `get_field_by_name` -/
def fieldByName (pool : Pool) (lim : Nat) (name : Str) : List Member → Res (Option Member)
  | [] => .ok none
  | f :: fs => do
    let n ← f.getName pool lim
    if n = .str name then .ok (some f) else fieldByName pool lim name fs

/-- javatools/__init__.py:543-551 -/
def ClassInfo.getFieldByName (c : ClassInfo) (lim : Nat) (name : Str) : Res (Option Member) :=
  fieldByName c.pool lim name c.fields

/-- javatools/__init__.py:554-560 `get_methods_by_name`, fully consumed -/
def methodsByName (pool : Pool) (lim : Nat) (name : Str) : List Member → Res (List Member)
  | [] => .ok []
  | m :: ms => do
    let n ← m.getName pool lim
    let rest ← methodsByName pool lim name ms
    .ok (if n = .str name then m :: rest else rest)

def ClassInfo.getMethodsByName (c : ClassInfo) (lim : Nat) (name : Str) : Res (List Member) :=
  methodsByName c.pool lim name c.methods

/-- The loop of javatools/__init__.py:584-588, over the lazy generator of :560 -/
def methodLoop (pool : Pool) (lim : Nat) (name : Str) (args : List Str) :
    List Member → Res (Option Member)
  | [] => .ok none
  | m :: ms => do
    let n ← m.getName pool lim
    if n = .str name then
      if m.isBridge then methodLoop pool lim name args ms
      else do
        let a ← m.argTypeDescriptors pool lim
        if a = args then .ok (some m) else methodLoop pool lim name args ms
    else methodLoop pool lim name args ms

/-- javatools/__init__.py:563-588 `get_method` (`arg_types` is made a tuple, :582) -/
def ClassInfo.getMethod (c : ClassInfo) (lim : Nat) (name : Str) (args : List Str) :
    Res (Option Member) := methodLoop c.pool lim name args c.methods

/-- A Python sequence argument: a tuple or some other sequence type (such as a list). -/
inductive PySeq where
  | tuple (xs : List Str)
  | list (xs : List Str)
  deriving DecidableEq, Repr

/-- `tuple == arg`: only another tuple can be equal. -/
def PySeq.eqTuple : PySeq → List Str → Bool
  | .tuple xs, ys => decide (xs = ys)
  | .list _, _ => false

/-- javatools/__init__.py:591-601 `get_method_bridges`, fully consumed. (`arg_types` is not
converted to a tuple here.) -/
def bridgesLoop (pool : Pool) (lim : Nat) (name : Str) (args : PySeq) :
    List Member → Res (List Member)
  | [] => .ok []
  | m :: ms => do
    let n ← m.getName pool lim
    if n = .str name ∧ m.isBridge = true then do
      let a ← m.argTypeDescriptors pool lim
      let rest ← bridgesLoop pool lim name args ms
      .ok (if args.eqTuple a then m :: rest else rest)
    else bridgesLoop pool lim name args ms

def ClassInfo.getMethodBridges (c : ClassInfo) (lim : Nat) (name : Str) (args : PySeq) :
    Res (List Member) := bridgesLoop c.pool lim name args c.methods

/-! ### Pretty constants -/

/-- javatools/__init__.py:2170-2231 `_pretty_const_type_val`: the type name. The value is the
constant's own content rendered by `repr`/`%`, which is left abstract: the constant itself
stands for it. -/
def prettyConstTypeVal : Const → Res (String × Const)
  | c@(.utf8 _) => .ok ("Utf8", c)
  | c@(.integer _) => .ok ("int", c)
  | c@(.float _) => .ok ("float", c)
  | c@(.long _) => .ok ("long", c)
  | c@(.double _) => .ok ("double", c)
  | c@(.cls _) => .ok ("class", c)
  | c@(.string _) => .ok ("String", c)
  | c@(.fieldref _ _) => .ok ("Field", c)
  | c@(.methodref _ _) => .ok ("Method", c)
  | c@(.ifaceMethodref _ _) => .ok ("InterfaceMethod", c)
  | c@(.nameAndType _ _) => .ok ("NameAndType", c)
  | c@(.moduleId _ _) => .ok ("ModuleId", c)
  | c@(.methodHandle _ _) => .ok ("MethodHandle", c)
  | c@(.methodType _) => .ok ("MethodType", c)
  | c@(.invokeDynamic _ _) => .ok ("InvokeDynamic", c)
  | c@(.module _) => .ok ("Module", c)
  | c@(.package _) => .ok ("Package", c)
  | .dynamic _ _ => .error .unknownTag

/-- javatools/__init__.py:328-338 `pretty_const(index)`; `none` is `(None, None)`. -/
def prettyConst (pool : Pool) (i : Nat) : Res (Option (String × Const)) :=
  match pool[i]? with
  | none => .error .indexError
  | some none => .ok none
  | some (some c) => (prettyConstTypeVal c).map some

/-- The loop of `pretty_constants` (javatools/__init__.py:316-325), fully consumed: the slots
from index `i` on. -/
def prettyConstantsFrom : Nat → Pool → Res (List (Nat × String × Const))
  | _, [] => .ok []
  | i, none :: rest => prettyConstantsFrom (i + 1) rest
  | i, some c :: rest => do
    let p ← prettyConstTypeVal c
    let more ← prettyConstantsFrom (i + 1) rest
    .ok ((i, p) :: more)

/-- javatools/__init__.py:316-325 `pretty_constants` -/
def prettyConstants (pool : Pool) : Res (List (Nat × String × Const)) :=
  prettyConstantsFrom 1 (pool.drop 1)

/-- Two components of a dereferenced name-and-type. -/
def PVal.asPair : PVal → Res (PVal × PVal)
  | .pair a b => .ok (a, b)
  | _ => .error .valueError

/-- javatools/__init__.py:341-418 `pretty_deref_const`, for the four kinds of constant that
name classes and members (the others are not used by the modelled code); a component that is
not a string where a string is formatted is an error here. -/
def prettyDerefApi (pool : Pool) (lim : Nat) (c : Const) : Res Str :=
  match c with
  | .cls v => do .ok (prettyClass (← (← deref pool lim v).asStr))
  | .fieldref a b => do
    let cn ← (← deref pool lim a).asStr
    let nt ← (← deref pool lim b).asPair
    let n ← nt.1.asStr
    let t ← nt.2.asStr
    let pt ← prettyType t
    .ok (prettyClass cn ++ ".".toList ++ n ++ ":".toList ++ pt)
  | .methodref a b | .ifaceMethodref a b => do
    let cn ← (← deref pool lim a).asStr
    let nt ← (← deref pool lim b).asPair
    let n ← nt.1.asStr
    let t ← nt.2.asStr
    let ts ← prettyTypeseq t
    match ts with
    | [args, ret] => .ok (prettyClass cn ++ ".".toList ++ n ++ args ++ ":".toList ++ ret)
    | _ => .error .valueError
  | _ => .error .unknownTag

/-! ### Provided and required symbols -/

/-- javatools/__init__.py:936-952 `_get_provides` -/
def ClassInfo.providesSeq (c : ClassInfo) (lim : Nat) (isPrivate : Bool) : Res (List Str) := do
  let me ← (← c.getThis lim).asStr
  let me := prettyClass me
  let shown := fun (ms : List Member) => ms.filter fun m => isPrivate || m.isPublic
  let fs ← (shown c.fields).mapM fun f => f.prettyIdentifier c.pool lim
  let ms ← (shown c.methods).mapM fun m => m.prettyIdentifier c.pool lim
  .ok (me :: (fs ++ ms).map fun i => me ++ ".".toList ++ i)

/-- Is it one of the kinds of javatools/__init__.py:967-968. -/
def Const.isApi : Const → Bool
  | .cls _ => true
  | .fieldref _ _ => true
  | .methodref _ _ => true
  | .ifaceMethodref _ _ => true
  | _ => false

/-- javatools/__init__.py:971-986: the symbol one constant stands for, `none` for an array
that is not a one-dimensional array of a class. -/
def apiSymbol (pool : Pool) (lim : Nat) (c : Const) : Res (Option Str) := do
  let pv ← prettyDerefApi pool lim c
  match pv with
  | [] => .error .indexError
  | '[' :: _ => do
    let ts ← typeseq pv
    let t ← firstOf ts
    match t with
    | _ :: 'L' :: rest => do .ok (some (← prettyType ('L' :: rest)))
    | _ :: _ :: _ => .ok none
    | _ => .error .indexError
  | _ => .ok (some pv)

/-- The loop of javatools/__init__.py:965-989 (`constants()` dereferences every entry,
:304-313), over the constants from index `i` on. -/
def requiresLoop (pool : Pool) (lim : Nat) (provided : List Str) : Nat → Pool → Res (List Str)
  | _, [] => .ok []
  | i, none :: rest => requiresLoop pool lim provided (i + 1) rest
  | i, some c :: rest => do
    let _ ← deref pool lim i
    if c.isApi then do
      let pv ← apiSymbol pool lim c
      let more ← requiresLoop pool lim provided (i + 1) rest
      match pv with
      | some s => .ok (if s ≠ [] ∧ s ∉ provided then s :: more else more)
      | none => .ok more
    else requiresLoop pool lim provided (i + 1) rest

/-- The cached attributes `_provides`, `_provides_private`, `_requires`. -/
structure ApiCache where
  provides : Option (List Str)
  providesPrivate : Option (List Str)
  requires : Option (List Str)
  deriving DecidableEq, Repr

/-- `JavaClassInfo.__init__`, javatools/__init__.py:457-472 -/
def ApiCache.empty : ApiCache := ⟨none, none, none⟩

/-- javatools/dirutils.py:39-48 `fnmatches`; `glob` is `fnmatch.fnmatch`. -/
def fnmatchesWith (glob : Str → Str → Bool) (entry : Str) (patterns : List Str) : Bool :=
  patterns.any fun p => decide (p ≠ []) && glob entry p

section
variable (glob : Str → Str → Bool) (c : ClassInfo) (lim : Nat)

/-- javatools/__init__.py:992-1007 `get_provides`. A Python set is a list without
repetitions; its iteration order is unspecified and the theorems only use membership. -/
def getProvides (ignored : List Str) (isPrivate : Bool) (st : ApiCache) :
    Res (List Str) × ApiCache :=
  let finish := fun (s : List Str) => s.filter fun p => !fnmatchesWith glob p ignored
  if isPrivate then
    match st.providesPrivate with
    | some s => (.ok (finish s), st)
    | none =>
      match c.providesSeq lim true with
      | .error e => (.error e, st)
      | .ok l => (.ok (finish l.eraseDups), { st with providesPrivate := some l.eraseDups })
  else
    match st.provides with
    | some s => (.ok (finish s), st)
    | none =>
      match c.providesSeq lim false with
      | .error e => (.error e, st)
      | .ok l => (.ok (finish l.eraseDups), { st with provides := some l.eraseDups })

/-- javatools/__init__.py:1010-1020 `get_requires` (with :961, which fills the private
cache) -/
def getRequires (ignored : List Str) (st : ApiCache) : Res (List Str) × ApiCache :=
  let finish := fun (s : List Str) => s.filter fun p => !fnmatchesWith glob p ignored
  match st.requires with
  | some s => (.ok (finish s), st)
  | none =>
    match getProvides glob c lim [] true st with
    | (.error e, st') => (.error e, st')
    | (.ok provided, st') =>
      match requiresLoop c.pool lim provided 1 (c.pool.drop 1) with
      | .error e => (.error e, st')
      | .ok l => (.ok (finish l.eraseDups), { st' with requires := some l.eraseDups })

/-- One call of an accessor. -/
inductive ApiCall where
  | provides (ignored : List Str) (isPrivate : Bool)
  | requires (ignored : List Str)

def apiStep (st : ApiCache) : ApiCall → Res (List Str) × ApiCache
  | .provides ig p => getProvides glob c lim ig p st
  | .requires ig => getRequires glob c lim ig st

/-- State after a history of calls. -/
def apiRun (st : ApiCache) (calls : List ApiCall) : ApiCache :=
  calls.foldl (fun st call => (apiStep glob c lim st call).2) st

end

end Javatools
