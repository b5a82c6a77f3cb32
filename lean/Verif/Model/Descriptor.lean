import Verif.Model.ClassFile
/-
Model of the descriptor functions of javatools/__init__.py (:2240-2394) and of the member
accessors built on them.

Simplification: Python's recursion limit is not modelled for `_next_argsig` and
`_pretty_type` (their recursion depth is the number of leading '[' of a descriptor).
-/
namespace Javatools

/-- `s.find(c) + 1` -/
def findEnd (c : Char) (s : Str) : Nat :=
  match s.findIdx? (· == c) with
  | some i => i + 1
  | none => 0

/-- javatools/__init__.py:2250-2284 `_next_argsig` -/
def nextArgsig : Str → Res (Str × Str)
  | [] => .error .indexError
  | c :: rest =>
    if c ∈ ['B', 'C', 'D', 'F', 'I', 'J', 'S', 'V', 'Z'] then .ok ([c], rest)
    else if c = '[' then do
      let r ← nextArgsig rest
      .ok (c :: r.1, r.2)
    else if c = 'L' then
      let i := findEnd ';' (c :: rest)
      .ok ((c :: rest).take i, (c :: rest).drop i)
    else if c = '(' then
      let i := findEnd ')' (c :: rest)
      .ok ((c :: rest).take i, (c :: rest).drop i)
    else if c = '.' then .ok (rest, [])
    else .error .unimplemented

/-- javatools/__init__.py:2287-2314 `_typeseq_iter`, the loop `while s`, allowed `fuel`
iterations; running out of them is reported as the pseudo-exception "diverges". The
handler :2313-2314 re-raises the same exception class. -/
def typeseqLoop : Nat → Str → Res (List Str)
  | _, [] => .ok []
  | 0, _ => .error (.other "diverges")
  | fuel + 1, s => do
    let r ← nextArgsig s
    if s = r.2 ∧ r.1 = [] then .error .unimplemented
    else do
      let ts ← typeseqLoop fuel r.2
      .ok (r.1 :: ts)

/-- javatools/__init__.py:2317-2322 `_typeseq`; C22 shows that this many iterations always
suffice. -/
def typeseq (s : Str) : Res (List Str) := typeseqLoop (s.length + 1) s

/-- javatools/__init__.py:2387-2394 `_pretty_class` -/
def prettyClass (s : Str) : Str := s.map fun c => if c = '/' then '.' else c

/-- `",".join(...)` and friends -/
def joinWith (sep : Str) : List Str → Str
  | [] => []
  | [x] => x
  | x :: y :: xs => x ++ sep ++ joinWith sep (y :: xs)

/-- `s[1:-1]` -/
def inner (s : Str) : Str := (s.drop 1).dropLast

/-- javatools/__init__.py:2333-2384 `_pretty_type(s, offset)`, given `s[offset:]`. `fuel`
bounds the nesting; `prettyType` supplies enough. -/
def prettyTypeAux : Nat → Str → Res Str
  | 0, _ => .error (.other "diverges")
  | _ + 1, [] => .error .indexError
  | fuel + 1, tc :: rest =>
    if tc = 'V' then .ok "void".toList
    else if tc = 'Z' then .ok "boolean".toList
    else if tc = 'C' then .ok "char".toList
    else if tc = 'B' then .ok "byte".toList
    else if tc = 'S' then .ok "short".toList
    else if tc = 'I' then .ok "int".toList
    else if tc = 'J' then .ok "long".toList
    else if tc = 'D' then .ok "double".toList
    else if tc = 'F' then .ok "float".toList
    else if tc = 'L' then .ok (prettyClass rest.dropLast)
    else if tc = '[' then do
      let r ← prettyTypeAux fuel rest
      .ok (r ++ "[]".toList)
    else if tc = '(' then do
      let ts ← typeseq rest.dropLast
      let rs ← ts.mapM (prettyTypeAux fuel)
      .ok ("(".toList ++ joinWith ",".toList rs ++ ")".toList)
    else if tc = 'T' then .ok ("generic ".toList ++ rest)
    else .error .unimplemented

/-- `_pretty_type(s)` -/
def prettyType (s : Str) : Res Str := prettyTypeAux (s.length + 1) s

/-- javatools/__init__.py:2325-2330 `_pretty_typeseq`, fully consumed -/
def prettyTypeseq (s : Str) : Res (List Str) := do
  let ts ← typeseq s
  ts.mapM prettyType

/-- A dereferenced value used where the code needs a string. (Python would fail later, with
an exception depending on the use.) -/
def PVal.asStr : PVal → Res Str
  | .str s => .ok s
  | _ => .error .attributeError

/-- `xs[-1]` -/
def lastOf (xs : List Str) : Res Str :=
  match xs.getLast? with
  | some x => .ok x
  | none => .error .indexError

/-- `xs[0]` -/
def firstOf (xs : List Str) : Res Str :=
  match xs with
  | x :: _ => .ok x
  | [] => .error .indexError

namespace Member
variable (m : Member) (pool : Pool) (lim : Nat)

/-- `get_name()` as a string -/
def name : Res Str := do (← m.getName pool lim).asStr

/-- `get_descriptor()` as a string -/
def descriptor : Res Str := do (← m.getDescriptor pool lim).asStr

/-- javatools/__init__.py:1437-1444 `get_type_descriptor` -/
def typeDescriptor : Res Str := do
  let d ← m.descriptor pool lim
  let ts ← typeseq d
  lastOf ts

/-- javatools/__init__.py:1447-1462 `get_arg_type_descriptors` -/
def argTypeDescriptors : Res (List Str) :=
  if !m.isMethod then .ok []
  else do
    let d ← m.descriptor pool lim
    let tp ← typeseq d
    let t0 ← firstOf tp
    typeseq (inner t0)

/-- javatools/__init__.py:1465-1470 `pretty_type` -/
def prettyType : Res Str := do Javatools.prettyType (← m.typeDescriptor pool lim)

/-- javatools/__init__.py:1473-1482 `pretty_arg_types`, fully consumed -/
def prettyArgTypes : Res (List Str) :=
  if m.isMethod then do (← m.argTypeDescriptors pool lim).mapM Javatools.prettyType
  else .ok []

/-- javatools/__init__.py:1213-1218 `is_bridge` -/
def isBridge : Bool := decide (m.access &&& 0x0040 ≠ 0)

/-- javatools/__init__.py:1570-1590 `get_identifier` -/
def identifier : Res Str := do
  let ident ← m.name pool lim
  if m.isMethod then do
    let args ← m.argTypeDescriptors pool lim
    let call := ident ++ "(".toList ++ joinWith ",".toList args ++ ")".toList
    if m.isBridge then do
      let d ← m.descriptor pool lim
      .ok (call ++ ":".toList ++ d)
    else .ok call
  else .ok ident

/-- javatools/__init__.py:1593-1603 `pretty_identifier` -/
def prettyIdentifier : Res Str := do
  let ident ← m.name pool lim
  let ident ← (if m.isMethod then do
      let args ← m.prettyArgTypes pool lim
      Except.ok (ident ++ "(".toList ++ joinWith ",".toList args ++ ")".toList)
    else Except.ok ident : Res Str)
  let t ← m.prettyType pool lim
  .ok (ident ++ ":".toList ++ t)

end Member

end Javatools
