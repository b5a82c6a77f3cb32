import Verif.Model.Change
import Verif.Model.Lines
import Verif.Model.Annotation
/-
Model of the comparison of two classes, javatools/classdiff.py:90-862 and 947-1081.

`javaClassChange` builds the tree of change objects that `JavaClassChange(l, r)` unfolds to; its
leaves hold the outcome of their `check_impl`. Where `collect_impl` itself raises, the composite
is given a single child that raises the same exception when checked, which is when Python
collects.

Simplifications:
* the two classes are separate objects, so Python's identity shortcut in container comparisons
  never applies;
* the texts put into messages (`fn_pretty`) are a parameter `Texts`, which may raise; only the
  text of a constant pool is built here, because building it can fail;
* `get_description` overrides are rendered by functions of `Texts` that do not raise.
-/
namespace Javatools

/-- The option object: its attributes. argparse gives every attribute the default `False`. -/
abbrev Opts := PyDict Str Bool

/-- `options.name` -/
def Opts.attr (o : Opts) (name : String) : Bool := (PyDict.get? o name.toList).getD false

/-- Rendering of values in messages. -/
structure Texts where
  cls : String → ClassInfo → Res Str
  member : String → Pool → Member → Res Str
  code : String → Pool → Option CodeInfo → Res Str
  consts : List (Nat × String × Const) → Str
  memberDesc : Pool → Member → Str
  className : ClassInfo → Str

/-- javatools/change.py:331-352 `GenericChange.check_impl` -/
def checkImpl (label : Str) (differ : Res Bool) (left right : Res Str) : Res (Bool × Option Str) :=
  match differ with
  | .error e => .error e
  | .ok false => .ok (false, none)
  | .ok true =>
    match left with
    | .error e => .error e
    | .ok lt =>
      match right with
      | .error e => .error e
      | .ok rt => .ok (true, some (label ++ " changed: ".toList ++ lt ++ " to ".toList ++ rt))

/-- `fn_differ(get_ldata(), get_rdata())`: both sides are evaluated, left first. -/
def differs {α : Type} (eq : α → α → Bool) (l r : Res α) : Res Bool :=
  match l with
  | .error e => .error e
  | .ok x =>
    match r with
    | .error e => .error e
    | .ok y => .ok (!eq x y)

/-- A `GenericChange` object before `check`. -/
def genericLeaf (name label : String) (ign : IgnoreRule Opts) (differ : Res Bool)
    (left right : Res Str) : Change Opts :=
  .leaf { typeName := name, label := label.toList, ign := ign }
    (some (checkImpl label.toList differ left right)) false none

/-! ### Equality of the compared values -/

/-- Python `==` with `None` as `none` -/
def optEq : Option PVal → Option PVal → Bool
  | none, none => true
  | some a, some b => pyEq a b
  | _, _ => false

/-- Python `==` of two tuples of values -/
def listEq : List PVal → List PVal → Bool
  | [], [] => true
  | a :: as, b :: bs => pyEq a b && listEq as bs
  | _, _ => false

/-- Python `==` of `set(a)` and `set(b)` -/
def setEq (a b : List PVal) : Bool :=
  (a.all fun x => b.any fun y => pyEq x y) && (b.all fun y => a.any fun x => pyEq x y)

/-- Python `==` of two pool items `(tag, value)`: floats compare as numbers. -/
def constPyEq : Const → Const → Bool
  | .float a, .float b => pyEqFloat (float32 a) (float32 b)
  | .double a, .double b => pyEqFloat (float64 a) (float64 b)
  | a, b => decide (a = b)

def slotEq : Option Const → Option Const → Bool
  | none, none => true
  | some a, some b => constPyEq a b
  | _, _ => false

/-- javatools/__init__.py:183-189 `JavaConstantPool.__eq__` -/
def poolEq : Pool → Pool → Bool
  | [], [] => true
  | a :: as, b :: bs => slotEq a b && poolEq as bs
  | _, _ => false

/-- Python `!=` of two tuples of annotations (the lengths are compared first) -/
def annosDiffer (lp rp : Pool) (lim : Nat) (l r : Res (List AVal)) : Res Bool :=
  match l with
  | .error e => .error e
  | .ok xs =>
    match r with
    | .error e => .error e
    | .ok ys =>
      if xs.length ≠ ys.length then .ok true
      else (arrEq lp rp lim xs ys).map fun b => !b

/-- javatools/__init__.py:1821-1830 `get_catch_type` -/
def ExcInfo.catchType (e : ExcInfo) (pool : Pool) (lim : Nat) : Res (Option PVal) :=
  if e.catchRef = 0 then .ok none else (deref pool lim e.catchRef).map some

/-- javatools/__init__.py:1859-1861 `JavaExceptionInfo.__eq__` -/
def excEq (lp rp : Pool) (lim : Nat) (a b : ExcInfo) : Res Bool :=
  match a.catchType lp lim with
  | .error e => .error e
  | .ok x =>
    match b.catchType rp lim with
    | .error e => .error e
    | .ok y => .ok (decide (a.startPc = b.startPc) && decide (a.endPc = b.endPc) &&
        decide (a.handlerPc = b.handlerPc) && optEq x y)

/-- `==` of two exception tables, after the lengths -/
def excsEq (lp rp : Pool) (lim : Nat) : List ExcInfo → List ExcInfo → Res Bool
  | a :: as, b :: bs =>
    match excEq lp rp lim a b with
    | .error e => .error e
    | .ok false => .ok false
    | .ok true => excsEq lp rp lim as bs
  | _, _ => .ok true

/-! ### Code -/

/-- javatools/classdiff.py:443-451: are the operands of two instructions with the same opcode
equal, constants being dereferenced? -/
def operandsEq (lp rp : Pool) (lim : Nat) (l r : Insn) : Res Bool :=
  match hasConstArg l.code with
  | .error e => .error e
  | .ok false => .ok (decide (l.args = r.args))
  | .ok true =>
    match l.args, r.args with
    | .ints (i :: ls), .ints (j :: rs) =>
      match deref lp lim i.toNat with
      | .error e => .error e
      | .ok x =>
        match deref rp lim j.toNat with
        | .error e => .error e
        | .ok y => .ok (pyEq x y && decide (ls = rs))
    | _, _ => .error .indexError

/-- What `zip` over two disassemblies meets: the instructions yielded before the end or before
the exception. -/
abbrev Dis := List Insn × Option PyErr

/-- javatools/classdiff.py:438-455: the loop; `none` is the early `return True`, otherwise the
offsets collected. -/
def constantsLoop (lp rp : Pool) (lim : Nat) (le re : Option PyErr) :
    List Insn → List Insn → Res (Option (List Nat))
  | [], _ =>
    match le with
    | some e => .error e
    | none => .ok (some [])
  | _ :: _, [] =>
    match re with
    | some e => .error e
    | none => .ok (some [])
  | l :: ls, r :: rs =>
    if ¬ (l.off = r.off ∧ l.code = r.code) then .ok none
    else
      match operandsEq lp rp lim l r with
      | .error e => .error e
      | .ok same =>
        match constantsLoop lp rp lim le re ls rs with
        | .error e => .error e
        | .ok none => .ok none
        | .ok (some offsets) => .ok (some (if same then offsets else l.off :: offsets))

/-- javatools/classdiff.py:426-455 `CodeConstantsChange.check_impl` -/
def codeConstantsCheck (lp rp : Pool) (lim : Nat) :
    Option CodeInfo → Option CodeInfo → Res (Bool × Option Str)
  | some l, some r =>
    if l.code.length ≠ r.code.length then .ok (true, none)
    else
      match constantsLoop lp rp lim (disassemble l.code).2 (disassemble r.code).2
          (disassemble l.code).1 (disassemble r.code).1 with
      | .error e => .error e
      | .ok none => .ok (true, none)
      | .ok (some offsets) => .ok (!offsets.isEmpty, none)
  | _, _ => .ok (true, none)

/-- javatools/classdiff.py:492-496: the loop -/
def bodyLoop (le re : Option PyErr) : List Insn → List Insn → Res Bool
  | [], _ =>
    match le with
    | some e => .error e
    | none => .ok false
  | _ :: _, [] =>
    match re with
    | some e => .error e
    | none => .ok false
  | l :: ls, r :: rs =>
    if ¬ (l.off = r.off ∧ l.code = r.code) then .ok true else bodyLoop le re ls rs

/-- decimal digits -/
def natText (n : Nat) : Str := (toString n).toList

/-- javatools/classdiff.py:480-496 `CodeBodyChange.check_impl` -/
def codeBodyCheck : Option CodeInfo → Option CodeInfo → Res (Bool × Option Str)
  | some l, some r =>
    if l.code.length ≠ r.code.length then
      .ok (true, some ("Code length changed from ".toList ++ natText l.code.length ++
        " to ".toList ++ natText r.code.length))
    else (bodyLoop (disassemble l.code).2 (disassemble r.code).2
      (disassemble l.code).1 (disassemble r.code).1).map fun b => (b, none)
  | _, _ => .ok (true, none)

/-- `(c and f(c)) or default` -/
def codeData {α : Type} (f : CodeInfo → Res α) (dflt : α) : Option CodeInfo → Res α
  | none => .ok dflt
  | some c => f c

section
variable (T : Texts) (lim depth : Nat) (lp rp : Pool)

/-- javatools/classdiff.py:594-600: the children of `MethodCodeChange`. -/
def codeChildren (l r : Option CodeInfo) : List (Change Opts) :=
  let text := fun n => T.code n lp l
  let rtext := fun n => T.code n rp r
  [ genericLeaf "CodeAbsoluteLinesChange" "Absolute line numbers"
      (.only fun o => o.attr "ignore_absolute_lines")
      (differs (fun a b => decide (a = b)) (codeData CodeInfo.getLinenumbertable [] l)
        (codeData CodeInfo.getLinenumbertable [] r))
      (text "CodeAbsoluteLinesChange") (rtext "CodeAbsoluteLinesChange"),
    genericLeaf "CodeRelativeLinesChange" "Relative line numbers"
      (.only fun o => o.attr "ignore_relative_lines")
      (differs (fun a b => decide (a = b))
        (codeData (fun c => c.getLinenumbertable.map relativeTable) [] l)
        (codeData (fun c => c.getLinenumbertable.map relativeTable) [] r))
      (text "CodeRelativeLinesChange") (rtext "CodeRelativeLinesChange"),
    genericLeaf "CodeStackChange" "Stack size" .inherit
      (differs (fun a b => decide (a = b)) (codeData (fun c => .ok c.maxStack) 0 l)
        (codeData (fun c => .ok c.maxStack) 0 r))
      (text "CodeStackChange") (rtext "CodeStackChange"),
    genericLeaf "CodeLocalsChange" "Locals" .inherit
      (differs (fun a b => decide (a = b)) (codeData (fun c => .ok c.maxLocals) 0 l)
        (codeData (fun c => .ok c.maxLocals) 0 r))
      (text "CodeLocalsChange") (rtext "CodeLocalsChange"),
    genericLeaf "CodeExceptionChange" "Exception table" .inherit
      (let ls := (l.map CodeInfo.exceptions).getD []
       let rs := (r.map CodeInfo.exceptions).getD []
       if ls.length ≠ rs.length then .ok true else (excsEq lp rp lim ls rs).map fun b => !b)
      (text "CodeExceptionChange") (rtext "CodeExceptionChange"),
    .leaf { typeName := "CodeConstantsChange", label := "Code constants".toList }
      (some (codeConstantsCheck lp rp lim l r)) false none,
    .leaf { typeName := "CodeBodyChange", label := "Code body".toList }
      (some (codeBodyCheck l r)) false none ]

/-- The header of a composite. -/
def superHdr (name label : String) (describe : Option (Bool → Str) := none) : Hdr Opts :=
  { typeName := name, label := label.toList, describe := describe }

/-- javatools/classdiff.py:589-624 `MethodCodeChange` on the two code objects. -/
def methodCodeChange (l r : Option CodeInfo) : Change Opts :=
  match l, r with
  | none, none => .super (superHdr "MethodCodeChange" "Method Code") (some false) false none []
  | some a, some b => .super (superHdr "MethodCodeChange" "Method Code") none false none
      (codeChildren T lim lp rp (some a) (some b))
  | l, r => .super (superHdr "MethodCodeChange" "Method Code") (some true) false none
      (codeChildren T lim lp rp l r)

/-- The children of a composite whose collection raises `e`. -/
def raises (e : PyErr) : List (Change Opts) :=
  [.leaf { typeName := "", label := [] } (some (.error e)) false none]

/-- javatools/classdiff.py:655-665, `MethodChange.collect_impl`. The constructor of
`MethodCodeChange` (:603-605) reads both code attributes. -/
def methodChildren (l r : Member) : List (Change Opts) :=
  match l.getCode lp lim with
  | .error e => raises e
  | .ok lc =>
    match r.getCode rp lim with
    | .error e => raises e
    | .ok rc =>
      let leaf := fun (name label : String) (ign : IgnoreRule Opts) (d : Res Bool) =>
        genericLeaf name label ign d (T.member name lp l) (T.member name rp r)
      [ leaf "MethodNameChange" "Method name" .inherit
          (differs pyEq (l.getName lp lim) (r.getName rp lim)),
        leaf "MethodTypeChange" "Method type" .inherit
          (differs (fun a b => decide (a = b)) (l.typeDescriptor lp lim) (r.typeDescriptor rp lim)),
        leaf "MethodSignatureChange" "Method generic signature" .inherit
          (differs optEq (derefAttr l.attribs lp lim "Signature")
            (derefAttr r.attribs rp lim "Signature")),
        leaf "MethodAnnotationsChange" "Method runtime annotations" .inherit
          (annosDiffer lp rp lim
            (getAnnotations l.attribs lp lim depth "RuntimeVisibleAnnotations")
            (getAnnotations r.attribs rp lim depth "RuntimeVisibleAnnotations")),
        leaf "MethodInvisibleAnnotationsChange" "Method runtime invisible annotations" .inherit
          (annosDiffer lp rp lim
            (getAnnotations l.attribs lp lim depth "RuntimeInvisibleAnnotations")
            (getAnnotations r.attribs rp lim depth "RuntimeInvisibleAnnotations")),
        leaf "MethodParametersChange" "Method parameters" .inherit
          (differs (fun a b => decide (a = b)) (l.argTypeDescriptors lp lim)
            (r.argTypeDescriptors rp lim)),
        leaf "MethodAccessflagsChange" "Method accessflags" .inherit
          (.ok (!decide (l.access = r.access))),
        leaf "MethodExceptionsChange" "Method exceptions" .inherit
          (differs listEq (l.getExceptions lp lim) (r.getExceptions rp lim)),
        leaf "MethodAbstractChange" "Method abstract" .inherit
          (.ok (!(lc.isNone == rc.isNone))),
        leaf "MethodDeprecationChange" "Method deprecation"
          (.only fun o => o.attr "ignore_deprecated")
          (.ok (!(isDeprecated l.attribs == isDeprecated r.attribs))),
        methodCodeChange T lim lp rp lc rc ]

/-- javatools/classdiff.py:761-768, `FieldChange.collect_impl` -/
def fieldChildren (l r : Member) : List (Change Opts) :=
  let leaf := fun (name label : String) (ign : IgnoreRule Opts) (d : Res Bool) =>
    genericLeaf name label ign d (T.member name lp l) (T.member name rp r)
  [ leaf "FieldNameChange" "Field name" .inherit
      (differs pyEq (l.getName lp lim) (r.getName rp lim)),
    leaf "FieldTypeChange" "Field type" .inherit
      (differs pyEq (l.getDescriptor lp lim) (r.getDescriptor rp lim)),
    leaf "FieldSignatureChange" "Field Generic Signature" .inherit
      (differs optEq (derefAttr l.attribs lp lim "Signature")
        (derefAttr r.attribs rp lim "Signature")),
    leaf "FieldAnnotationsChange" "Field runtime annotations" .inherit
      (annosDiffer lp rp lim
        (getAnnotations l.attribs lp lim depth "RuntimeVisibleAnnotations")
        (getAnnotations r.attribs rp lim depth "RuntimeVisibleAnnotations")),
    leaf "FieldInvisibleAnnotationsChange" "Field runtime invisible annotations" .inherit
      (annosDiffer lp rp lim
        (getAnnotations l.attribs lp lim depth "RuntimeInvisibleAnnotations")
        (getAnnotations r.attribs rp lim depth "RuntimeInvisibleAnnotations")),
    leaf "FieldAccessflagsChange" "Field accessflags" .inherit
      (.ok (!decide (l.access = r.access))),
    leaf "FieldConstvalueChange" "Field constvalue" .inherit
      (differs optEq (l.derefConstantvalue lp lim) (r.derefConstantvalue rp lim)),
    leaf "FieldDeprecationChange" "Field deprecation"
      (.only fun o => o.attr "ignore_deprecated")
      (.ok (!(isDeprecated l.attribs == isDeprecated r.attribs))) ]
end

/-! ### Members -/

/-- What `ClassMembersChange.collect_impl` yields. -/
inductive MemberDelta where
  | added (r : Member)
  | removed (l : Member)
  | changed (l r : Member)
  deriving DecidableEq, Repr

/-- javatools/classdiff.py:305-308: the dictionary of the left members. -/
def leftMembers (ident : Member → Res Str) :
    PyDict Str Member → List Member → Res (PyDict Str Member)
  | li, [] => .ok li
  | li, m :: ms =>
    match ident m with
    | .error e => .error e
    | .ok k => leftMembers ident (li.set k m) ms

/-- javatools/classdiff.py:310-321: the loop over the right members, and what is left over. -/
def rightMembers (ident : Member → Res Str) :
    PyDict Str Member → List Member → Res (List MemberDelta)
  | li, [] => .ok (li.map fun p => .removed p.2)
  | li, m :: ms =>
    match ident m with
    | .error e => .error e
    | .ok k =>
      match li.get? k with
      | some lf => (rightMembers ident (li.del k) ms).map fun ds => .changed lf m :: ds
      | none => (rightMembers ident li ms).map fun ds => .added m :: ds

/-- javatools/classdiff.py:304-321 `ClassMembersChange.collect_impl`, `lident` and `rident` being
`get_identifier` on either side. -/
def memberDeltas (lident rident : Member → Res Str) (ls rs : List Member) :
    Res (List MemberDelta) :=
  match leftMembers lident [] ls with
  | .error e => .error e
  | .ok li => rightMembers rident li rs

/-- The class of a member change. -/
inductive DeltaKind where
  | added | removed | changed
  deriving DecidableEq, Repr

def MemberDelta.kind : MemberDelta → DeltaKind
  | .added _ => .added
  | .removed _ => .removed
  | .changed _ _ => .changed

/-- javatools/classdiff.py:791-793, 821-823: sorted by type. -/
def sortedDeltas (lident rident : Member → Res Str) (ls rs : List Member) :
    Res (List MemberDelta) :=
  (memberDeltas lident rident ls rs).map fun ds =>
    iterateByType MemberDelta.kind ds [.added, .removed, .changed]

section
variable (T : Texts) (lim depth : Nat)

/-- A member change as a change object: `what` is "Field" or "Method". -/
def deltaChange (what : String) (children : Member → Member → List (Change Opts))
    (lp rp : Pool) : MemberDelta → Change Opts
  | .added r => .leaf {
      typeName := what ++ "Added", label := (what ++ " added").toList, kind := .addition,
      describe := some fun _ => (what ++ " added: ").toList ++ T.memberDesc rp r } none false none
  | .removed l => .leaf {
      typeName := what ++ "Removed", label := (what ++ " removed").toList, kind := .removal,
      describe := some fun _ => (what ++ " removed: ").toList ++ T.memberDesc lp l } none false none
  | .changed l r => .super (superHdr (what ++ "Change") what
      (some fun _ => (what ++ ": ").toList ++ T.memberDesc lp l)) none false none (children l r)

/-- javatools/classdiff.py:781-798, 811-828 `ClassFieldsChange`, `ClassMethodsChange` -/
def membersChange (name label what : String) (children : Member → Member → List (Change Opts))
    (lp rp : Pool) (ls rs : List Member) : Change Opts :=
  .super (superHdr name label) none false none
    (match sortedDeltas (fun m => m.identifier lp lim) (fun m => m.identifier rp lim) ls rs with
     | .error e => raises e
     | .ok ds => ds.map (deltaChange T what children lp rp))

/-! ### The class -/

/-- `a < b` on version tuples -/
def verLt (a b : Nat × Nat) : Bool := decide (a.1 < b.1) || (decide (a.1 = b.1) && decide (a.2 < b.2))

/-- javatools/classdiff.py:112-117 and 129-134: `is_ignored` of the version and of the platform
change (the same text). -/
def versionIgnored (l r : ClassInfo) (o : Opts) : Bool :=
  (o.attr "ignore_version_up" && verLt l.version r.version) ||
  (o.attr "ignore_version_down" && verLt r.version l.version)

/-- javatools/classdiff.py:237-249 `ClassInfoChange` -/
def classInfoChange (l r : ClassInfo) : Change Opts :=
  let leaf := fun (name label : String) (ign : IgnoreRule Opts) (d : Res Bool) =>
    genericLeaf name label ign d (T.cls name l) (T.cls name r)
  .super (superHdr "ClassInfoChange" "Class information") none false none
    [ leaf "ClassNameChange" "Class name" .inherit (differs pyEq (l.getThis lim) (r.getThis lim)),
      leaf "ClassVersionChange" "Java class verison" (.only (versionIgnored l r))
        (.ok (!decide (l.version = r.version))),
      leaf "ClassPlatformChange" "Java platform" (.only (versionIgnored l r))
        (.ok (!decide (platformFromVersion l.version.1 l.version.2 =
          platformFromVersion r.version.1 r.version.2))),
      leaf "ClassSuperclassChange" "Superclass" .inherit
        (differs pyEq (l.getSuper lim) (r.getSuper lim)),
      leaf "ClassInterfacesChange" "Interfaces" .inherit
        (differs setEq (l.getInterfaces lim) (r.getInterfaces lim)),
      leaf "ClassAccessflagsChange" "Access flags" .inherit
        (.ok (!decide (l.access = r.access))),
      leaf "ClassDeprecationChange" "Deprecation" (.only fun o => o.attr "ignore_deprecated")
        (.ok (!(isDeprecated l.attribs == isDeprecated r.attribs))),
      leaf "ClassSignatureChange" "Generics Signature" .inherit
        (differs optEq (derefAttr l.attribs l.pool lim "Signature")
          (derefAttr r.attribs r.pool lim "Signature")) ]

/-- javatools/classdiff.py:831-849 `ClassConstantPoolChange` -/
def poolChange (l r : ClassInfo) : Change Opts :=
  .leaf { typeName := "ClassConstantPoolChange", label := "Constant pool".toList,
          ign := .only fun o => o.attr "ignore_pool",
          describe := some fun c => "Constant pool".toList ++
            (if c then " altered".toList else " unaltered".toList) }
    (some (checkImpl "Constant pool".toList (.ok (!poolEq l.pool r.pool))
      ((prettyConstants l.pool).map T.consts) ((prettyConstants r.pool).map T.consts)))
    false none

/-- javatools/classdiff.py:857-862: the children of `JavaClassChange`. -/
def classChildren (l r : ClassInfo) : List (Change Opts) :=
  [ classInfoChange T lim l r,
    genericLeaf "ClassAnnotationsChange" "Class runtime annotations" .inherit
      (annosDiffer l.pool r.pool lim
        (getAnnotations l.attribs l.pool lim depth "RuntimeVisibleAnnotations")
        (getAnnotations r.attribs r.pool lim depth "RuntimeVisibleAnnotations"))
      (T.cls "ClassAnnotationsChange" l) (T.cls "ClassAnnotationsChange" r),
    genericLeaf "ClassInvisibleAnnotationsChange" "Class runtime invisible annotations" .inherit
      (annosDiffer l.pool r.pool lim
        (getAnnotations l.attribs l.pool lim depth "RuntimeInvisibleAnnotations")
        (getAnnotations r.attribs r.pool lim depth "RuntimeInvisibleAnnotations"))
      (T.cls "ClassInvisibleAnnotationsChange" l) (T.cls "ClassInvisibleAnnotationsChange" r),
    poolChange T l r,
    membersChange T lim "ClassFieldsChange" "Fields" "Field"
      (fieldChildren T lim depth l.pool r.pool) l.pool r.pool l.fields r.fields,
    membersChange T lim "ClassMethodsChange" "Methods" "Method"
      (methodChildren T lim depth l.pool r.pool) l.pool r.pool l.methods r.methods ]

/-- javatools/classdiff.py:852-866 `JavaClassChange(l, r)` -/
def javaClassChange (l r : ClassInfo) : Change Opts :=
  .super (superHdr "JavaClassChange" "Java Class"
    (some fun _ => "Java Class ".toList ++ T.className l)) none false none
    (classChildren T lim depth l r)

/-- javatools/classdiff.py:951-975 `cli_classes_diff`: the exit status. -/
def classDiffStatus (o : Opts) (l r : ClassInfo) : Res Nat :=
  (javaClassChange T lim depth l r).check.map (Change.exitStatus o)
end

/-! ### Command line options -/

/-- `str.isspace` of one character: the characters `str.strip` removes. -/
def pySpace (c : Char) : Bool :=
  let n := c.toNat
  (9 ≤ n && n ≤ 13) || (0x1c ≤ n && n ≤ 0x20) || n == 0x85 || n == 0xa0 || n == 0x1680 ||
  (0x2000 ≤ n && n ≤ 0x200a) || n == 0x2028 || n == 0x2029 || n == 0x202f || n == 0x205f ||
  n == 0x3000

/-- `s.strip()` -/
def strip (s : Str) : Str := ((s.dropWhile pySpace).reverse.dropWhile pySpace).reverse

/-- `s.split(sep)` for a one-character separator -/
def splitChar (sep : Char) : Str → List Str
  | [] => [[]]
  | c :: cs =>
    if c = sep then [] :: splitChar sep cs
    else
      match splitChar sep cs with
      | [] => [[c]]
      | p :: ps => (c :: p) :: ps

/-- `"ignore_" + i.replace("-", "_")`, also argparse's attribute name of `--ignore-…`. -/
def ignoreAttr (item : Str) : Str :=
  "ignore_".toList ++ item.map fun c => if c = '-' then '_' else c

/-- An option on the command line. -/
inductive OptArg where
  /-- `--ignore-NAME`, a `store_true` option or one of the three callbacks -/
  | flag (name : Str)
  /-- `--ignore LIST` -/
  | ignore (values : Str)

/-- javatools/classdiff.py:985-1070: the effect of an option on the attributes. -/
def applyOpt (o : Opts) : OptArg → Opts
  | .flag name =>
    if name = "lines".toList then
      ((o.set "ignore_lines".toList true).set "ignore_absolute_lines".toList true).set
        "ignore_relative_lines".toList true
    else if name = "version".toList then
      ((o.set "ignore_version".toList true).set "ignore_version_up".toList true).set
        "ignore_version_down".toList true
    else if name = "platform".toList then
      ((o.set "ignore_platform".toList true).set "ignore_platform_up".toList true).set
        "ignore_platform_down".toList true
    else o.set (ignoreAttr name) true
  | .ignore values =>
    (((splitChar ',' values).map strip).filter fun i => !i.isEmpty).foldl
      (fun o i => o.set (ignoreAttr i) true) o

/-- The attributes after parsing the options in order. -/
def parseOpts (args : List OptArg) : Opts := args.foldl applyOpt []

end Javatools
