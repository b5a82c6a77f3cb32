import Verif.Model.Markup
import Verif.Model.Accessors
/-
The page of the HTML report on two classes, from the classes on: the changes of a `JavaClassReport`
that has been checked (Model/ClassDiff) and the data that the templates ask the compared objects
for, put into the templates (Model/Markup).

Simplifications: as in Model/ClassDiff and Model/Markup. A change object of the model does not hold
the two members that it compares, so the members are taken from `sortedDeltas` beside it. `None` is
put out as the empty string (as Cheetah does). Texts that a template does not ask for are empty.
-/
namespace Javatools

/-- What the texts of a page depend on. -/
structure ClassPageEnv where
  print : PrintEnv
  texts : Texts
  /-- `repr(v)` of a value or `None` -/
  repr : Option PVal → Str

variable (E : ClassPageEnv) (o : Opts)

/-- `is_change()`, `is_ignored(options)` -/
def verdictOf (c : Change Opts) : Verdict := ⟨c.isChange, c.isIgnored o⟩

/-- `collect_by_typename(change.collect())[name][0]`, javatools/change.py:37-57 -/
def childNamed (name : String) (kids : List (Change Opts)) : Res (Change Opts) :=
  match kids.find? fun c => c.hdr.typeName == name with
  | some c => .ok c
  | none => .error .keyError

/-- What a `sub_*` of a template asks for: of a changed property both texts, of another one the
left text if it is shown. -/
def askSub (changed : Bool) (shows : Res Bool) (left right : Res Str) : Res Sub :=
  if changed then
    match left with
    | .error e => .error e
    | .ok a =>
      match right with
      | .error e => .error e
      | .ok b => .ok ⟨true, true, a, b⟩
  else
    match shows with
    | .error e => .error e
    | .ok false => .ok ⟨false, false, [], []⟩
    | .ok true =>
      match left with
      | .error e => .error e
      | .ok a => .ok ⟨false, true, a, []⟩

/-- Each property in turn, until one raises. -/
def askSubs : List (Res Sub) → Res (List Sub)
  | [] => .ok []
  | .error e :: _ => .error e
  | .ok s :: rest =>
    match askSubs rest with
    | .error e => .error e
    | .ok ss => .ok (s :: ss)

/-- A property whose change is the child of this name. -/
def askChild (kids : List (Change Opts)) (name : String) (shows : Res Bool) (left right : Res Str) :
    Res Sub :=
  match childNamed name kids with
  | .error e => .error e
  | .ok c => askSub c.isChange shows left right

/-! ### Texts -/

/-- `"0x%04x" % flags`, a colon, the words -/
def flagsText (access : Nat) (words : List String) : Str :=
  "0x".toList ++ Change.hexN 4 access ++ ": ".toList ++ keywords words

/-- `str(b)` -/
def pyBoolText (b : Bool) : Str := if b then "True".toList else "False".toList

/-- `bool(v)`, `v` a value or `None` -/
def optTruthy : Option PVal → Bool
  | none => false
  | some v => v.truthy

/-- `escape(v or "(None)")`: what goes into `escape`. -/
def orNoneText : Option PVal → Res Str
  | none => .ok "(None)".toList
  | some v => if v.truthy then v.asStr else .ok "(None)".toList

/-- `", ".join(texts)` -/
def commaJoin (ts : List Str) : Str := joinWith ", ".toList ts

/-- `", ".join(texts) or "(None)"` -/
def commaJoinOr (ts : List Str) : Str := if (commaJoin ts).isEmpty then "(None)".toList else commaJoin ts

/-- `"(%s)" % ", ".join(texts)` -/
def inParens (ts : List Str) : Str := "(".toList ++ commaJoin ts ++ ")".toList

/-- `_pretty_class` of a value -/
def classText (v : Res PVal) : Res Str := do .ok (prettyClass (← (← v).asStr))

/-- javatools/__init__.py:908-913 `pretty_interfaces` -/
def interfaceTexts (c : ClassInfo) (lim : Nat) : Res (List Str) := do classTexts (← c.getInterfaces lim)

/-- javatools/cheetah/classdiff_ClassInfoChange.tmpl:101-118 -/
def interfacesSub (l r : ClassInfo) (lim : Nat) (kids : List (Change Opts)) : Res Sub :=
  match childNamed "ClassInterfacesChange" kids with
  | .error e => .error e
  | .ok c => askSub c.isChange ((l.getInterfaces lim).map fun vs => !vs.isEmpty)
      ((interfaceTexts l lim).map (if c.isChange then commaJoinOr else commaJoin))
      ((interfaceTexts r lim).map commaJoinOr)

/-- `"Major: %i, Minor: %i" % version` -/
def versionText (c : ClassInfo) : Str :=
  "Major: ".toList ++ natText c.version.1 ++ ", Minor: ".toList ++ natText c.version.2

/-- The platform or `None`. -/
def platformText (c : ClassInfo) : Str :=
  ((platformFromVersion c.version.1 c.version.2).map String.toList).getD []

/-! ### The class -/

/-- javatools/cheetah/classdiff_ClassInfoChange.tmpl:7-200: what is asked, with the values of
javatools/classdiff.py:90-190. -/
def infoSubs (l r : ClassInfo) (kids : List (Change Opts)) : Res (List Sub) :=
  let lim := E.print.lim
  let sign := fun (c : ClassInfo) => derefAttr c.attribs c.pool lim "Signature"
  let flags := fun (c : ClassInfo) => flagsText c.access c.prettyAccessFlags
  askSubs [
    askChild kids "ClassNameChange" (.ok true) (l.prettyThis lim) (r.prettyThis lim),
    askChild kids "ClassAccessflagsChange" (.ok true) (.ok (flags l)) (.ok (flags r)),
    askChild kids "ClassSuperclassChange" (.ok true) (classText (l.getSuper lim)) (classText (r.getSuper lim)),
    interfacesSub l r lim kids,
    askChild kids "ClassVersionChange" (.ok true) (.ok (versionText l)) (.ok (versionText r)),
    askChild kids "ClassPlatformChange" (.ok true) (.ok (platformText l)) (.ok (platformText r)),
    askChild kids "ClassSignatureChange" ((sign l).map optTruthy)
      (do orNoneText (← sign l)) (do orNoneText (← sign r)),
    askChild kids "ClassDeprecationChange" (.ok (isDeprecated l.attribs))
      (.ok (pyBoolText (isDeprecated l.attribs))) (.ok (pyBoolText (isDeprecated r.attribs)))]

/-- javatools/cheetah/classdiff_AnnotationsChange.tmpl:6-21; javatools/classdiff.py:193-224 -/
def annoViewOf (lp rp : Pool) (la ra : Attribs) (attr : String) (c : Change Opts) : Res AnnoView :=
  let annos := fun (a : Attribs) (p : Pool) => getAnnotations a p E.print.lim E.print.depth attr
  match annos la lp with
  | .error e => .error e
  | .ok xs =>
    if c.isChange then
      match annos ra rp with
      | .error e => .error e
      | .ok ys =>
        match dualAnnotations E.print lp rp xs ys with
        | .error e => .error e
        | .ok rows => .ok ⟨verdictOf o c, rows⟩
    else
      match singleAnnotations E.print lp 0 xs with
      | .error e => .error e
      | .ok rows => .ok ⟨verdictOf o c, rows.map fun p => ⟨p.1, p.2, [], false⟩⟩

/-- `lt or ""` and what goes into `escape` (`str(lv or "")`),
javatools/cheetah/classdiff_ClassConstantPoolChange.tmpl:62-63, 68-69. -/
def plainConstCell : PrettyCell → Res (Str × Str)
  | none => .ok ([], [])
  | some (_, c) =>
    match constText E.print c with
    | .error e => .error e
    | .ok (t, v) => .ok (t, if falsyConst c then [] else v)

/-- javatools/cheetah/classdiff_ClassConstantPoolChange.tmpl:56-72: one row, before `escape`
(compare `dualConstRow`). -/
def plainConstRow (row : Nat × PrettyCell × PrettyCell) : Res PoolRow :=
  match cellKey E.print row.2.1, cellKey E.print row.2.2 with
  | .error e, _ => .error e
  | _, .error e => .error e
  | .ok a, .ok b =>
    match plainConstCell E row.2.1 with
    | .error e => .error e
    | .ok left =>
      if a = b then .ok ⟨row.1, left, none⟩
      else
        match plainConstCell E row.2.2 with
        | .error e => .error e
        | .ok right => .ok ⟨row.1, left, some right⟩

/-- javatools/cheetah/classdiff_ClassConstantPoolChange.tmpl:7-17 -/
def poolViewOf (l r : Pool) (c : Change Opts) : Res PoolView :=
  if c.isChange then
    match prettyMergeConstants l r with
    | .error e => .error e
    | .ok rows =>
      match rows.mapM (plainConstRow E) with
      | .error e => .error e
      | .ok rs => .ok ⟨verdictOf o c, c.getDescription, rs⟩
  else
    match poolTexts E.print 1 (l.drop 1) with
    | .error e => .error e
    | .ok rows => .ok ⟨verdictOf o c, c.getDescription, rows.map fun p => ⟨p.1, p.2, none⟩⟩

/-! ### Members -/

section
variable (lp rp : Pool)

/-- javatools/cheetah/classdiff_FieldChange.tmpl:19-37, 55-177; javatools/classdiff.py:668-738 -/
def fieldSubs (l r : Member) (kids : List (Change Opts)) : Res (List Sub) :=
  let lim := E.print.lim
  let sign := fun (m : Member) (p : Pool) => derefAttr m.attribs p lim "Signature"
  let flags := fun (m : Member) => flagsText m.access (m.prettyAccessFlags false)
  let value := fun (m : Member) (p : Pool) => (m.derefConstantvalue p lim).map E.repr
  askSubs [
    askChild kids "FieldNameChange" (.ok true) (l.name lp lim) (r.name rp lim),
    askChild kids "FieldTypeChange" (.ok true) (l.prettyType lp lim) (r.prettyType rp lim),
    askChild kids "FieldAccessflagsChange" (.ok true) (.ok (flags l)) (.ok (flags r)),
    askChild kids "FieldSignatureChange" ((sign l lp).map optTruthy)
      (do orNoneText (← sign l lp)) (do orNoneText (← sign r rp)),
    askChild kids "FieldConstvalueChange" ((l.derefConstantvalue lp lim).map optTruthy)
      (value l lp) (value r rp),
    askChild kids "FieldDeprecationChange" (.ok (isDeprecated l.attribs))
      (.ok (pyBoolText (isDeprecated l.attribs))) (.ok (pyBoolText (isDeprecated r.attribs)))]

/-- javatools/cheetah/classdiff_MethodChange.tmpl:21-41, 60-221; javatools/classdiff.py:498-635 -/
def methodSubs (l r : Member) (kids : List (Change Opts)) : Res (List Sub) :=
  let lim := E.print.lim
  let sign := fun (m : Member) (p : Pool) => derefAttr m.attribs p lim "Signature"
  let flags := fun (m : Member) => flagsText m.access (m.prettyAccessFlags false)
  let abstr := fun (m : Member) (p : Pool) => (m.getCode p lim).map Option.isNone
  askSubs [
    askChild kids "MethodNameChange" (.ok true) (l.name lp lim) (r.name rp lim),
    askChild kids "MethodTypeChange" (.ok true) (l.prettyType lp lim) (r.prettyType rp lim),
    askChild kids "MethodParametersChange" (.ok true) ((l.prettyArgTypes lp lim).map inParens)
      ((r.prettyArgTypes rp lim).map inParens),
    askChild kids "MethodAccessflagsChange" (.ok true) (.ok (flags l)) (.ok (flags r)),
    askChild kids "MethodSignatureChange" ((sign l lp).map optTruthy)
      (do orNoneText (← sign l lp)) (do orNoneText (← sign r rp)),
    askChild kids "MethodExceptionsChange" ((l.getExceptions lp lim).map fun vs => !vs.isEmpty)
      ((l.prettyExceptions lp lim).map inParens) ((r.prettyExceptions rp lim).map inParens),
    askChild kids "MethodAbstractChange" (abstr l lp) ((abstr l lp).map pyBoolText)
      ((abstr r rp).map pyBoolText),
    askChild kids "MethodDeprecationChange" (.ok (isDeprecated l.attribs))
      (.ok (pyBoolText (isDeprecated l.attribs))) (.ok (pyBoolText (isDeprecated r.attribs)))]

/-- javatools/cheetah/classdiff_MethodAdded.tmpl:30-56, classdiff_MethodRemoved.tmpl:30-56 -/
def lonelySubs (m : Member) (p : Pool) : Res (List Sub) :=
  let lim := E.print.lim
  let sign := derefAttr m.attribs p lim "Signature"
  let none' : Res Str := .ok []
  askSubs [
    askSub false (.ok true) (m.name p lim) none',
    askSub false (.ok true) (m.prettyType p lim) none',
    askSub false (.ok true) ((m.prettyArgTypes p lim).map inParens) none',
    askSub false (.ok true) (.ok (flagsText m.access (m.prettyAccessFlags false))) none',
    askSub false (sign.map optTruthy) (do orNoneText (← sign)) none',
    askSub false ((m.getExceptions p lim).map fun vs => !vs.isEmpty)
      ((m.prettyExceptions p lim).map commaJoin) none',
    askSub false ((m.getCode p lim).map Option.isNone) (.ok "True".toList) none',
    askSub false (.ok (isDeprecated m.attribs)) (.ok "True".toList) none']

/-- `"%s(%s):%s" % (name, ", ".join(pretty_arg_types()), pretty_type())`,
javatools/cheetah/classdiff_MethodChange.tmpl:7-16, classdiff_MethodAdded.tmpl:6-15,
classdiff_MethodRemoved.tmpl:6-15 -/
def methodHead (m : Member) (p : Pool) : Res Str := do
  let a ← m.getName p E.print.lim
  let b ← m.prettyArgTypes p E.print.lim
  let c ← m.prettyType p E.print.lim
  .ok (E.print.str a ++ "(".toList ++ commaJoin b ++ "):".toList ++ c)

/-- A child of `ClassFieldsChange` with the fields it was made from:
javatools/cheetah/classdiff_FieldChange.tmpl:7-51; the templates of added and removed fields
(change_Addition.tmpl, change_Removal.tmpl) ask for the label alone. -/
def fieldView (d : MemberDelta) (c : Change Opts) : Res MemberView :=
  match d with
  | .added _ => .ok (.fieldAdded (verdictOf o c))
  | .removed _ => .ok (.fieldRemoved (verdictOf o c))
  | .changed l r => do
    let nom ← l.name lp E.print.lim
    let subs ← fieldSubs E lp rp l r c.collect
    let a ← annoViewOf E o lp rp l.attribs r.attribs "RuntimeVisibleAnnotations"
      (← childNamed "FieldAnnotationsChange" c.collect)
    let b ← annoViewOf E o lp rp l.attribs r.attribs "RuntimeInvisibleAnnotations"
      (← childNamed "FieldInvisibleAnnotationsChange" c.collect)
    .ok (.field (verdictOf o c) nom subs a b)

/-- javatools/cheetah/classdiff_MethodCodeChange.tmpl:157-172 -/
def codeViewOf (l r : Option CodeInfo) (c : Change Opts) : Res CodeView :=
  match codeDetails c.isChange l r with
  | .error e => .error e
  | .ok (dual, table) => .ok ⟨verdictOf o c, dual, table⟩

/-- A child of `ClassMethodsChange` with the methods it was made from:
javatools/cheetah/classdiff_MethodChange.tmpl:7-56, classdiff_MethodAdded.tmpl:6-26,
classdiff_MethodRemoved.tmpl:6-26 -/
def methodView (d : MemberDelta) (c : Change Opts) : Res MemberView :=
  match d with
  | .added r => do
    let head ← methodHead E r rp
    let subs ← lonelySubs E r rp
    .ok (.methodAdded (verdictOf o c) head subs)
  | .removed l => do
    let head ← methodHead E l lp
    let subs ← lonelySubs E l lp
    .ok (.methodRemoved (verdictOf o c) head subs)
  | .changed l r => do
    let head ← methodHead E l lp
    let subs ← methodSubs E lp rp l r c.collect
    let a ← annoViewOf E o lp rp l.attribs r.attribs "RuntimeVisibleAnnotations"
      (← childNamed "MethodAnnotationsChange" c.collect)
    let b ← annoViewOf E o lp rp l.attribs r.attribs "RuntimeInvisibleAnnotations"
      (← childNamed "MethodInvisibleAnnotationsChange" c.collect)
    let code ← codeViewOf o (← l.getCode lp E.print.lim) (← r.getCode rp E.print.lim)
      (← childNamed "MethodCodeChange" c.collect)
    .ok (.method (verdictOf o c) head subs a b code)
end

/-- Each child with what it was made from. -/
def viewsOf (view : MemberDelta → Change Opts → Res MemberView) :
    List MemberDelta → List (Change Opts) → Res (List MemberView)
  | d :: ds, c :: cs =>
    match view d c with
    | .error e => .error e
    | .ok v =>
      match viewsOf view ds cs with
      | .error e => .error e
      | .ok vs => .ok (v :: vs)
  | _, _ => .ok []

/-- javatools/cheetah/classdiff_ClassFieldsChange.tmpl:1, classdiff_ClassMethodsChange.tmpl:1
(subreport.tmpl:1-10, change_Change.tmpl:35-43): the members. -/
def membersViewOf (view : MemberDelta → Change Opts → Res MemberView) (lp rp : Pool)
    (ls rs : List Member) (c : Change Opts) : Res MembersView :=
  match sortedDeltas (fun m => m.identifier lp E.print.lim) (fun m => m.identifier rp E.print.lim) ls rs with
  | .error e => .error e
  | .ok ds =>
    match viewsOf view ds c.collect with
    | .error e => .error e
    | .ok vs => .ok ⟨verdictOf o c, c.getDescription, vs⟩

/-- javatools/cheetah/classdiff_JavaClassReport.tmpl:6-12 -/
def classTitle (l : ClassInfo) : Res Str := do
  let nom ← l.prettyThis E.print.lim
  .ok ("JavaClassReport ".toList ++ (splitChar '.' nom).getLastD [])

/-- javatools/classdiff.py:869-884 `JavaClassReport.check` with the HTML format
(javatools/report.py:475-528): what the page shows. -/
def classReportPage (l r : ClassInfo) : Res ClassPage :=
  match (javaClassChange E.texts E.print.lim E.print.depth l r).check with
  | .error e => .error e
  | .ok c =>
    match c.collect with
    | [info, annos, invisible, pool, fields, methods] => do
      let title ← classTitle E l
      let subs ← infoSubs E l r info.collect
      let a ← annoViewOf E o l.pool r.pool l.attribs r.attribs "RuntimeVisibleAnnotations" annos
      let b ← annoViewOf E o l.pool r.pool l.attribs r.attribs "RuntimeInvisibleAnnotations" invisible
      let p ← poolViewOf E o l.pool r.pool pool
      let fs ← membersViewOf E o (fieldView E o l.pool r.pool) l.pool r.pool l.fields r.fields fields
      let ms ← membersViewOf E o (methodView E o l.pool r.pool) l.pool r.pool l.methods r.methods methods
      .ok ⟨title, verdictOf o info, info.getDescription, subs, a, b, p, fs, ms⟩
    | _ => .error (.other "unreachable")

end Javatools
