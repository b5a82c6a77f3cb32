import Verif.Model.Text
/-
Model of how the HTML report finds the Cheetah template of a change (javatools/report.py:531-606,
javatools/cheetah/__init__.py:28-53) and of Python's method resolution order, which it follows.

`object`, which every class has last in its order, is left out. A template is its name.
-/
namespace Javatools

/-! ### The method resolution order -/

section
variable {κ : Type} [DecidableEq κ]

/-- Classes with their bases, in the order in which they are defined. -/
abbrev Hier (κ : Type) := List (κ × List κ)

/-- The first head that is in no tail. -/
def pickHead (all : List (List κ)) : List (List κ) → Option κ
  | [] => none
  | [] :: ls => pickHead all ls
  | (h :: _) :: ls => if all.any (fun l => decide (h ∈ l.tail)) then pickHead all ls else some h

/-- The list without `h` at its head. -/
def dropHead (h : κ) : List κ → List κ
  | [] => []
  | x :: xs => if x = h then xs else x :: xs

/-- The merge of the C3 linearization; the number bounds the steps, each of which takes an element
away. `none` is a `TypeError` from the `class` statement. -/
def c3Merge : Nat → List (List κ) → Option (List κ)
  | n, ls =>
    if ls.all List.isEmpty then some []
    else
      match n with
      | 0 => none
      | n + 1 =>
        match pickHead ls ls with
        | none => none
        | some h => (c3Merge n (ls.map (dropHead h))).map (h :: ·)

/-- All of a list, or nothing. -/
def allSome {α β : Type} (f : α → Option β) : List α → Option (List β)
  | [] => some []
  | x :: xs =>
    match f x, allSome f xs with
    | some y, some ys => some (y :: ys)
    | _, _ => none

/-- `type.mro`; the newest class comes first here. -/
def mroRev : Hier κ → κ → Option (List κ)
  | [], _ => none
  | (d, bases) :: older, c =>
    if d = c then
      match allSome (fun b => mroRev older b) bases with
      | none => none
      | some ls => (c3Merge ((ls ++ [bases]).map List.length).sum (ls ++ [bases])).map (c :: ·)
    else mroRev older c

/-- `type.mro` -/
def mro (h : Hier κ) (c : κ) : Option (List κ) := mroRev h.reverse c

/-! ### Templates -/

/-- javatools/report.py:531-569 `_compose_cheetah_template_map`: what is in the cache then, and the
exception. `pk pn` is the module `javatools.pn`: its attributes, or the exception from importing
it. -/
def composeMap (pk : Str → Res (Str → Option κ)) :
    PyDict κ Str → List Str → PyDict κ Str × Option PyErr
  | cache, [] => (cache, none)
  | cache, tn :: ts =>
    match splitFirst '_' tn with
    | none => composeMap pk cache ts
    | some (pn, cn) =>
      match pk pn with
      | .error e => (cache, some e)
      | .ok attrs =>
        match attrs cn with
        | none => (cache, some (.other "Exception"))
        | some cc => composeMap pk (cache.set cc tn) ts

/-- javatools/report.py:576-585 `cheetah_template_map`, and what is in the cache then. -/
def templateMap (pk : Str → Res (Str → Option κ)) (templates : List Str) (cache : PyDict κ Str) :
    Res (PyDict κ Str) × PyDict κ Str :=
  if cache ≠ [] then (.ok cache, cache)
  else
    match composeMap pk cache templates with
    | (m, none) => (.ok m, m)
    | (m, some e) => (.error e, m)

/-- javatools/report.py:598-601: the loop. -/
def firstTemplate (tm : PyDict κ Str) : List κ → Option Str
  | [] => none
  | t :: ts =>
    match tm.get? t with
    | some tmpl => some tmpl
    | none => firstTemplate tm ts

/-- javatools/report.py:588-606 `resolve_cheetah_template`, and what is in the cache then;
`order` is the method resolution order of the class. -/
def resolveTemplate (pk : Str → Res (Str → Option κ)) (templates : List Str) (cache : PyDict κ Str)
    (order : List κ) : Res Str × PyDict κ Str :=
  match templateMap pk templates cache with
  | (.error e, cache) => (.error e, cache)
  | (.ok tm, cache) =>
    match firstTemplate tm order with
    | some t => (.ok t, cache)
    | none => (.error (.other "Exception"), cache)
end

/-! ### The classes and templates of the package -/

/-- javatools/change.py:121-582: the changes and their base classes, as they come in the file. -/
def changeClassesBase : Hier String := [
  ("Change", []),
  ("Removal", ["Change"]),
  ("Addition", ["Change"]),
  ("GenericChange", ["Change"]),
  ("SuperChange", ["GenericChange"]),
  ("SquashedChange", ["Change"]),
  ("SquashedRemoval", ["SquashedChange", "Removal"]),
  ("SquashedAddition", ["SquashedChange", "Addition"])]

/-- javatools/classdiff.py:90-869: the changes and their base classes, as they come in the file. -/
def classdiffClasses : Hier String := [
  ("ClassNameChange", ["GenericChange"]),
  ("ClassVersionChange", ["GenericChange"]),
  ("ClassPlatformChange", ["GenericChange"]),
  ("ClassSuperclassChange", ["GenericChange"]),
  ("ClassInterfacesChange", ["GenericChange"]),
  ("ClassAccessflagsChange", ["GenericChange"]),
  ("ClassDeprecationChange", ["GenericChange"]),
  ("ClassSignatureChange", ["GenericChange"]),
  ("AnnotationsChange", ["GenericChange"]),
  ("InvisibleAnnotationsChange", ["AnnotationsChange"]),
  ("ClassAnnotationsChange", ["AnnotationsChange"]),
  ("ClassInvisibleAnnotationsChange", ["InvisibleAnnotationsChange"]),
  ("ClassInfoChange", ["SuperChange"]),
  ("MemberSuperChange", ["SuperChange"]),
  ("MemberAdded", ["Addition"]),
  ("MemberRemoved", ["Removal"]),
  ("ClassMembersChange", ["SuperChange"]),
  ("CodeAbsoluteLinesChange", ["GenericChange"]),
  ("CodeRelativeLinesChange", ["GenericChange"]),
  ("CodeStackChange", ["GenericChange"]),
  ("CodeLocalsChange", ["GenericChange"]),
  ("CodeExceptionChange", ["GenericChange"]),
  ("CodeConstantsChange", ["GenericChange"]),
  ("CodeBodyChange", ["GenericChange"]),
  ("MethodNameChange", ["GenericChange"]),
  ("MethodTypeChange", ["GenericChange"]),
  ("MethodSignatureChange", ["GenericChange"]),
  ("MethodParametersChange", ["GenericChange"]),
  ("MethodAccessflagsChange", ["GenericChange"]),
  ("MethodAbstractChange", ["GenericChange"]),
  ("MethodExceptionsChange", ["GenericChange"]),
  ("MethodCodeChange", ["SuperChange"]),
  ("MethodDeprecationChange", ["GenericChange"]),
  ("MethodAnnotationsChange", ["AnnotationsChange"]),
  ("MethodInvisibleAnnotationsChange", ["InvisibleAnnotationsChange"]),
  ("MethodChange", ["MemberSuperChange"]),
  ("FieldNameChange", ["GenericChange"]),
  ("FieldTypeChange", ["GenericChange"]),
  ("FieldSignatureChange", ["GenericChange"]),
  ("FieldAccessflagsChange", ["GenericChange"]),
  ("FieldConstvalueChange", ["GenericChange"]),
  ("FieldDeprecationChange", ["GenericChange"]),
  ("FieldAnnotationsChange", ["AnnotationsChange"]),
  ("FieldInvisibleAnnotationsChange", ["InvisibleAnnotationsChange"]),
  ("FieldChange", ["MemberSuperChange"]),
  ("FieldAdded", ["MemberAdded"]),
  ("FieldRemoved", ["MemberRemoved"]),
  ("ClassFieldsChange", ["ClassMembersChange"]),
  ("MethodAdded", ["MemberAdded"]),
  ("MethodRemoved", ["MemberRemoved"]),
  ("ClassMethodsChange", ["ClassMembersChange"]),
  ("ClassConstantPoolChange", ["GenericChange"]),
  ("JavaClassChange", ["SuperChange"]),
  ("JavaClassReport", ["JavaClassChange"])]

/-- javatools/manifest.py:127-662: the changes and their base classes, as they come in the file. -/
def manifestClasses : Hier String := [
  ("ManifestSectionChange", ["GenericChange"]),
  ("ManifestSectionAdded", ["ManifestSectionChange", "Addition"]),
  ("ManifestSectionRemoved", ["ManifestSectionChange", "Removal"]),
  ("ManifestMainChange", ["GenericChange"]),
  ("ManifestChange", ["SuperChange"]),
  ("SignatureManifestChange", ["ManifestChange"]),
  ("SignatureBlockFileChange", ["GenericChange"])]

/-- javatools/jardiff.py:58-484: the changes and their base classes, as they come in the file. -/
def jardiffClasses : Hier String := [
  ("JarTypeChange", ["GenericChange"]),
  ("JarContentChange", ["SuperChange"]),
  ("JarContentAdded", ["JarContentChange", "Addition"]),
  ("JarContentRemoved", ["JarContentChange", "Removal"]),
  ("JarClassAdded", ["JarContentAdded"]),
  ("JarClassRemoved", ["JarContentRemoved"]),
  ("JarClassChange", ["JarContentChange"]),
  ("JarClassReport", ["JarClassChange"]),
  ("JarManifestChange", ["JarContentChange"]),
  ("JarSignatureFileChange", ["JarContentChange"]),
  ("JarSignatureFileAdded", ["JarContentAdded"]),
  ("JarSignatureFileRemoved", ["JarContentRemoved"]),
  ("JarSignatureBlockFileChange", ["JarContentChange"]),
  ("JarSignatureBlockFileAdded", ["JarContentAdded"]),
  ("JarSignatureBlockFileRemoved", ["JarContentRemoved"]),
  ("GenericFileChange", ["GenericChange"]),
  ("JarGenericFileChange", ["JarContentChange"]),
  ("JarContentsChange", ["SuperChange"]),
  ("JarChange", ["SuperChange"]),
  ("JarContentsReport", ["JarContentsChange"]),
  ("JarReport", ["JarChange"])]

/-- javatools/distdiff.py:75-368: the changes and their base classes, as they come in the file. -/
def distdiffClasses : Hier String := [
  ("DistContentChange", ["SuperChange"]),
  ("DistContentAdded", ["DistContentChange", "Addition"]),
  ("DistContentRemoved", ["DistContentChange", "Removal"]),
  ("DistTextChange", ["DistContentChange"]),
  ("DistManifestChange", ["DistContentChange"]),
  ("DistJarChange", ["DistContentChange"]),
  ("DistJarReport", ["DistJarChange"]),
  ("DistJarAdded", ["DistContentAdded"]),
  ("DistJarRemoved", ["DistContentRemoved"]),
  ("DistClassChange", ["DistContentChange"]),
  ("DistClassReport", ["DistClassChange"]),
  ("DistClassAdded", ["DistContentAdded"]),
  ("DistClassRemoved", ["DistContentRemoved"]),
  ("DistChange", ["SuperChange"]),
  ("DistReport", ["DistChange"])]

/-- All changes. -/
def changeClasses : Hier String :=
  changeClassesBase ++ classdiffClasses ++ manifestClasses ++ jardiffClasses ++ distdiffClasses

/-- The modules of the package that templates are named after: the changes that each has as
attributes. No other class is named like one of them. -/
def packageModule (pn : Str) : Res (Str → Option String) :=
  match [("change", changeClassesBase), ("classdiff", classdiffClasses),
      ("manifest", manifestClasses), ("jardiff", jardiffClasses),
      ("distdiff", distdiffClasses)].find? (fun p => p.1.toList = pn) with
  | none => .error (.other "ModuleNotFoundError")
  | some p => .ok fun cn => (p.2.find? fun c => c.1.toList = cn).map Prod.fst

/-- The files javatools/cheetah/*.tmpl, sorted as `iter_modules` gives them. -/
def packageTemplates : List Str := [
  "change_Addition".toList,
  "change_Change".toList,
  "change_Removal".toList,
  "change_SquashedChange".toList,
  "change_SuperChange".toList,
  "classdiff_AnnotationsChange".toList,
  "classdiff_ClassConstantPoolChange".toList,
  "classdiff_ClassFieldsChange".toList,
  "classdiff_ClassInfoChange".toList,
  "classdiff_ClassMethodsChange".toList,
  "classdiff_FieldChange".toList,
  "classdiff_JavaClassReport".toList,
  "classdiff_MethodAdded".toList,
  "classdiff_MethodChange".toList,
  "classdiff_MethodCodeChange".toList,
  "classdiff_MethodRemoved".toList,
  "distdiff_DistClassChange".toList,
  "distdiff_DistContentChange".toList,
  "distdiff_DistReport".toList,
  "jardiff_JarClassChange".toList,
  "jardiff_JarContentChange".toList,
  "jardiff_JarContentsReport".toList,
  "jardiff_JarReport".toList,
  "manifest_ManifestChange".toList,
  "report".toList,
  "subreport".toList]

end Javatools
