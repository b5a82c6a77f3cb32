import Verif.Model.ManifestDiff
import Verif.Model.Zip
/-
Model of the comparison of two JARs, javatools/jardiff.py:58-551.

Simplifications:
* the archives have been opened; the texts put into messages are parameters;
* `open_left() … open_right()` of signature blocks and other files open both entries before
  reading; here the left one is opened and read first, which can only change which of two
  exceptions is raised;
* writing reports to files is not modelled, only what is compared and squashed.
-/
namespace Javatools

/-- What the comparison depends on besides the archives. -/
structure JarEnv where
  /-- texts of classes -/
  T : Texts
  /-- recursion limits, see Model/ClassFile and Model/Annotation -/
  lim : Nat
  depth : Nat
  /-- order of iteration of a set that is built from a list -/
  order : List Str → List Str
  /-- text of a section -/
  text : Section → Str
  /-- Unicode's upper case mapping -/
  up : Char → Str

/-- The children of a composite whose collection raises `e`. -/
def raising {O : Type} (e : PyErr) : List (Change O) :=
  [.leaf { typeName := "", label := [] } (some (.error e)) false none]

/-- The children of a composite whose collection may raise. -/
def orRaise {O : Type} : Res (List (Change O)) → List (Change O)
  | .ok cs => cs
  | .error e => raising e

/-! ### Contents -/

/-- javatools/jardiff.py:116-118: `JarContentChange.is_ignored` -/
def entryIgnored (entry : Str) (o : DiffOpts) : Bool := fnmatches entry o.jarEntries

/-- javatools/jardiff.py:208-209 and others -/
def signatureIgnored (o : DiffOpts) : Bool := o.attr "ignore_jar_signature"

/-- javatools/jardiff.py:80-118 `JarContentChange(l, r, entry, is_change)` and the classes derived
from it; `children` is what `collect_impl` gives for a changed entry. -/
def jarContent (name label : String) (ign : IgnoreRule DiffOpts) (entry : Str) (isChange : Bool)
    (children : List (Change DiffOpts)) : Change DiffOpts :=
  .super { typeName := name, label := label.toList, entry := some entry, ign := ign,
           describe := some fun b => label.toList ++ " ".toList ++
             (if b then "has changed".toList else "is unchanged".toList) ++ ": ".toList ++ entry }
    none isChange none (if isChange then children else [])

/-- javatools/jardiff.py:121-146 `JarContentAdded`, `JarContentRemoved` and the classes derived
from them. -/
def jarOneSided (name label : String) (kind : Kind) (ign : IgnoreRule DiffOpts) (entry : Str) :
    Change DiffOpts :=
  .super { typeName := name, label := label.toList, entry := some entry, kind := kind, ign := ign,
           describe := some fun _ => label.toList ++ ": ".toList ++ entry }
    none true none []

/-- `unpack_class` of what was read; text is refused (javatools/pack.py:347-355). -/
def unpackPayload (lim : Nat) : Payload → Res ClassInfo
  | .bytes b => unpackClass lim (.bytes b)
  | .text _ => .error .typeError

/-- `Manifest().parse` of what was read; text has no `decode`. -/
def parsePayload : Payload → Res Manifest
  | .bytes b => emptyManifest.parse b
  | .text _ => .error .attributeError

/-- Both entries read and interpreted, left first (javatools/jardiff.py:156-160, 193-199). -/
def readBoth {α : Type} (f : Payload → Res α) (l r : Archive) (entry : Str) : Res (α × α) :=
  match l.openRead entry with
  | .error e => .error e
  | .ok x =>
    match f x with
    | .error e => .error e
    | .ok a =>
      match r.openRead entry with
      | .error e => .error e
      | .ok y =>
        match f y with
        | .error e => .error e
        | .ok b => .ok (a, b)

/-- javatools/jardiff.py:273-282 `GenericFileChange(l, r)` -/
def genericFileChange (differ : Bool) : Change DiffOpts :=
  .leaf { typeName := "GenericFileChange", label := "Generic File".toList,
          describe := some fun _ => "[generic file change]".toList }
    (some (checkImpl "Generic File".toList (.ok differ) (.ok "[data]".toList)
      (.ok "[data]".toList))) false none

variable (E : JarEnv) (l r : Archive)

/-- javatools/jardiff.py:149-162 `JarClassChange` -/
def jarClassChange (entry : Str) (isChange : Bool) : Change DiffOpts :=
  jarContent "JarClassChange" "Java Class" (.orElse (entryIgnored entry)) entry isChange
    (orRaise ((readBoth (unpackPayload E.lim) l r entry).map fun p =>
      [(javaClassChange E.T E.lim E.depth p.1 p.2).comap DiffOpts.flags]))

/-- javatools/jardiff.py:186-201 `JarManifestChange` -/
def jarManifestChange (entry : Str) (isChange : Bool) : Change DiffOpts :=
  jarContent "JarManifestChange" "Jar Manifest" (.orElse (entryIgnored entry)) entry isChange
    (orRaise ((readBoth parsePayload l r entry).map fun p =>
      [manifestChange E.order E.text p.1 p.2]))

/-- javatools/jardiff.py:204-221 `JarSignatureFileChange` -/
def jarSignatureFileChange (entry : Str) (isChange : Bool) : Change DiffOpts :=
  jarContent "JarSignatureFileChange" "Jar Signature File" (.only signatureIgnored) entry isChange
    (orRaise ((readBoth parsePayload l r entry).map fun p =>
      [signatureManifestChange E.order E.text p.1 p.2]))

/-- javatools/jardiff.py:240-252 `JarSignatureBlockFileChange` -/
def jarSignatureBlockFileChange (entry : Str) (isChange : Bool) : Change DiffOpts :=
  jarContent "JarSignatureBlockFileChange" "Jar Signature Block File" (.only signatureIgnored) entry
    isChange
    (orRaise ((readBoth (fun p => .ok p) l r entry).map fun p =>
      [signatureBlockFileChange (decide (p.1 ≠ p.2))]))

/-- javatools/jardiff.py:285-294 `JarGenericFileChange` -/
def jarGenericFileChange (entry : Str) (isChange : Bool) : Change DiffOpts :=
  jarContent "JarGenericFileChange" "Jar Generic File" (.orElse (entryIgnored entry)) entry isChange
    (orRaise ((readBoth (fun p => .ok p) l r entry).map fun p =>
      [genericFileChange (decide (p.1 ≠ p.2))]))

/-- javatools/jardiff.py:331-394: the change object for an event. -/
def jarEntryChange : Event × Str → Change DiffOpts
  | (.same, entry) =>
    if entry = sManifestMf then jarManifestChange E l r entry false
    else if matchesSigfile E.up entry then jarSignatureFileChange E l r entry false
    else if matchesSigblock E.up entry then jarSignatureBlockFileChange l r entry false
    else if fnmatches entry ["*.class".toList] then jarClassChange E l r entry false
    else jarContent "JarContentChange" "Jar Content" (.orElse (entryIgnored entry)) entry false []
  | (.diff, entry) =>
    if entry = sManifestMf then jarManifestChange E l r entry true
    else if matchesSigfile E.up entry then jarSignatureFileChange E l r entry true
    else if matchesSigblock E.up entry then jarSignatureBlockFileChange l r entry true
    else if fnmatches entry ["*.class".toList] then jarClassChange E l r entry true
    else jarGenericFileChange l r entry true
  | (.left, entry) =>
    if matchesSigfile E.up entry then
      jarOneSided "JarSignatureFileRemoved" "Jar Signature File Removed" .removal
        (.only signatureIgnored) entry
    else if matchesSigblock E.up entry then
      jarOneSided "JarSignatureBlockFileRemoved" "Jar Signature Block File Removed" .removal
        (.only signatureIgnored) entry
    else if fnmatches entry ["*.class".toList] then
      jarOneSided "JarClassRemoved" "Java Class Removed" .removal (.orElse (entryIgnored entry)) entry
    else
      jarOneSided "JarContentRemoved" "Jar Content Removed" .removal (.orElse (entryIgnored entry))
        entry
  | (.right, entry) =>
    if matchesSigfile E.up entry then
      jarOneSided "JarSignatureFileAdded" "Jar Signature File Added" .addition
        (.only signatureIgnored) entry
    else if matchesSigblock E.up entry then
      jarOneSided "JarSignatureBlockFileAdded" "Jar Signature Block File Added" .addition
        (.only signatureIgnored) entry
    else if fnmatches entry ["*.class".toList] then
      jarOneSided "JarClassAdded" "Java Class Added" .addition (.orElse (entryIgnored entry)) entry
    else
      jarOneSided "JarContentAdded" "Jar Content Added" .addition (.orElse (entryIgnored entry)) entry

/-- javatools/jardiff.py:308-321: the order of the types. -/
def jarTypes : List String :=
  ["JarManifestChange", "JarSignatureFileAdded", "JarSignatureFileRemoved",
   "JarSignatureFileChange", "JarSignatureBlockFileAdded", "JarSignatureBlockFileRemoved",
   "JarSignatureBlockFileChange", "JarGenericFileChange", "JarContentAdded", "JarContentRemoved",
   "JarContentChange", "JarClassAdded", "JarClassRemoved", "JarClassChange"]

/-- javatools/jardiff.py:308-394 `JarContentsChange.collect_impl`. All events are collected before
anything is yielded. -/
def jarContentsChildren : Res (List (Change DiffOpts)) :=
  match compareZips E.order l r with
  | (_, some e) => .error e
  | (evs, none) =>
    .ok (iterateByType (fun c : Change DiffOpts => c.hdr.typeName) (evs.map (jarEntryChange E l r))
      jarTypes)

/-- javatools/jardiff.py:297-416 `JarContentsChange` -/
def jarContentsChange : Change DiffOpts :=
  .super { typeName := "JarContentsChange", label := "JAR Contents".toList } none false none
    (orRaise (jarContentsChildren E l r))

/-- javatools/jardiff.py:58-77 `JarTypeChange` -/
def jarTypeChange : Change DiffOpts :=
  let pretty := fun a : Archive =>
    if a.exploded then "exploded JAR".toList else "zipped JAR file".toList
  .leaf { typeName := "JarTypeChange", label := "Jar type".toList }
    (some (checkImpl "Jar type".toList (.ok (!decide (l.exploded = r.exploded))) (.ok (pretty l))
      (.ok (pretty r)))) false none

/-- javatools/jardiff.py:419-425 `JarChange` -/
def jarChange : Change DiffOpts :=
  .super { typeName := "JarChange", label := "JAR".toList } none false none
    [jarTypeChange l r, jarContentsChange E l r]

/-- javatools/jardiff.py:518-545 `cli_jars_diff` without reports: the exit status. -/
def jarDiffStatus (o : DiffOpts) : Res Nat := (jarChange E l r).check.map (Change.exitStatus o)

/-! ### Reports -/

/-- javatools/jardiff.py:442-453: is the change replaced by a `JarClassReport`? -/
def isReported (c : Change DiffOpts) : Bool :=
  decide (c.hdr.typeName = "JarClassChange") && c.isChange

/-- javatools/jardiff.py:456-481 `JarContentsReport.check_impl`: the loop, with the children that
are kept. A `JarClassReport` has the same children as the `JarClassChange` it replaces, up to
their names. -/
def reportAll (o : DiffOpts) : List (Change DiffOpts) → Bool → Res (List (Change DiffOpts) × Bool)
  | [], c => .ok ([], c)
  | x :: xs, c =>
    match x.check with
    | .error e => .error e
    | .ok x' =>
      match reportAll o xs (c || x'.isChange) with
      | .error e => .error e
      | .ok (xs', c') =>
        .ok ((if isReported x then x'.squash false (some o) else x') :: xs', c')

/-- javatools/jardiff.py:484-511 `JarReport.check` with the reporter's options: the checked
object. -/
def jarReportCheck (o : DiffOpts) : Res (Change DiffOpts) :=
  match (jarTypeChange l r).check with
  | .error e => .error e
  | .ok t =>
    match jarContentsChildren E l r with
    | .error e => .error e
    | .ok cs =>
      match reportAll o cs false with
      | .error e => .error e
      | .ok (cs', c) =>
        .ok (.super { typeName := "JarReport", label := "JAR".toList } none
          (false || t.isChange || c) none
          [t, .super { typeName := "JarContentsReport", label := "JAR Contents".toList } none c none
            cs'])

/-- javatools/jardiff.py:518-545 `cli_jars_diff` with reports: the exit status. -/
def jarReportStatus (o : DiffOpts) : Res Nat := (jarReportCheck E l r o).map (Change.exitStatus o)

end Javatools
