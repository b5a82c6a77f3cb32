import Verif.Model.JarDiff
import Verif.Model.Dir
import Verif.Model.DistMp
/-
Model of the comparison of two distributions, javatools/distdiff.py:60-585, without worker
processes (those are in Model/DistMp.lean).

Simplifications:
* distributions are directory trees as in Model/Dir.lean; they do not change while they are
  compared;
* `zipfile`'s reading of an archive is a parameter;
* the encoding of text files is UTF-8;
* writing reports to files is not modelled, only what is compared and squashed.
-/
namespace Javatools

structure DistEnv extends JarEnv where
  /-- `ZipFile(filename)`, from the content of the file -/
  openJar : Bytes → Res Archive

/-! ### Files -/

/-- What is at a path, if it is a file. -/
def Forest.read (f : Forest) : List Str → Option Bytes
  | [] => none
  | [n] =>
    match f.find n with
    | some (.file b _) => some b
    | _ => none
  | n :: m :: ns =>
    match f.find n with
    | some (.dir s) => s.read (m :: ns)
    | _ => none

/-- The names in a relative path. -/
def pathParts (p : Str) : List Str := (splitAll '/' p).filter fun n => n ≠ [] ∧ n ≠ ['.']

/-- javatools/distdiff.py:86-99: `open(join(dir, entry), "rb").read()` -/
def readEntry (f : Forest) (entry : Str) : Res Bytes :=
  match f.read (pathParts entry) with
  | some b => .ok b
  | none => .error (.other "FileNotFoundError")

/-- `open(join(dir, entry), "rt").read()` -/
def readText (f : Forest) (entry : Str) : Res Str :=
  match readEntry f entry with
  | .error e => .error e
  | .ok b =>
    match decodeStrict b with
    | none => .error .unicodeDecodeError
    | some s => .ok (universalNewlines s)

/-- The lines of a file that is open in text mode: each ends with its newline, except perhaps the
last. `acc` is the current line reversed. -/
def fileLinesAux (acc : Str) : Str → List Str
  | [] => if acc.isEmpty then [] else [acc.reverse]
  | c :: cs => if c = '\n' then (c :: acc).reverse :: fileLinesAux [] cs else fileLinesAux (c :: acc) cs

def fileLines (s : Str) : List Str := fileLinesAux [] s

/-- `str.isspace` for one character -/
def isSpaceChar (c : Char) : Bool :=
  let n := c.toNat
  (0x09 ≤ n && n ≤ 0x0d) || (0x1c ≤ n && n ≤ 0x20) || n == 0x85 || n == 0xa0 || n == 0x1680 ||
  (0x2000 ≤ n && n ≤ 0x200a) || n == 0x2028 || n == 0x2029 || n == 0x202f || n == 0x205f ||
  n == 0x3000

/-- `s.rstrip()` -/
def rstripSpace (s : Str) : Str := (s.reverse.dropWhile isSpaceChar).reverse

/-- `zip_longest(xs, ys, fillvalue="")` -/
def zipLongest : List Str → List Str → List (Str × Str)
  | [], ys => ys.map fun y => ([], y)
  | x :: xs, ys => (x, ys.headD []) :: zipLongest xs ys.tail

/-- javatools/distdiff.py:152-162: the loop over `zip_longest(lfd, rfd, fillvalue="")` -/
def linesAlike (xs ys : List Str) : Bool :=
  (zipLongest xs ys).all fun p => !decide (rstripSpace p.1 ≠ rstripSpace p.2)

/-! ### Contents -/

/-- javatools/distdiff.py:115-117: the part of `is_ignored` about names. -/
def filenameIgnored (entry : Str) (o : DiffOpts) : Bool := fnmatches entry o.filenames

/-- javatools/distdiff.py:75-117 `DistContentChange(ldir, rdir, entry, change)` and the classes
derived from it. -/
def distContent (name label : String) (ign : IgnoreRule DiffOpts) (entry : Str) (change : Bool)
    (children : List (Change DiffOpts)) : Change DiffOpts :=
  .super { typeName := name, label := label.toList, entry := some entry, ign := ign,
           describe := some fun b => label.toList ++ " ".toList ++
             (if b then "has changed".toList else "is unchanged".toList) ++ ": ".toList ++ entry }
    none change none children

/-- javatools/distdiff.py:120-135, 225-232, 266-273: added and removed files. -/
def distOneSided (name label : String) (kind : Kind) (entry : Str) : Change DiffOpts :=
  .super { typeName := name, label := label.toList, entry := some entry, kind := kind,
           ign := .orElse (filenameIgnored entry),
           describe := some fun _ => label.toList ++ ": ".toList ++ entry }
    none true none []

/-- `GenericChange(left, right)` of two texts (javatools/change.py:235-361) -/
def textChange (a b : Str) : Change DiffOpts :=
  .leaf { typeName := "GenericChange", label := "Generic Change".toList }
    (some (checkImpl "Generic Change".toList (.ok (decide (a ≠ b))) (.ok a) (.ok b))) false none

/-- Both files, left first. -/
def bothFiles {α : Type} (f : Bytes → Res α) (l r : Forest) (entry : Str) : Res (α × α) :=
  match readEntry l entry with
  | .error e => .error e
  | .ok x =>
    match f x with
    | .error e => .error e
    | .ok a =>
      match readEntry r entry with
      | .error e => .error e
      | .ok y =>
        match f y with
        | .error e => .error e
        | .ok b => .ok (a, b)

variable (E : DistEnv) (l r : Forest)

/-- javatools/distdiff.py:138-178: `lineending`, as `check` leaves it. If the files cannot be read
then `check` raises and the value does not matter. -/
def lineEnding (entry : Str) : Bool :=
  match readText l entry, readText r entry with
  | .ok a, .ok b => linesAlike (fileLines a) (fileLines b)
  | _, _ => false

/-- javatools/distdiff.py:138-178 `DistTextChange`. Both files are read whether or not they differ.
What `is_ignored` says before `check` is not modelled. -/
def distTextChange (entry : Str) (change : Bool) : Change DiffOpts :=
  distContent "DistTextChange" "Distributed Text"
    (.orElse fun o => filenameIgnored entry o ||
      (lineEnding l r entry && o.attr "ignore_trailing_whitespace"))
    entry change
    (orRaise
      (match readText l entry with
      | .error e => .error e
      | .ok a =>
        match readText r entry with
        | .error e => .error e
        | .ok b => .ok (if a ≠ b then [textChange a b] else [])))

/-- javatools/distdiff.py:181-197 `DistManifestChange` -/
def distManifestChange (entry : Str) (change : Bool) : Change DiffOpts :=
  distContent "DistManifestChange" "Distributed Manifest" (.orElse (filenameIgnored entry)) entry
    change
    (if change then
      orRaise ((bothFiles emptyManifest.parse l r entry).map fun p =>
        [manifestChange E.order E.text p.1 p.2])
    else [])

/-- javatools/distdiff.py:200-207 `DistJarChange`. The archives are opened when the contents of the
`JarChange` are collected. -/
def distJarChange (entry : Str) (change : Bool) : Change DiffOpts :=
  distContent "DistJarChange" "Distributed JAR" (.orElse (filenameIgnored entry)) entry change
    (if change then
      orRaise ((bothFiles E.openJar l r entry).map fun p => [jarChange E.toJarEnv p.1 p.2])
    else [])

/-- javatools/distdiff.py:235-245 `DistClassChange` -/
def distClassChange (entry : Str) (change : Bool) : Change DiffOpts :=
  distContent "DistClassChange" "Distributed Java Class" (.orElse (filenameIgnored entry)) entry
    change
    (if change then
      orRaise ((bothFiles (fun b => unpackClass E.lim (.bytes b)) l r entry).map fun p =>
        [(javaClassChange E.T E.lim E.depth p.1 p.2).comap DiffOpts.flags])
    else [])

/-- javatools/jarinfo.py:51-57 -/
def jarPatterns : List Str :=
  ["*.ear".toList, "*.jar".toList, "*.rar".toList, "*.sar".toList, "*.war".toList]

/-- javatools/distdiff.py:60-72 -/
def textPatterns : List Str :=
  ["*.bat".toList, "*.cert".toList, "*.cfg".toList, "*.conf".toList, "*.dtd".toList,
   "*.html".toList, "*.ini".toList, "*.properties".toList, "*.sh".toList, "*.text".toList,
   "*.txt".toList, "*.xml".toList]

def distRemoved (entry : Str) : Change DiffOpts :=
  distOneSided "DistContentRemoved" "Distributed Content Removed" .removal entry

def distAdded (entry : Str) : Change DiffOpts :=
  distOneSided "DistContentAdded" "Distributed Content Added" .addition entry

/-- javatools/distdiff.py:306-365: the change object for an event. -/
def distEntryChange (shallow : Bool) : Event × Str → Change DiffOpts
  | (ev, entry) =>
    let deep := !shallow
    if deep && fnmatches entry jarPatterns then
      match ev with
      | .left => distOneSided "DistJarRemoved" "Distributed JAR Removed" .removal entry
      | .right => distOneSided "DistJarAdded" "Distributed JAR Added" .addition entry
      | .diff => distJarChange E l r entry true
      | .same => distJarChange E l r entry false
    else if deep && fnmatches entry ["*.class".toList] then
      match ev with
      | .left => distOneSided "DistClassRemoved" "Distributed Java Class Removed" .removal entry
      | .right => distOneSided "DistClassAdded" "Distributed Java Class Added" .addition entry
      | .diff => distClassChange E l r entry true
      | .same => distClassChange E l r entry false
    else if deep && fnmatches entry textPatterns then
      match ev with
      | .left => distRemoved entry
      | .right => distAdded entry
      | .diff => distTextChange l r entry true
      | .same => distTextChange l r entry false
    else if deep && fnmatches entry ["*/MANIFEST.MF".toList] then
      match ev with
      | .left => distRemoved entry
      | .right => distAdded entry
      | .diff => distManifestChange E l r entry true
      | .same => distManifestChange E l r entry false
    else
      match ev with
      | .left => distRemoved entry
      | .right => distAdded entry
      | .diff => distContent "DistContentChange" "Distributed Content"
          (.orElse (filenameIgnored entry)) entry true []
      | .same => distContent "DistContentChange" "Distributed Content"
          (.orElse (filenameIgnored entry)) entry false []

/-- javatools/distdiff.py:295-305: the order of the types. -/
def distTypes : List String :=
  ["DistClassAdded", "DistClassRemoved", "DistClassChange", "DistJarAdded", "DistJarRemoved",
   "DistJarChange", "DistTextChange", "DistManifestChange", "DistContentAdded",
   "DistContentRemoved", "DistContentChange"]

/-- javatools/distdiff.py:295-365 `DistChange.collect_impl`. All events are collected before
anything is yielded. -/
def distChildren (shallow : Bool) : Res (List (Change DiffOpts)) :=
  match compareDirs l r with
  | (_, some e) => .error e
  | (evs, none) =>
    .ok (iterateByType (fun c : Change DiffOpts => c.hdr.typeName)
      (evs.map (distEntryChange E l r shallow)) distTypes)

/-- javatools/distdiff.py:276-292 `DistChange`; the names of the directories in the description are
left out. -/
def distChange (shallow : Bool) : Change DiffOpts :=
  .super { typeName := "DistChange", label := "Distribution".toList } none false none
    (orRaise (distChildren E l r shallow))

/-- javatools/distdiff.py:558-585 `cli_dist_diff` without reports: the exit status. -/
def distDiffStatus (shallow : Bool) (o : DiffOpts) : Res Nat :=
  (distChange E l r shallow).check.map (Change.exitStatus o)

/-! ### Reports -/

/-- javatools/distdiff.py:390-401: is the change replaced by a `DistJarReport` or a
`DistClassReport`? -/
def isDistReported (c : Change DiffOpts) : Bool :=
  (decide (c.hdr.typeName = "DistJarChange") || decide (c.hdr.typeName = "DistClassChange")) &&
    c.isChange

/-- `check` of the `DistJarReport` or `DistClassReport` for a change. The child of a
`DistJarReport` is a `JarReport`; that of a `DistClassReport` has the children of the
`JavaClassChange` (javatools/distdiff.py:210-222, 248-263). -/
def distReportCheck (o : DiffOpts) (c : Change DiffOpts) : Res (Change DiffOpts) :=
  if c.hdr.typeName = "DistJarChange" then
    match c.hdr.entry with
    | none => .error (.other "unreachable")
    | some entry =>
      match bothFiles E.openJar l r entry with
      | .error e => .error e
      | .ok (a, b) =>
        match jarReportCheck E.toJarEnv a b o with
        | .error e => .error e
        | .ok d => .ok (.super { c.hdr with typeName := "DistJarReport" } none d.isChange none [d])
  else c.check

/-- What a worker sends back, or what `check_impl` keeps, for a sub-report: checked, then squashed
(javatools/distdiff.py:504-511, 537-546). -/
def distRun (o : DiffOpts) (c : Change DiffOpts) : Res (Change DiffOpts) :=
  (distReportCheck E l r o c).map fun d => d.squash false (some o)

/-- The operations of `DistReport.check_impl`. The children are those of `DistChange`; the ones that
`DistReport.collect_impl` replaces are the sub-reports. -/
def distJobs (o : DiffOpts) : Jobs (Change DiffOpts) where
  isReport := isDistReported
  check := Change.check
  run := distRun E l r o
  isChange := Change.isChange

/-- The `DistReport` after its check, with the children that were kept and the flag. -/
def distReport (out : List (Change DiffOpts) × Bool) : Change DiffOpts :=
  .super { typeName := "DistReport", label := "Distribution".toList } none out.2 none out.1

/-- javatools/distdiff.py:558-585 `cli_dist_diff` with reports and without worker processes: the
exit status. -/
def distReportStatus (shallow : Bool) (o : DiffOpts) : Res Nat :=
  match distChildren E l r shallow with
  | .error e => .error e
  | .ok cs => (seqCheck (distJobs E l r o) cs).map fun out => Change.exitStatus o (distReport out)

end Javatools
