import Verif.Model.ClassInfoCli
import Verif.Model.Manifest
/-
Model of the command lines of jarinfo (javatools/jarinfo.py:178-298) and distinfo
(javatools/distinfo.py:203-255).

A JAR file is what `zip_file` and `ZipFile` make of it. The JSON documents are modelled as the
dictionaries that are dumped, not as text. Each part of a text report gets the `JarInfo` and leaves
it with what it has cached.
-/
namespace Javatools

/-- A file given to jarinfo: what `zip_file(fn)` gives, and the entries that `ZipFile(fn)` has. -/
structure JarFile where
  archive : Res Archive
  zip : Res Zip

/-- javatools/jarinfo.py:301-318 and the options of classinfo. -/
structure JarArgs where
  zip : Bool := false
  manifest : Bool := false
  provides : Bool := false
  requires : Bool := false
  classes : Bool := false
  info : InfoArgs := {}

/-- javatools/jarinfo.py:279-289: what `--verbose` sets. -/
def JarArgs.norm (o : JarArgs) : JarArgs :=
  { o with zip := o.zip || o.info.verbose, info := o.info.norm }

/-! ### Sorting pairs -/

/-- `sorted` of the items of a dictionary: no two keys are the same, so only the keys matter. -/
def insertItem {α : Type} (x : Str × α) : List (Str × α) → List (Str × α)
  | [] => [x]
  | y :: ys => if strLt x.1 y.1 then x :: y :: ys else y :: insertItem x ys

def sortItems {α : Type} : List (Str × α) → List (Str × α)
  | [] => []
  | x :: xs => insertItem x (sortItems xs)

/-! ### The manifest -/

/-- javatools/jarinfo.py:166-169 `get_manifest` -/
def JarFile.manifest (f : JarFile) : Res Manifest :=
  match f.zip with
  | .error e => .error e
  | .ok z => loadFromJar z

/-- javatools/jarinfo.py:187-188, 193-194: `for k, v in sorted(sect.items())` -/
def attrLines : List (Str × Str) → Out
  | [] => ([], none)
  | (k, v) :: is => andThen (sayLine ("  ".toList ++ k ++ ": ".toList ++ v)) (attrLines is)

/-- javatools/jarinfo.py:190-194 -/
def subLines : List (Str × Section) → Out
  | [] => ([], none)
  | (_, s) :: ss =>
    andThen (seqOut [sayLine [], sayLine "Manifest sub-section:".toList, attrLines (sortItems s)])
      (subLines ss)

/-- javatools/jarinfo.py:178-196 `cli_jar_manifest_info` -/
def printManifest (f : JarFile) : Out :=
  withRes f.manifest fun m =>
    if m.main = [] then seqOut [sayLine "Manifest not present.".toList, sayLine []]
    else
      seqOut [
        sayLine "Manifest main section:".toList,
        attrLines (sortItems m.main),
        subLines (sortItems m.subs),
        sayLine []]

/-! ### The other parts -/

/-- A part of the report: it prints something and leaves the `JarInfo` with its caches. -/
abbrev JarPart := JarInfo → Out × JarInfo

/-- One after the other, up to an exception. -/
def runParts : List JarPart → JarPart
  | [], j => (([], none), j)
  | p :: ps, j =>
    match p j with
    | ((t, some e), j) => ((t, some e), j)
    | ((t, none), j) => ((t ++ (runParts ps j).1.1, (runParts ps j).1.2), (runParts ps j).2)

/-- A part under a condition. -/
def partIf (b : Bool) (p : JarPart) : JarPart := fun j => if b then p j else (([], none), j)

section
/- `E` is as for classinfo; `pct comp uncomp` is `"%0.1f" % (float(comp) / float(uncomp) * 100)`. -/
variable (E : PrintEnv) (pct : Nat → Nat → Str)

/-- javatools/jarinfo.py:199-208 `cli_jar_zip_info` -/
def printZip : JarPart := fun j =>
  match j.getZipfile with
  | (r, j) =>
    (withRes r fun a => withRes (zipInfo a.entries) fun (files, dirs, uncomp, comp) =>
      seqOut [
        sayLine ("Contains ".toList ++ natText files ++ " files, ".toList ++ natText dirs ++
          " directories".toList),
        sayLine ("Uncompressed size is ".toList ++ natText uncomp),
        sayLine ("Compressed size is ".toList ++ natText comp ++ " (".toList ++ pct comp uncomp ++
          "%)".toList),
        sayLine []], j)

/-- javatools/jarinfo.py:219-225 `cli_jar_provides` -/
def printProvides (apiIgnore : List Str) : JarPart := fun j =>
  match j.getProvides E.lim [] with
  | (r, j) =>
    (seqOut [
      sayLine "jar provides:".toList,
      withRes r fun d => seqOut [nameLines (printedSymbols sortNames apiIgnore d), sayLine []]], j)

/-- javatools/jarinfo.py:228-234 `cli_jar_requires` -/
def printRequires (apiIgnore : List Str) : JarPart := fun j =>
  match j.getRequires E.lim [] with
  | (r, j) =>
    (seqOut [
      sayLine "jar requires:".toList,
      withRes r fun d => seqOut [nameLines (printedSymbols sortNames apiIgnore d), sayLine []]], j)

/-- javatools/jarinfo.py:211-216: the loop of `cli_jar_classes` -/
def classesLoop (o : InfoArgs) (a : Archive) : List Str → Out
  | [] => ([], none)
  | n :: ns =>
    andThen
      (withRes (a.classInfo E.lim n) fun c =>
        seqOut [sayLine ("Entry:  ".toList ++ n), printClassinfo E o c, sayLine []])
      (classesLoop o a ns)

/-- javatools/jarinfo.py:211-216 `cli_jar_classes` -/
def printClasses (o : InfoArgs) : JarPart := fun j =>
  match j.getZipfile with
  | (r, j) => (withRes r fun a => withRes a.classes fun ns => classesLoop E o a ns, j)

/-- javatools/jarinfo.py:237-251 `cli_jarinfo`: the parts. -/
def jarParts (o : JarArgs) (f : JarFile) : List JarPart := [
  partIf o.zip (printZip pct),
  partIf o.manifest (fun j => (printManifest f, j)),
  partIf o.provides (printProvides E o.info.apiIgnore),
  partIf o.requires (printRequires E o.info.apiIgnore),
  partIf o.classes (printClasses E o.info)]

/-- javatools/jarinfo.py:291-296: the report on one file. -/
def jarReport (o : JarArgs) (f : JarFile) : Out :=
  (runParts (jarParts E pct o f) { file := some f.archive }).1

/-- javatools/jarinfo.py:278-298 `cli` without `--json`. -/
def jarinfoCli (o : JarArgs) (files : List JarFile) : Out :=
  seqOut (files.map (jarReport E pct o.norm))

/-! ### JSON -/

/-- The dictionary `data`: the items whose keys start with `zip.` are there together; the percentage
is left out, for it is computed from the sizes. -/
structure JarJson where
  provides : Option (SymMap (String × Str)) := none
  requires : Option (SymMap (String × Str)) := none
  /-- whether it is an `ExplodedZipFile`; files, directories, uncompressed and compressed size -/
  zip : Option (Bool × Nat × Nat × Nat × Nat) := none
  deriving DecidableEq

/-- A value under a condition, with what is left of the `JarInfo`. -/
def askIf {α : Type} (b : Bool) (get : JarInfo → Res α × JarInfo) (j : JarInfo) :
    Res (Option α) × JarInfo :=
  if b then
    match get j with
    | (.error e, j) => (.error e, j)
    | (.ok x, j) => (.ok (some x), j)
  else (.ok none, j)

/-- javatools/jarinfo.py:264-273 -/
def jsonZip (j : JarInfo) : Res (Bool × Nat × Nat × Nat × Nat) × JarInfo :=
  match j.getZipfile with
  | (.error e, j) => (.error e, j)
  | (.ok a, j) => ((zipInfo a.entries).map fun x => (a.exploded, x), j)

/-- javatools/jarinfo.py:254-275 `cli_jarinfo_json`: what is dumped. -/
def jarJson (lim : Nat) (o : JarArgs) (f : JarFile) : Res JarJson :=
  match askIf o.provides (JarInfo.getProvides lim o.info.apiIgnore) { file := some f.archive } with
  | (.error e, _) => .error e
  | (.ok p, j) =>
    match askIf o.requires (JarInfo.getRequires lim o.info.apiIgnore) j with
    | (.error e, _) => .error e
    | (.ok r, j) =>
      match askIf o.zip jsonZip j with
      | (.error e, _) => .error e
      | (.ok z, _) => .ok { provides := p, requires := r, zip := z }

/-- javatools/jarinfo.py:278-298 `cli` with `--json`: the documents that are written, one after the
other, and the exception that ended it, if any. -/
def jarJsonLoop (lim : Nat) (o : JarArgs) : List JarFile → List JarJson × Option PyErr
  | [] => ([], none)
  | f :: fs =>
    match jarJson lim o f with
    | .error e => ([], some e)
    | .ok d => ((d :: (jarJsonLoop lim o fs).1), (jarJsonLoop lim o fs).2)

def jarinfoJson (lim : Nat) (o : JarArgs) (files : List JarFile) : List JarJson × Option PyErr :=
  jarJsonLoop lim o.norm files

end

/-! ### distinfo -/

/-- javatools/distinfo.py:258-283: the options. The parser also takes those of jarinfo. -/
structure DistArgs where
  provides : Bool := false
  requires : Bool := false
  jar : JarArgs := {}

/-- javatools/distinfo.py:203-208 `cli_dist_provides`, 211-216 `cli_dist_requires`: the symbols that
are given. -/
def printDistSymbols (word : String) (r : Res (SymMap DistSource)) : Out :=
  seqOut [
    sayLine ("distribution ".toList ++ word.toList ++ ":".toList),
    withRes r fun d => seqOut [nameLines (sortNames (PyDict.keys d)), sayLine []]]

/-- javatools/distinfo.py:219-225 `cli_distinfo` -/
def distInfoReport (E : DistEnv) (o : DistArgs) (b : DistBase) : Out :=
  let p := (DistInfo.getProvides E o.jar.info.apiIgnore { base := b })
  let d := if o.provides then p.2 else { base := b }
  seqOut [
    onlyIf o.provides (printDistSymbols "provides" p.1),
    onlyIf o.requires (printDistSymbols "requires" (d.getRequires E o.jar.info.apiIgnore).1)]

/-- The dictionary that is dumped. -/
structure DistInfoJson where
  provides : Option (SymMap DistSource) := none
  requires : Option (SymMap DistSource) := none
  deriving DecidableEq

/-- javatools/distinfo.py:230-239 `cli_distinfo_json` -/
def distInfoJson (E : DistEnv) (o : DistArgs) (b : DistBase) : Res DistInfoJson :=
  let p := (DistInfo.getProvides E o.jar.info.apiIgnore { base := b })
  let d := if o.provides then p.2 else { base := b }
  let r := (d.getRequires E o.jar.info.apiIgnore).1
  match o.provides, p.1 with
  | true, .error e => .error e
  | _, _ =>
    match o.requires, r with
    | true, .error e => .error e
    | _, _ =>
      .ok { provides := if o.provides then p.1.toOption else none
            requires := if o.requires then r.toOption else none }

end Javatools
