import Verif.Model.JarUtil
import Verif.Model.Dir
/-
The command lines of javatools/manifest.py:849-1060 and javatools/jarutil.py:223-372.

Simplifications. The file system is a function from path texts; nothing changes while a command
runs and every existing file can be read. What `ZipFile(name)` gives (or raises) is part of the
world. A command gets the namespace that
`argparse` returns; Model/KnownArgs.lean has the command lines. A digest is taken
of the whole content (chunking: C57). The written file is a result; its directories are assumed to
be creatable. A `None` exit status is 0.
-/
namespace Javatools

/-- What is at a path. -/
inductive Node where
  | missing
  | file (content : Bytes)
  | dir (entries : Forest)

structure World where
  node : Str → Node
  /-- `ZipFile(name)` -/
  zip : Str → Res Zip

def eFileNotFound : PyErr := .other "FileNotFoundError"

/-- A lazily produced sequence: its items and the exception that ends it, if any. The content of an
item is read when it is used. -/
abbrev Paths := List (Str × Res Bytes) × Option PyErr

/-- javatools/manifest.py:849-858 `directory_generator`: the base name is cut, not the path. -/
def directoryGenerator (dirname : Str) (f : Forest) (trim : Nat) : List (Str × Res Bytes) :=
  (f.walk []).flatMap fun w =>
    w.2.2.map fun g => (pathJoin (w.1.foldl pathJoin dirname) (g.1.drop trim), .ok g.2)

/-- javatools/manifest.py:861-875 `multi_path_generator` -/
def multiPathGenerator (W : World) (pathnames : List Str) : List (Str × Res Bytes) :=
  pathnames.flatMap fun p =>
    match W.node p with
    | .dir f => directoryGenerator p f 0
    | .file b => [(p, .ok b)]
    | .missing => [(p, .error eFileNotFound)]

/-- javatools/manifest.py:919-923: the entries of an archive. -/
def zipEntries (z : Zip) : List Str → Paths
  | [] => ([], none)
  | f :: fs =>
    match f.getLast? with
    | none => ([], some .indexError)
    | some c =>
      let r := zipEntries z fs
      if c ≠ '/' then ((f, zipRead z f) :: r.1, r.2) else r

/-- javatools/manifest.py:903-924 `single_path_generator` -/
def singlePathGenerator (W : World) (pathname : Str) : Paths :=
  match W.node pathname with
  | .dir f =>
    let trim := if pathname.getLast? ≠ some '/' then pathname.length + 1 else pathname.length
    (directoryGenerator pathname f trim, none)
  | _ =>
    match W.zip pathname with
    | .error e => ([], some e)
    | .ok z => zipEntries z (namelist z)

/-- The namespace `cli_create` works with: one list of patterns for each `-i`. -/
structure CreateArgs where
  content : Str
  recursive : Bool := false
  ignore : List (List Str) := []
  manifest : Option Str := none
  digest : Option Str := none

/-- javatools/manifest.py:954: `[_get_digest(digest) for digest in requested_digests]` -/
def getDigests (H : Hashes) : List Str → Res (List (Str × (Bytes → Bytes)))
  | [] => .ok []
  | d :: ds =>
    match H.get d with
    | .error e => .error e
    | .ok h =>
      match getDigests H ds with
      | .error e => .error e
      | .ok hs => .ok ((d, h) :: hs)

/-- javatools/manifest.py:974-975: the attributes of one section. -/
def setDigests (b : Bytes) (s : Section) : List (Str × (Bytes → Bytes)) → Res Section
  | [] => .ok s
  | (d, h) :: ds =>
    match setItem s (d ++ sDigest) (b64encode (h b)) with
    | .error e => .error e
    | .ok s => setDigests b s ds

/-- javatools/manifest.py:966-975: the loop over the entries; `end_` is what ends them. -/
def createSections (hs : List (Str × (Bytes → Bytes))) (ignores : List Str) (end_ : Option PyErr)
    (m : Manifest) : List (Str × Res Bytes) → Res Manifest
  | [] =>
    match end_ with
    | none => .ok m
    | some e => .error e
  | (name, content) :: rest =>
    if fnmatches name ignores then createSections hs ignores end_ m rest
    else
      match content with
      | .error e => .error e
      | .ok b =>
        match setDigests b (newSection name) hs with
        | .error e => .error e
        | .ok s => createSections hs ignores end_ { m with subs := PyDict.set m.subs name s } rest

/-- javatools/manifest.py:961-963: `ignores.extend(*args.ignore)` takes one argument. -/
def createIgnores : List (List Str) → Res (List Str)
  | [] => .ok ["META-INF/*".toList]
  | [ps] => .ok ("META-INF/*".toList :: ps)
  | _ => .error .typeError

/-- javatools/manifest.py:948-975: the manifest that `cli_create` builds. A string given to
`multi_path_generator` is the sequence of its characters. -/
def createManifest (H : Hashes) (W : World) (args : CreateArgs) : Res Manifest :=
  let requested := splitAll ',' (args.digest.getD "MD5,SHA1".toList)
  match getDigests H requested with
  | .error e => .error e
  | .ok hs =>
    let entries : Paths :=
      if args.recursive then (multiPathGenerator W (args.content.map fun c => [c]), none)
      else singlePathGenerator W args.content
    match createIgnores args.ignore with
    | .error e => .error e
    | .ok ignores => createSections hs ignores entries.2 emptyManifest entries.1

/-- javatools/manifest.py:927-987 `cli_create`: the content of the written file. Standard output
is a text stream, which refuses the bytes of the main section. -/
def cliCreate (H : Hashes) (W : World) (args : CreateArgs) : Res Bytes :=
  match createManifest H W args with
  | .error e => .error e
  | .ok m =>
    if args.manifest.getD [] = [] then .error .typeError else m.getData

variable (up : Char → Str)

/-- javatools/manifest.py:990-1006 `cli_verify`: the exit status and the failures that are
printed. -/
def cliVerifyManifest (H : Hashes) (W : World) (args : List Str) : Res (Int × List Str) :=
  match args with
  | [jar] =>
    if jar = "-h".toList then .ok (2, [])
    else
      match W.zip jar with
      | .error e => .error e
      | .ok z =>
        match loadFromJar z with
        | .error e => .error e
        | .ok m =>
          match verifyJarChecksums up H m z with
          | .error e => .error e
          | .ok (fails, _) => if fails.length > 0 then .ok (1, fails) else .ok (0, [])
  | _ => .ok (2, [])

/-- `str(x)` of a value or `None` -/
def orNone : Option Str → Str
  | none => "None".toList
  | some v => v

/-- javatools/manifest.py:1017-1027: the line printed for one query. -/
def queryLine (m : Manifest) (q : Str) : Str :=
  match splitFirst ':' q with
  | some (a, b) =>
    match PyDict.get? m.subs a with
    | some (i :: s) => q ++ " = ".toList ++ orNone (PyDict.get? (i :: s) b)
    | _ => q ++ " : No such section".toList
  | none => q ++ " = ".toList ++ orNone (PyDict.get? m.main q)

/-- javatools/manifest.py:1009-1027 `cli_query`: exit status and lines. -/
def cliQuery (W : World) (args : List Str) : Res (Int × List Str) :=
  match args with
  | jar :: q :: qs =>
    if "-h".toList ∈ args then .ok (1, ["Usage: manifest q file.jar key_to_query...".toList])
    else
      match W.zip jar with
      | .error e => .error e
      | .ok z =>
        match loadFromJar z with
        | .error e => .error e
        | .ok m => .ok (0, (q :: qs).map (queryLine m))
  | _ => .ok (1, ["Usage: manifest q file.jar key_to_query...".toList])

/-! ### jarutil -/

/-- `posixpath.normpath` on the components: empty ones and `.` go, `..` takes the name before it
away if there is one. `abs` is the number of leading slashes. -/
def normComps (abs : Bool) (acc : List Str) : List Str → List Str
  | [] => acc.reverse
  | c :: cs =>
    if c = [] ∨ c = ['.'] then normComps abs acc cs
    else if c ≠ ['.', '.'] ∨ (abs = false ∧ acc = []) ∨ acc.head? = some ['.', '.'] then
      normComps abs (c :: acc) cs
    else normComps abs acc.tail cs

/-- `posixpath.normpath` -/
def normpath (p : Str) : Str :=
  let abs := p.head? == some '/'
  let slashes : Str :=
    if abs then
      if "//".toList.isPrefixOf p && !("///".toList.isPrefixOf p) then "//".toList else "/".toList
    else []
  let r := slashes ++ slashed (normComps abs [] (splitAll '/' p))
  if r = [] then ['.'] else r

/-- The name of the entry `ZipFile.write(filename)` makes. -/
def arcname (p : Str) (isDir : Bool) : Str :=
  let a := (normpath p).dropWhile fun c => c = '/'
  zipName (if isDir then a ++ ['/'] else a)

/-- `jar.write(entry)` for something that was found in a directory. -/
def writeBelow (top : Str) (f : Forest) : Zip :=
  (f.walk []).flatMap fun w =>
    (w.2.1.map fun d => (arcname (pathJoin (w.1.foldl pathJoin top) d) true, [])) ++
    w.2.2.map fun g => (arcname (pathJoin (w.1.foldl pathJoin top) g.1) false, g.2)

/-- javatools/jarutil.py:237-242: the loop over the arguments. -/
def writeEntries (W : World) : List Str → Res Zip
  | [] => .ok []
  | e :: es =>
    match W.node e with
    | .missing => .error eFileNotFound
    | .file b =>
      match writeEntries W es with
      | .error x => .error x
      | .ok rest => .ok ((arcname e false, b) :: rest)
    | .dir f =>
      match writeEntries W es with
      | .error x => .error x
      | .ok rest => .ok ((arcname e true, []) :: (writeBelow e f ++ rest))

/-- javatools/jarutil.py:223-242 `create_jar`: the entries of the new archive. -/
def createJar (W : World) (entries : List Str) : Res Zip :=
  match emptyManifest.getData with
  | .error e => .error e
  | .ok d =>
    match writeEntries W entries with
    | .error e => .error e
    | .ok rest => .ok ((sMetaInfDir, []) :: (sManifestMf, d) :: rest)

def eCannotFindKeyType : PyErr := .other "CannotFindKeyTypeError"
def eMissingManifest : PyErr := .other "MissingManifestError"
def eCryptoDisabled : PyErr := .other "CryptoDisabled"

/-- javatools/jarutil.py:263-314 `cli_sign_jar`: the exit status and the archive that is written,
if any. -/
def cliSign (C : Crypto) (H : Hashes) (W : World) (jar cert key alias : Str) (chain : List Str)
    (digest : Str) : Res (Int × Option Zip) :=
  match W.zip jar with
  | .error e => .error e
  | .ok z =>
    match sign up C H z cert key alias (some chain) digest with
    | .ok z' => .ok (0, some z')
    | .error e =>
      if e = eCryptoDisabled then .ok (-1, none)
      else if e = eCannotFindKeyType then .ok (1, none)
      else if e = eMissingManifest then .ok (2, none)
      else .error e

/-- What a command line runs. -/
inductive Command where
  | create | query | verify | sign | usage
  deriving DecidableEq, Repr

/-- javatools/manifest.py:1042-1060 `main`: the function called with the remaining arguments. -/
def manifestMain (args : List Str) : Command × List Str :=
  match args with
  | _ :: c :: rest =>
    if c.isPrefixOf "create".toList then (.create, rest)
    else if c.isPrefixOf "query".toList then (.query, rest)
    else if c.isPrefixOf "verify".toList then (.verify, rest)
    else (.usage, [])
  | _ => (.usage, [])

/-- javatools/jarutil.py:358-372 `main` -/
def jarutilMain (args : List Str) : Command × List Str :=
  match args with
  | _ :: c :: rest =>
    if c.isPrefixOf "create".toList then (.create, rest)
    else if c.isPrefixOf "sign".toList then (.sign, rest)
    else if c.isPrefixOf "view".toList then (.verify, rest)
    else (.usage, [])
  | _ => (.usage, [])

end Javatools
