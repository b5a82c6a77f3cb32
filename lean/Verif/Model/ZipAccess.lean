import Verif.Model.Dir
/-
javatools/ziputils.py: directories as archives, recognising archives, opening and closing them, and
collecting the results of comparisons.

Simplifications: what is behind a symbolic link to a directory is a finite tree, and `..` there
leads to the directory with the link; nothing is unreadable; closing an archive that is open for
reading does not fail.
-/
namespace Javatools

/-! ### Directories -/

/-- The entries of a directory in the order of `os.scandir`, with symbolic links and things that
are neither files nor directories. -/
inductive FsTree where
  | nil
  | file (name : Str) (content : Bytes) (next : FsTree)
  | dir (name : Str) (sub : FsTree) (next : FsTree)
  | linkFile (name : Str) (content : Bytes) (next : FsTree)
  | linkDir (name : Str) (sub : FsTree) (next : FsTree)
  | dangling (name : Str) (next : FsTree)
  | special (name : Str) (next : FsTree)
  deriving DecidableEq

/-- What a path leads to, links followed. -/
inductive FsNode where
  | file (content : Bytes)
  | dir (sub : FsTree)
  | missing
  | special

namespace FsTree

/-- javatools/ziputils.py:233-239: the entry for a directory at this path. -/
def dirInfo (p : List Str) : ZEntry :=
  { name := pathJoin (relText p) [], size := 0, csize := 0, crc := 0, raw := [] }

/-- javatools/ziputils.py:248-254: the entry for a file at this path. -/
def fileInfo (p : List Str) (b : Bytes) : ZEntry :=
  { name := relText p, size := b.length, csize := b.length, crc := fileCrc32 b, raw := b }

/-- javatools/ziputils.py:241-258: the entries for the files of a directory. Links and special
files are passed over. -/
def fileInfos (at_ : List Str) : FsTree → List ZEntry
  | nil => []
  | file n b next => fileInfo (at_ ++ [n]) b :: next.fileInfos at_
  | dir _ _ next => next.fileInfos at_
  | linkFile _ _ next => next.fileInfos at_
  | linkDir _ _ next => next.fileInfos at_
  | dangling _ next => next.fileInfos at_
  | special _ next => next.fileInfos at_

/-- javatools/ziputils.py:232-258: the entries for the subdirectories; `os.walk` does not follow
links. -/
def subInfos (at_ : List Str) : FsTree → List ZEntry
  | nil => []
  | file _ _ next => next.subInfos at_
  | dir n s next =>
    dirInfo (at_ ++ [n]) :: (s.fileInfos (at_ ++ [n]) ++ s.subInfos (at_ ++ [n])) ++
      next.subInfos at_
  | linkFile _ _ next => next.subInfos at_
  | linkDir _ _ next => next.subInfos at_
  | dangling _ next => next.subInfos at_
  | special _ next => next.subInfos at_

/-- javatools/ziputils.py:227-258 `_collect_infos` -/
def collectInfos (t : FsTree) : List ZEntry := t.fileInfos [] ++ t.subInfos []

/-- What a name in the directory leads to. -/
def get (f : Str) : FsTree → Option FsNode
  | nil => none
  | file n b next => if n = f then some (.file b) else next.get f
  | dir n s next => if n = f then some (.dir s) else next.get f
  | linkFile n b next => if n = f then some (.file b) else next.get f
  | linkDir n s next => if n = f then some (.dir s) else next.get f
  | dangling n next => if n = f then some .missing else next.get f
  | special n next => if n = f then some .special else next.get f

end FsTree

/-- `..` from a directory, given with the directories above it; the top is its own parent. -/
def parentPlace : List FsTree → List FsTree
  | a :: b :: rest => b :: rest
  | st => st

/-- `open(path, 'rb').read()` for the parts of a path, beginning in the first of these directories;
the others are the directories above it. -/
def openParts : List FsTree → List Str → Res Bytes
  | _, [] => .error (.other "IsADirectoryError")
  | st, n :: ns =>
    if n = [] ∨ n = ['.'] then openParts st ns
    else if n = ['.', '.'] then openParts (parentPlace st) ns
    else
      match st.head? with
      | none => .error (.other "FileNotFoundError")
      | some t =>
        match t.get n with
        | none => .error (.other "FileNotFoundError")
        | some .missing => .error (.other "FileNotFoundError")
        | some .special => .error (.other "special file")
        | some (.file b) => if ns = [] then .ok b else .error (.other "NotADirectoryError")
        | some (.dir s) => openParts (s :: st) ns

/-- javatools/ziputils.py:261-301 `ExplodedZipFile`: the directory, with the directories above it,
and `members`. -/
structure Exploded where
  place : List FsTree
  members : Option (List ZEntry)

/-- `d[e.filename] = e` -/
def putInfo (e : ZEntry) : List ZEntry → List ZEntry
  | [] => [e]
  | x :: xs => if x.name = e.name then e :: xs else x :: putInfo e xs

namespace Exploded

/-- javatools/ziputils.py:275-276 `refresh` -/
def refresh (x : Exploded) : Exploded :=
  { x with members := some (((x.place.headD .nil).collectInfos).foldl (fun d e => putInfo e d) []) }

/-- javatools/ziputils.py:268-272 `__init__` -/
def new (t : FsTree) (above : List FsTree) : Exploded := refresh ⟨t :: above, none⟩

/-- javatools/ziputils.py:279-280 `getinfo` -/
def getinfo (x : Exploded) (name : Str) : Res (Option ZEntry) :=
  match x.members with
  | none => .error .attributeError
  | some d => .ok (d.find? fun e => e.name = name)

/-- javatools/ziputils.py:283-284 `namelist` -/
def namelist (x : Exploded) : Res (List Str) :=
  match x.members with
  | none => .error .attributeError
  | some d => .ok (sortNames (d.map ZEntry.name))

/-- javatools/ziputils.py:287-288 `infolist` -/
def infolist (x : Exploded) : Res (List ZEntry) :=
  match x.members with
  | none => .error .attributeError
  | some d => .ok d

/-- javatools/ziputils.py:291-297 `open` and `read`: `join` drops the directory if the name is an
absolute path. -/
def read (x : Exploded) (name : Str) : Res Bytes :=
  if name.head? = some '/' then openParts (x.place.getLast?.toList) (splitAll '/' name)
  else openParts x.place (splitAll '/' name)

/-- javatools/ziputils.py:300-301 `close` -/
def close (x : Exploded) : Exploded := { x with members := none }

end Exploded

/-! ### Recognising archives -/

/-- `zipfile.stringEndArchive` -/
def endSig : Bytes := [0x50, 0x4b, 5, 6]

/-- `zipfile.stringEndArchive64Locator` -/
def locatorSig : Bytes := [0x50, 0x4b, 6, 7]

/-- `seek(offset, 2)`: where that is. Before the beginning a file raises `OSError`, and a `BytesIO`
goes to the beginning. -/
def seekEnd (clamps : Bool) (b : Bytes) (offset : Int) : Option Nat :=
  if 0 ≤ (b.length : Int) + offset then some ((b.length : Int) + offset).toNat
  else if clamps then some 0 else none

/-- `zipfile._EndRecData64`, as far as it raises; otherwise there is a record. -/
def endRec64 (clamps : Bool) (b : Bytes) (offset : Int) : Res Bool :=
  match seekEnd clamps b (offset - 20) with
  | none => .ok true
  | some i =>
    let d := (b.drop i).take 20
    if d.length ≠ 20 then .ok true
    else if d.take 4 ≠ locatorSig then .ok true
    else if (d.drop 4).take 4 ≠ [0, 0, 0, 0] ∨ ¬ (d.drop 16 = [0, 0, 0, 0] ∨ d.drop 16 = [1, 0, 0, 0]) then
      .error (.other "BadZipFile")
    else
      match seekEnd clamps b (offset - 76) with
      | none => .error (.other "OSError")
      | some _ => .ok true

/-- `data.rfind(sig)` -/
def rfindSig (sig : Bytes) : Bytes → Option Nat
  | [] => if sig = [] then some 0 else none
  | x :: xs =>
    match rfindSig sig xs with
    | some k => some (k + 1)
    | none => if sig.isPrefixOf (x :: xs) then some 0 else none

/-- `bool(zipfile._EndRecData(fpin))` -/
def endRecData (clamps : Bool) (b : Bytes) : Res Bool :=
  match seekEnd clamps b (-22) with
  | none => .ok false
  | some i =>
    let d := b.drop i
    if d.length = 22 ∧ d.take 4 = endSig ∧ d.drop 20 = [0, 0] then endRec64 clamps b (-22)
    else
      let start := b.length - (65536 + 22)
      match rfindSig endSig (b.drop start) with
      | none => .ok false
      | some k =>
        if (((b.drop start).drop k).take 22).length ≠ 22 then .ok false
        else endRec64 clamps b ((start : Int) + k - b.length)

/-- Something with a `read` method. -/
structure ByteStream where
  content : Bytes
  pos : Nat
  hasTell : Bool := true
  hasSeek : Bool := true
  /-- otherwise `tell` and `seek` raise `OSError` -/
  seekable : Bool := true
  /-- a `BytesIO` -/
  clamps : Bool := false

/-- What is passed to `is_zipstream`. -/
inductive StreamArg where
  | str
  | bytes (b : Bytes)
  | view (b : Bytes)
  | stream (s : ByteStream)
  | other

/-- javatools/ziputils.py:196-210: the answer for a stream, and its position afterwards. -/
def streamTest (s : ByteStream) : Res (Bool × Nat) :=
  if s.hasTell ∧ ¬ s.seekable then .error (.other "OSError")
  else if ¬ s.hasSeek then .error .attributeError
  else if ¬ s.seekable then .error (.other "OSError")
  else if ¬ s.hasTell then .error .attributeError
  else
    match endRecData s.clamps s.content with
    | .ok r => .ok (r, s.pos)
    | .error (.other "OSError") => .ok (false, s.pos)
    | .error e => .error e

/-- javatools/ziputils.py:181-212 `is_zipstream` on Python 3, where `buffer` is `memoryview`:
`BytesIO` does not take a `str`, and `bytes` are neither. -/
def isZipstream : StreamArg → Res (Bool × Nat)
  | .str => .error .typeError
  | .bytes _ => .error .typeError
  | .view b => streamTest { content := b, pos := 0, clamps := true }
  | .stream s => streamTest s
  | .other => .error .typeError

/-! ### Opening and closing -/

/-- What is passed to `closing`: `None`, an object with `__enter__`, one with `close` only, and one
without either. -/
inductive Managed where
  | nothing | manager | closeable | bare
  deriving DecidableEq

/-- What happens in a `with` statement. -/
inductive WithStep where
  | body | close
  deriving DecidableEq

/-- `with closing(m) as x: body` (javatools/dirutils.py:182-225): the outcome, and what happened.
The objects with `__enter__` are archives and streams, where `__exit__` closes and returns nothing
that counts as true. -/
def withClosing {α : Type} (m : Managed) (closes : Res Unit) (body : Res α) : Res α × List WithStep :=
  match m with
  | .nothing => (.error .attributeError, [])
  | .bare => (body, [.body])
  | _ =>
    (match closes with
      | .error e => .error e
      | .ok _ => body, [.body, .close])

/-- What is at a path. -/
inductive PathKind where
  | directory (t : FsTree)
  /-- `is_zipfile` says yes -/
  | zip (opened : Res Archive)
  | other

/-- A directory as an archive with all its members. -/
def FsTree.archive (t : FsTree) : Archive :=
  { exploded := true, entries := t.collectInfos.foldl (fun d e => putInfo e d) [] }

/-- javatools/ziputils.py:304-316 `zip_file` -/
def zipFile (kind : Str → PathKind) (fn : Str) : Res Archive :=
  match kind fn with
  | .directory t => .ok t.archive
  | .zip r => r
  | .other => .error (.other "Exception")

inductive ZipOp where
  | opened (fn : Str)
  | closed (fn : Str)
  deriving DecidableEq

/-- `with open_zip(fn) as z: body` (javatools/ziputils.py:319-330) -/
def withZip {α : Type} (kind : Str → PathKind) (fn : Str) (body : Archive → Res α × List ZipOp) :
    Res α × List ZipOp :=
  match zipFile kind fn with
  | .error e => (.error e, [])
  | .ok a => ((body a).1, .opened fn :: (body a).2 ++ [.closed fn])

/-! ### Collecting -/

/-- The lists that are passed to `collect_compare_into`. -/
structure Groups where
  added : Option (List Str) := some []
  removed : Option (List Str) := some []
  altered : Option (List Str) := some []
  same : Option (List Str) := some []
  deriving DecidableEq

/-- javatools/ziputils.py:163-176, javatools/dirutils.py:163-182: one event. -/
def Groups.put (g : Groups) (e : Event × Str) : Groups :=
  match e.1 with
  | .left => { g with removed := g.removed.map (· ++ [e.2]) }
  | .right => { g with added := g.added.map (· ++ [e.2]) }
  | .diff => { g with altered := g.altered.map (· ++ [e.2]) }
  | .same => { g with same := g.same.map (· ++ [e.2]) }

/-- javatools/ziputils.py:156-178 `collect_compare_zips_into`, javatools/dirutils.py:155-184
`collect_compare_into`: the lists afterwards, and the exception. -/
def collectInto (evs : List (Event × Str) × Option PyErr) (g : Groups) : Groups × Option PyErr :=
  (evs.1.foldl Groups.put g, evs.2)

/-- javatools/ziputils.py:123-144 `collect_compare`, `collect_compare_into`: the lists are those of
the caller. -/
def collectNamed (order : List Str → List Str) (kind : Str → PathKind) (left right : Str)
    (g : Groups) : Res Groups × List ZipOp :=
  withZip kind left fun l => withZip kind right fun r =>
    (match collectInto (compareZips order l r) g with
      | (_, some e) => .error e
      | (g', none) => .ok g', [])

end Javatools
