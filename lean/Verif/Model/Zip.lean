import Verif.Model.Manifest
/-
Model of javatools/ziputils.py (comparison of archives, check sums, totals) and of the chunked
reading in javatools/manifest.py:804-846.

Archives are the lists of their entries, in the order of the directory of the archive; an entry of
an archive file is found by name as the last one of that name (`ZipFile.NameToInfo`). The order in
which Python iterates over a set is a parameter.
-/
namespace Javatools

/-! ### Reading in chunks -/

/-- `fd.read(size)` at the beginning of the remaining data: everything for `None` and negative
numbers. -/
def readSize {α : Type} (size : Option Int) (b : List α) : List α :=
  match size with
  | none => b
  | some n => if n < 0 then b else b.take n.toNat

/-- The loop `data = fd.read(size); while data: ...` (javatools/ziputils.py:348-358,
javatools/manifest.py:819-846); the first argument is the number of rounds left. -/
def chunksAux {α : Type} (size : Option Int) : Nat → List α → List (List α)
  | 0, _ => []
  | fuel + 1, b =>
    match readSize size b with
    | [] => []
    | x :: c => (x :: c) :: chunksAux size fuel (b.drop (x :: c).length)

/-- The chunks of some data. -/
def chunks {α : Type} (size : Option Int) (b : List α) : List (List α) := chunksAux size b.length b

/-! ### Check sums -/

/-- One bit of CRC-32 (reflected polynomial). -/
def crcBit (c : BitVec 32) : BitVec 32 :=
  if c.getLsbD 0 then (c >>> 1) ^^^ 0xEDB88320#32 else c >>> 1

def crcByte (c : BitVec 32) (b : UInt8) : BitVec 32 :=
  crcBit (crcBit (crcBit (crcBit (crcBit (crcBit (crcBit (crcBit
    (c ^^^ BitVec.ofNat 32 b.toNat))))))))

/-- `zlib.crc32(data, value)` -/
def crc32 (data : Bytes) (value : BitVec 32) : BitVec 32 := ~~~ (data.foldl crcByte (~~~ value))

/-- javatools/ziputils.py:215-224 `file_crc32`, for the content of the file. -/
def fileCrc32 (content : Bytes) (chunksize : Option Int := some 16384) : BitVec 32 :=
  (chunks chunksize content).foldl (fun check data => crc32 data check) 0

/-- A `hashlib` algorithm: the constructor, `update` and `digest` of its objects. -/
structure Hasher where
  State : Type
  init : State
  update : State → Bytes → State
  digest : State → Bytes

/-- javatools/manifest.py:804-816 `digest_chunks`: the objects are updated chunk by chunk. -/
def digestChunks (cs : List Bytes) (algorithms : List Hasher) : List Str :=
  algorithms.map fun a => b64encode (a.digest (cs.foldl a.update a.init))

/-! ### Archives -/

/-- An entry: the fields of its `ZipInfo` and the uncompressed data. -/
structure ZEntry where
  name : Str
  size : Nat
  csize : Nat
  crc : BitVec 32
  raw : Bytes
  deriving DecidableEq

/-- A `ZipFile` or an `ExplodedZipFile`. -/
structure Archive where
  exploded : Bool
  closed : Bool := false
  entries : List ZEntry
  deriving DecidableEq

/-- javatools/ziputils.py:227-258 `_collect_infos`: the entry for a directory (`none`) or a file. -/
def explodedEntry (p : Str × Option Bytes) : ZEntry :=
  match p.2 with
  | none => { name := p.1 ++ ['/'], size := 0, csize := 0, crc := 0, raw := [] }
  | some b => { name := p.1, size := b.length, csize := b.length, crc := fileCrc32 b, raw := b }

/-- A directory tree as an archive: its directories and files with their relative paths. -/
def explodedArchive (tree : List (Str × Option Bytes)) : Archive :=
  { exploded := true, entries := tree.map explodedEntry }

/-- `getinfo` -/
def Archive.find (a : Archive) (f : Str) : Option ZEntry :=
  a.entries.reverse.find? fun e => e.name = f

/-- `namelist()`; a closed `ExplodedZipFile` has no members (javatools/ziputils.py:283-284,
300-301). The order is not modelled. -/
def Archive.namelist (a : Archive) : Res (List Str) :=
  if a.exploded ∧ a.closed then .error .attributeError
  else .ok (a.entries.map ZEntry.name)

/-- What is read: bytes, or text when a file is opened in text mode. -/
inductive Payload where
  | bytes (b : Bytes)
  | text (s : Str)
  deriving DecidableEq

/-- Universal newlines of files opened in text mode. -/
def universalNewlines : Str → Str
  | [] => []
  | [c] => if c = '\r' then ['\n'] else [c]
  | c :: d :: cs =>
    if c = '\r' then
      if d = '\n' then '\n' :: universalNewlines cs else '\n' :: universalNewlines (d :: cs)
    else c :: universalNewlines (d :: cs)

/-- javatools/ziputils.py:333-345 `open_zip_entry(archive, f, 'r')` and reading everything. For
an `ExplodedZipFile` (291-292) this is `open(name, 'r')`, in text mode (UTF-8 is assumed). For a
`ZipFile` the size and the CRC are verified. Simplification: errors while reading happen at the
beginning. -/
def Archive.openRead (a : Archive) (f : Str) : Res Payload :=
  match a.find f with
  | none => .error .keyError
  | some e =>
    if a.exploded then
      match decodeStrict e.raw with
      | none => .error .unicodeDecodeError
      | some s => .ok (.text (universalNewlines s))
    else if a.closed then .error .valueError
    else if e.raw.length ≠ e.size ∨ crc32 e.raw 0 ≠ e.crc then .error (.other "BadZipFile")
    else .ok (.bytes e.raw)

/-- javatools/ziputils.py:348-358 `chunk_zip_entry` -/
def Payload.chunks : Payload → List Payload
  | .bytes b => (Javatools.chunks (some 16384) b).map .bytes
  | .text s => (Javatools.chunks (some 16384) s).map .text

/-- javatools/ziputils.py:117-120: the comparison of the chunks with `zip_longest`. -/
def chunksDiffer : List Payload → List Payload → Bool
  | [], [] => false
  | [], _ :: _ => true
  | _ :: _, [] => true
  | a :: as, b :: bs => if a ≠ b then true else chunksDiffer as bs

/-- javatools/ziputils.py:108-120 `_deep_different` -/
def deepDifferent (l r : Archive) (f : Str) : Res Bool :=
  match l.openRead f with
  | .error e => .error e
  | .ok x =>
    match r.openRead f with
    | .error e => .error e
    | .ok y => .ok (chunksDiffer x.chunks y.chunks)

/-- javatools/ziputils.py:90-105 `_different` -/
def different (l r : Archive) (f : Str) : Res Bool :=
  match l.find f, r.find f with
  | some a, some b =>
    if a.size = b.size ∧ a.crc = b.crc then deepDifferent l r f else .ok true
  | _, _ => .error .keyError

/-- javatools/dirutils.py:32-36 -/
inductive Event where
  | left | right | diff | same
  deriving DecidableEq

/-- The first loop of `compare_zips` (javatools/ziputils.py:69-84): the events and the exception
that ends them, if any. -/
def compareLeft (l r : Archive) (rl : List Str) : List Str → List (Event × Str) × Option PyErr
  | [] => ([], none)
  | f :: fs =>
    let go := fun ev => match compareLeft l r rl fs with
      | (evs, e) => (ev ++ evs, e)
    if f ∈ rl then
      match f.getLast? with
      | none => ([], some .indexError)
      | some '/' => go []
      | some _ =>
        match different l r f with
        | .error e => ([], some e)
        | .ok true => go [(.diff, f)]
        | .ok false => go [(.same, f)]
    else go [(.left, f)]

/-- javatools/ziputils.py:60-87 `compare_zips`, all of the generator. `order` gives the order of
iteration of a set that is built from a list. -/
def compareZips (order : List Str → List Str) (l r : Archive) : List (Event × Str) × Option PyErr :=
  match l.namelist with
  | .error e => ([], some e)
  | .ok ln =>
    match r.namelist with
    | .error e => ([], some e)
    | .ok rn =>
      match compareLeft l r rn (order ln) with
      | (evs, some e) => (evs, some e)
      | (evs, none) =>
        (evs ++ (order (rn.filter fun f => f ∉ ln)).map fun f => (.right, f), none)

/-- javatools/ziputils.py:48-57 `compare`: the generator does not run before the archives are
closed. `open_` is `zip_file`, which may raise. -/
def compareNamed (order : List Str → List Str) (open_ : Str → Res Archive) (left right : Str) :
    Res (List (Event × Str) × Option PyErr) :=
  match open_ left with
  | .error e => .error e
  | .ok l =>
    match open_ right with
    | .error e => .error e
    | .ok r => .ok (compareZips order { l with closed := true } { r with closed := true })

/-- javatools/ziputils.py:156-178 `collect_compare_zips_into` with empty lists: added, removed,
altered, same. -/
def collectZips (order : List Str → List Str) (l r : Archive) :
    Res (List Str × List Str × List Str × List Str) :=
  match compareZips order l r with
  | (_, some e) => .error e
  | (evs, none) =>
    let group := fun ev => (evs.filter fun p => p.1 = ev).map Prod.snd
    .ok (group .right, group .left, group .diff, group .same)

/-- javatools/ziputils.py:361-379 `zip_entry_rollup`: files, directories, compressed and
uncompressed size. -/
def rollup : List ZEntry → Res (Nat × Nat × Nat × Nat)
  | [] => .ok (0, 0, 0, 0)
  | e :: es =>
    match e.name.getLast? with
    | none => .error .indexError
    | some c =>
      match rollup es with
      | .error x => .error x
      | .ok (files, dirs, tc, tu) =>
        if c = '/' then .ok (files, dirs + 1, tc, tu)
        else .ok (files + 1, dirs, tc + e.csize, tu + e.size)

/-- javatools/jarinfo.py:199-208 `cli_jar_zip_info`: the numbers that are printed, the percentage
as a fraction. -/
def zipInfo (es : List ZEntry) : Res (Nat × Nat × Nat × Nat) :=
  match rollup es with
  | .error e => .error e
  | .ok (files, dirs, comp, uncomp) =>
    if uncomp = 0 then .error (.other "ZeroDivisionError") else .ok (files, dirs, uncomp, comp)

example : crc32 "123456789".toUTF8.toList 0 = 0xCBF43926#32 := by decide +kernel

example : chunks (some 2) [1, 2, 3, 4, 5] = [[1, 2], [3, 4], [5]] ∧ chunks (some 0) [1] = [] ∧
    chunks (some (-1)) [1, 2] = [[1, 2]] ∧ chunks none [1, 2] = [[1, 2]] := by decide

end Javatools
