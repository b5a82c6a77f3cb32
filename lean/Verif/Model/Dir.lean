import Verif.Model.Zip
/-
javatools/dirutils.py: comparison and copying of directory trees.

A directory is the list of its entries in the order of `os.listdir`. Simplifications: regular files
and directories only (no symbolic links, nothing unreadable), POSIX paths, and nothing changes
while the code runs.
-/
namespace Javatools

/-- The entries of a directory: files with their content and modification time, and directories. -/
inductive Forest where
  | nil
  | file (name : Str) (content : Bytes) (mtime : Int) (next : Forest)
  | dir (name : Str) (sub : Forest) (next : Forest)
  deriving DecidableEq

inductive Entry where
  | file (content : Bytes) (mtime : Int)
  | dir (sub : Forest)
  deriving DecidableEq

namespace Forest

/-- `os.listdir` -/
def names : Forest → List Str
  | nil => []
  | file n _ _ next => n :: next.names
  | dir n _ next => n :: next.names

/-- What a name in the directory stands for (`os.stat`). -/
def find (f : Str) : Forest → Option Entry
  | nil => none
  | file n b t next => if n = f then some (.file b t) else next.find f
  | dir n s next => if n = f then some (.dir s) else next.find f

/-- The names of the subdirectories. -/
def dirNames : Forest → List Str
  | nil => []
  | file _ _ _ next => next.dirNames
  | dir n _ next => n :: next.dirNames

/-- The files with their content. -/
def files : Forest → List (Str × Bytes)
  | nil => []
  | file n b _ next => (n, b) :: next.files
  | dir _ _ next => next.files

/-- `os.walk`, the part below the directory itself: path, directories, files. -/
def walkSubs (at_ : List Str) : Forest → List (List Str × List Str × List (Str × Bytes))
  | nil => []
  | file _ _ _ next => next.walkSubs at_
  | dir n s next =>
    (at_ ++ [n], s.dirNames, s.files) :: (s.walkSubs (at_ ++ [n]) ++ next.walkSubs at_)

/-- `os.walk`, top down, with paths as lists of names. -/
def walk (at_ : List Str) (f : Forest) : List (List Str × List Str × List (Str × Bytes)) :=
  (at_, f.dirNames, f.files) :: f.walkSubs at_

end Forest

/-! ### Paths -/

/-- `posixpath.join` of two parts -/
def pathJoin (a b : Str) : Str :=
  if b.head? = some '/' then b
  else if a = [] ∨ a.getLast? = some '/' then a ++ b
  else a ++ '/' :: b

/-- The names with slashes in between. -/
def slashed : List Str → Str
  | [] => []
  | [n] => n
  | n :: m :: ns => n ++ '/' :: slashed (m :: ns)

/-- `relpath(p, base)` for a path `p` made from `base` by joining these names. -/
def relText (p : List Str) : Str := if p = [] then ['.'] else slashed p

/-! ### `compare` -/

/-- `a < b` for strings -/
def strLt : Str → Str → Bool
  | _, [] => false
  | [], _ :: _ => true
  | a :: as, b :: bs => if a = b then strLt as bs else decide (a < b)

def insertName (x : Str) : List Str → List Str
  | [] => [x]
  | y :: ys => if strLt x y then x :: y :: ys else y :: insertName x ys

/-- `sorted` of strings -/
def sortNames : List Str → List Str
  | [] => []
  | x :: xs => insertName x (sortNames xs)

/-- `filecmp.cmp`, shallow: files with the same size and modification time are the same; otherwise
the contents are compared. -/
def filesEqual (b : Bytes) (t : Int) (c : Bytes) (u : Int) : Bool :=
  if b.length = c.length ∧ t = u then true
  else if b.length ≠ c.length then false
  else decide (b = c)

/-- `dircmp.left_only` (and, turned around, `right_only`) -/
def onlyNames (l r : Forest) : List Str := l.names.filter fun n => n ∉ r.names

/-- `dircmp.same_files` and `diff_files` -/
def commonFiles (same : Bool) (l r : Forest) : List Str :=
  l.names.filter fun n =>
    match l.find n, r.find n with
    | some (.file b t), some (.file c u) => filesEqual b t c u == same
    | _, _ => false

/-- `dircmp.common_dirs` -/
def commonDirs (l r : Forest) : List Str :=
  l.names.filter fun n =>
    match l.find n, r.find n with
    | some (.dir _), some (.dir _) => true
    | _, _ => false

/-- javatools/dirutils.py:104-112, 117-125: one name that is on one side only. -/
def onlyEvents (ev : Event) (at_ : List Str) (side : Forest) (f : Str) : List (Event × Str) :=
  match side.find f with
  | some (.dir s) =>
    (s.walk (at_ ++ [f])).flatMap fun w => w.2.2.map fun g => (ev, pathJoin (relText w.1) g.1)
  | _ => [(ev, relText (at_ ++ [f]))]

/-- javatools/dirutils.py:96-137 `_gen_from_dircmp` without the subdirectories -/
def levelEvents (at_ : List Str) (l r : Forest) : List (Event × Str) :=
  (sortNames (onlyNames l r)).flatMap (onlyEvents .left at_ l) ++
  (sortNames (onlyNames r l)).flatMap (onlyEvents .right at_ r) ++
  (sortNames (commonFiles false l r)).map (fun f => (.diff, pathJoin (relText at_) f)) ++
  (sortNames (commonFiles true l r)).map fun f => (.same, pathJoin (relText at_) f)

/-- One generator after the other. -/
def andThen {α : Type} (a b : List α × Option PyErr) : List α × Option PyErr :=
  match a.2 with
  | some e => (a.1, some e)
  | none => (a.1 ++ b.1, b.2)

/-- javatools/dirutils.py:139-143: `sorted(dc.subdirs.values())`. The `dircmp` objects cannot be
compared, so that fails unless there is at most one. -/
def tooMany (l r : Forest) : Bool := (commonDirs l r).length ≥ 2

/-- javatools/dirutils.py:139-143, the subdirectories of the left directory that are in both. -/
def subEvents (at_ : List Str) (r : Forest) : Forest → List (Event × Str) × Option PyErr
  | .nil => ([], none)
  | .file _ _ _ next => subEvents at_ r next
  | .dir n s next =>
    match r.find n with
    | some (.dir s') =>
      andThen (andThen (levelEvents (at_ ++ [n]) s s', none)
        (if tooMany s s' then ([], some .typeError) else subEvents (at_ ++ [n]) s' s))
        (subEvents at_ r next)
    | _ => subEvents at_ r next

/-- javatools/dirutils.py:84-143 `compare` -/
def compareDirs (l r : Forest) : List (Event × Str) × Option PyErr :=
  andThen (levelEvents [] l r, none)
    (if tooMany l r then ([], some .typeError) else subEvents [] r l)

/-- javatools/dirutils.py:146-184 `collect_compare`: added, removed, altered, same. -/
def collectDirs (l r : Forest) : Res (List Str × List Str × List Str × List Str) :=
  match compareDirs l r with
  | (_, some e) => .error e
  | (evs, none) =>
    let group := fun ev => (evs.filter fun p => p.1 = ev).map Prod.snd
    .ok (group .right, group .left, group .diff, group .same)

/-! ### `copydir` -/

/-- What is at a path below the destination. The destination itself is the empty path. Nothing of
the source lies below the destination. -/
abbrev Disk := List Str → Option (Option Bytes)

def Disk.set (d : Disk) (p : List Str) (x : Option Bytes) : Disk :=
  fun q => if q = p then some x else d q

/-- javatools/dirutils.py:50-56 `makedirsp` of the destination (`[]`) or of a directory in it. -/
def makedirsp (d : Disk) (p : List Str) : Res Disk :=
  match d p with
  | some _ => .ok d
  | none =>
    if p = [] then .ok (d.set p none)
    else
      match d p.dropLast with
      | some none => .ok (d.set p none)
      | some (some _) => .error (.other "NotADirectoryError")
      | none => .error (.other "FileNotFoundError")

/-- `shutil.copy` of a file with that base name to that path. -/
def copyFile (d : Disk) (base : Str) (content : Bytes) (p : List Str) : Res Disk :=
  let target := if d p = some none then p ++ [base] else p
  match d target.dropLast with
  | some none =>
    if d target = some none then .error (.other "IsADirectoryError")
    else .ok (d.set target (some content))
  | some (some _) => .error (.other "NotADirectoryError")
  | none => .error (.other "FileNotFoundError")

/-- javatools/dirutils.py:70-73: the directories at one place. -/
def makeDirs (d : Disk) : List Str → Res Disk
  | [] => .ok d
  | n :: ns =>
    match makedirsp d [n] with
    | .error e => .error e
    | .ok d' => makeDirs d' ns

/-- javatools/dirutils.py:75-79: the files at one place, with the paths that were copied. -/
def copyFiles (d : Disk) (at_ : List Str) : List (Str × Bytes) → Res (Disk × List (List Str))
  | [] => .ok (d, [])
  | (n, b) :: fs =>
    match copyFile d n b (at_ ++ [n]) with
    | .error e => .error e
    | .ok d' =>
      match copyFiles d' at_ fs with
      | .error e => .error e
      | .ok (d'', ps) => .ok (d'', (at_ ++ [n]) :: ps)

/-- javatools/dirutils.py:70-79: the loop over `walk(orig)`. -/
def copyWalk (d : Disk) : List (List Str × List Str × List (Str × Bytes)) →
    Res (Disk × List (List Str))
  | [] => .ok (d, [])
  | (at_, dirs, fs) :: ws =>
    match makeDirs d dirs with
    | .error e => .error e
    | .ok d1 =>
      match copyFiles d1 at_ fs with
      | .error e => .error e
      | .ok (d2, ps) =>
        match copyWalk d2 ws with
        | .error e => .error e
        | .ok (d3, qs) => .ok (d3, ps ++ qs)

/-- javatools/dirutils.py:59-81 `copydir`: the new state of the destination, and the pairs of paths
that were copied. `orig` and `dest` are the arguments. -/
def copydir (orig dest : Str) (f : Forest) (d : Disk) : Res (Disk × List (Str × Str)) :=
  match makedirsp d [] with
  | .error e => .error e
  | .ok d1 =>
    match copyWalk d1 (f.walk []) with
    | .error e => .error e
    | .ok (d2, ps) => .ok (d2, ps.map fun p => (p.foldl pathJoin orig, pathJoin dest (relText p)))

end Javatools
