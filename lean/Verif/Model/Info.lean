import Verif.Model.DistDiff
import Verif.Model.Member
/-
Model of the symbols that JARs and distributions provide and require, javatools/jarinfo.py:64-175,
219-234 and javatools/distinfo.py:50-196.

Simplifications: what is read does not change; `zipfile` is a parameter as in Model/DistDiff.lean;
a set is a list without repetitions whose order does not matter, as in Model/Member.lean.
-/
namespace Javatools

/-- A map from symbols to what provides or requires them. -/
abbrev SymMap (α : Type) := PyDict Str (List α)

/-- `d.setdefault(sym, list()).append(x)` -/
def SymMap.add {α : Type} (d : SymMap α) (sym : Str) (x : α) : SymMap α :=
  PyDict.set d sym ((PyDict.get? d sym).getD [] ++ [x])

/-- The same for pairs of a symbol and what is appended. -/
def SymMap.addAll {α : Type} (d : SymMap α) (ps : List (Str × α)) : SymMap α :=
  ps.foldl (fun d p => d.add p.1 p.2) d

/-- The local variables `req`, `prov` and `p` of `_collect_requires_provides`. -/
structure Symbols (α : Type) where
  req : SymMap α
  prov : SymMap α
  priv : List Str

def Symbols.empty {α : Type} : Symbols α := ⟨[], [], []⟩

/-- `ci.get_requires()`, `ci.get_provides(private=False)` and `ci.get_provides(private=True)` of one
object. -/
def classSymbols (lim : Nat) (c : ClassInfo) : Res (List Str × List Str × List Str) :=
  match getRequires fnmatch c lim [] .empty with
  | (.error e, _) => .error e
  | (.ok reqs, st) =>
    match getProvides fnmatch c lim [] false st with
    | (.error e, _) => .error e
    | (.ok provs, st) =>
      match getProvides fnmatch c lim [] true st with
      | (.error e, _) => .error e
      | (.ok privs, _) => .ok (reqs, provs, privs)

/-- javatools/jarinfo.py:104-111, javatools/distinfo.py:101-108: what one class adds. -/
def Symbols.addClass {α : Type} (s : Symbols α) (lim : Nat) (c : ClassInfo) (req prov : α) :
    Res (Symbols α) :=
  match classSymbols lim c with
  | .error e => .error e
  | .ok (reqs, provs, privs) =>
    .ok { req := s.req.addAll (reqs.map fun k => (k, req))
          prov := s.prov.addAll (provs.map fun k => (k, prov))
          priv := s.priv ++ privs }

/-- javatools/jarinfo.py:113, javatools/distinfo.py:110 -/
def Symbols.external {α : Type} (s : Symbols α) : SymMap α := s.req.filter fun p => p.1 ∉ s.priv

/-- javatools/jarinfo.py:123-127 and the like: `if ignored: d = dict(...)` -/
def withoutIgnored {α : Type} (ignored : List Str) (d : SymMap α) : SymMap α :=
  if ignored = [] then d else d.filter fun p => !fnmatches p.1 ignored

/-! ### JARs -/

/-- javatools/jarinfo.py:141-148 `get_classes` -/
def Archive.classes (a : Archive) : Res (List Str) :=
  a.namelist.map fun ns => ns.filter fun n => fnmatches n ["*.class".toList]

/-- javatools/jarinfo.py:151-157 `get_classinfo` -/
def Archive.classInfo (lim : Nat) (a : Archive) (entry : Str) : Res ClassInfo :=
  match a.openRead entry with
  | .error e => .error e
  | .ok x => unpackPayload lim x

/-- javatools/jarinfo.py:104-111: the loop. -/
def jarSymbolsLoop (lim : Nat) (a : Archive) : List Str → Symbols (String × Str) →
    Res (Symbols (String × Str))
  | [], s => .ok s
  | entry :: es, s =>
    match a.classInfo lim entry with
    | .error e => .error e
    | .ok c =>
      match s.addClass lim c ("class.requires", entry) ("class.provides", entry) with
      | .error e => .error e
      | .ok s => jarSymbolsLoop lim a es s

/-- javatools/jarinfo.py:94-111 -/
def jarSymbols (lim : Nat) (a : Archive) : Res (Symbols (String × Str)) :=
  match a.classes with
  | .error e => .error e
  | .ok es => jarSymbolsLoop lim a es .empty

/-- javatools/jarinfo.py:64-74: a `JarInfo`. `file` is what `zip_file(self.filename)` gives, if there
is a file name. -/
structure JarInfo where
  file : Option (Res Archive)
  zip : Option Archive := none
  requires : Option (SymMap (String × Str)) := none
  provides : Option (SymMap (String × Str)) := none

namespace JarInfo

/-- javatools/jarinfo.py:160-163 `get_zipfile` -/
def getZipfile (j : JarInfo) : Res Archive × JarInfo :=
  match j.zip with
  | some a => (.ok a, j)
  | none =>
    match j.file with
    | none => (.error .typeError, j)
    | some (.error e) => (.error e, j)
    | some (.ok a) => (.ok a, { j with zip := some a })

/-- javatools/jarinfo.py:94-116 `_collect_requires_provides` -/
def collect (lim : Nat) (j : JarInfo) : Res Unit × JarInfo :=
  match j.getZipfile with
  | (.error e, j) => (.error e, j)
  | (.ok a, j) =>
    match jarSymbols lim a with
    | .error e => (.error e, j)
    | .ok s => (.ok (), { j with requires := some s.external, provides := some s.prov })

/-- javatools/jarinfo.py:119-127 `get_requires` -/
def getRequires (lim : Nat) (ignored : List Str) (j : JarInfo) :
    Res (SymMap (String × Str)) × JarInfo :=
  match j.requires with
  | some d => (.ok (withoutIgnored ignored d), j)
  | none =>
    match j.collect lim with
    | (.error e, j) => (.error e, j)
    | (.ok (), j) =>
      match j.requires with
      | some d => (.ok (withoutIgnored ignored d), j)
      | none => (.error .attributeError, j)

/-- javatools/jarinfo.py:130-138 `get_provides` -/
def getProvides (lim : Nat) (ignored : List Str) (j : JarInfo) :
    Res (SymMap (String × Str)) × JarInfo :=
  match j.provides with
  | some d => (.ok (withoutIgnored ignored d), j)
  | none =>
    match j.collect lim with
    | (.error e, j) => (.error e, j)
    | (.ok (), j) =>
      match j.provides with
      | some d => (.ok (withoutIgnored ignored d), j)
      | none => (.error .attributeError, j)

/-- javatools/jarinfo.py:172-175 `close` -/
def close (j : JarInfo) : JarInfo := { j with zip := none }

end JarInfo

/-- A call of a method of a `JarInfo` or a `DistInfo`. -/
inductive InfoCall where
  | requires (ignored : List Str)
  | provides (ignored : List Str)
  | close

/-- The object after some calls. -/
def JarInfo.run (lim : Nat) (j : JarInfo) : List InfoCall → JarInfo
  | [] => j
  | .requires ig :: cs => (j.getRequires lim ig).2.run lim cs
  | .provides ig :: cs => (j.getProvides lim ig).2.run lim cs
  | .close :: cs => j.close.run lim cs

/-- javatools/jarinfo.py:219-225, 228-234 `cli_jar_provides`, `cli_jar_requires`: the symbols that are
printed. `sort` is `sorted`. -/
def printedSymbols (sort : List Str → List Str) (apiIgnore : List Str) (d : SymMap (String × Str)) :
    List Str :=
  (sort (PyDict.keys d)).filter fun k => !fnmatches k apiIgnore

/-! ### Distributions -/

/-- What provides or requires a symbol in a distribution. -/
inductive DistSource where
  | cls (tag : String) (entry : Str)
  | jar (tag : String) (entry : Str) (data : List (String × Str))
  deriving DecidableEq

/-- What `base_path` is: a directory, or else a file, with what `extractall` of it leaves in the
temporary directory. -/
inductive DistBase where
  | dir (f : Forest)
  | file (extracted : Res Forest)

/-- javatools/distinfo.py:72-83 `_working_path`: the tree there. -/
def DistBase.working : DistBase → Res Forest
  | .dir f => .ok f
  | .file x => x

/-- javatools/distinfo.py:191-196 `_collect_dist`, javatools/distinfo.py:173-176 `get_contents` -/
def distContents (f : Forest) : List Str :=
  (f.walk []).flatMap fun w => w.2.2.map fun x => slashed (w.1 ++ [x.1])

/-- javatools/distinfo.py:155-156 `get_jarinfo`: what `zip_file(join(self.base_path, entry))` gives.
There is nothing below a file. -/
def DistBase.openJar (E : DistEnv) (b : DistBase) (entry : Str) : Res Archive :=
  match b with
  | .dir f =>
    match readEntry f entry with
    | .error _ => .error (.other "Exception")
    | .ok x => E.openJar x
  | .file _ => .error (.other "Exception")

/-- javatools/distinfo.py:169-170 `get_classinfo` -/
def DistBase.classInfo (E : DistEnv) (b : DistBase) (entry : Str) : Res ClassInfo :=
  match b with
  | .dir f =>
    match readEntry f entry with
    | .error e => .error e
    | .ok x => unpackClass E.lim (.bytes x)
  | .file _ => .error (.other "NotADirectoryError")

/-- javatools/distinfo.py:92-99: what one JAR adds. -/
def distAddJar (E : DistEnv) (b : DistBase) (entry : Str) (s : Symbols DistSource) :
    Res (Symbols DistSource) :=
  let ji : JarInfo := { file := some (b.openJar E entry) }
  match ji.getRequires E.lim [] with
  | (.error e, _) => .error e
  | (.ok reqs, ji) =>
    match ji.getProvides E.lim [] with
    | (.error e, _) => .error e
    | (.ok provs, _) =>
      .ok { req := s.req.addAll (reqs.map fun p => (p.1, .jar "jar.requires" entry p.2))
            prov := s.prov.addAll (provs.map fun p => (p.1, .jar "jar.provides" entry p.2))
            priv := s.priv ++ PyDict.keys provs }

def distJarsLoop (E : DistEnv) (b : DistBase) : List Str → Symbols DistSource →
    Res (Symbols DistSource)
  | [], s => .ok s
  | entry :: es, s =>
    match distAddJar E b entry s with
    | .error e => .error e
    | .ok s => distJarsLoop E b es s

/-- javatools/distinfo.py:101-108 -/
def distClassesLoop (E : DistEnv) (b : DistBase) : List Str → Symbols DistSource →
    Res (Symbols DistSource)
  | [], s => .ok s
  | entry :: es, s =>
    match b.classInfo E entry with
    | .error e => .error e
    | .ok c =>
      match s.addClass E.lim c (.cls "class.requires" entry) (.cls "class.provides" entry) with
      | .error e => .error e
      | .ok s => distClassesLoop E b es s

/-- javatools/distinfo.py:86-108, for the contents of the distribution. -/
def distSymbols (E : DistEnv) (b : DistBase) (contents : List Str) : Res (Symbols DistSource) :=
  match distJarsLoop E b (contents.filter fun n => fnmatches n jarPatterns) .empty with
  | .error e => .error e
  | .ok s => distClassesLoop E b (contents.filter fun n => fnmatches n ["*.class".toList]) s

/-- javatools/distinfo.py:50-65: a `DistInfo`. -/
structure DistInfo where
  base : DistBase
  contents : Option (List Str) := none
  requires : Option (SymMap DistSource) := none
  provides : Option (SymMap DistSource) := none

namespace DistInfo

/-- javatools/distinfo.py:173-176 `get_contents` -/
def getContents (d : DistInfo) : Res (List Str) × DistInfo :=
  match d.contents with
  | some c => (.ok c, d)
  | none =>
    match d.base.working with
    | .error e => (.error e, d)
    | .ok f => (.ok (distContents f), { d with contents := some (distContents f) })

/-- javatools/distinfo.py:86-113 `_collect_requires_provides` -/
def collect (E : DistEnv) (d : DistInfo) : Res Unit × DistInfo :=
  match d.getContents with
  | (.error e, d) => (.error e, d)
  | (.ok c, d) =>
    match distSymbols E d.base c with
    | .error e => (.error e, d)
    | .ok s => (.ok (), { d with requires := some s.external, provides := some s.prov })

/-- javatools/distinfo.py:116-128 `get_requires` -/
def getRequires (E : DistEnv) (ignored : List Str) (d : DistInfo) :
    Res (SymMap DistSource) × DistInfo :=
  match d.requires with
  | some m => (.ok (withoutIgnored ignored m), d)
  | none =>
    match d.collect E with
    | (.error e, d) => (.error e, d)
    | (.ok (), d) =>
      match d.requires with
      | some m => (.ok (withoutIgnored ignored m), d)
      | none => (.error .attributeError, d)

/-- javatools/distinfo.py:131-144 `get_provides` -/
def getProvides (E : DistEnv) (ignored : List Str) (d : DistInfo) :
    Res (SymMap DistSource) × DistInfo :=
  match d.provides with
  | some m => (.ok (withoutIgnored ignored m), d)
  | none =>
    match d.collect E with
    | (.error e, d) => (.error e, d)
    | (.ok (), d) =>
      match d.provides with
      | some m => (.ok (withoutIgnored ignored m), d)
      | none => (.error .attributeError, d)

/-- javatools/distinfo.py:179-188 `close` -/
def close (d : DistInfo) : DistInfo := { d with contents := none }

def run (E : DistEnv) (d : DistInfo) : List InfoCall → DistInfo
  | [] => d
  | .requires ig :: cs => (d.getRequires E ig).2.run E cs
  | .provides ig :: cs => (d.getProvides E ig).2.run E cs
  | .close :: cs => d.close.run E cs

end DistInfo

end Javatools
