import Verif.Model.Dir
import Verif.Model.Template
/-
Model of javatools/cheetah/setuptools.py, the command that compiles the Cheetah templates when the
package is built, and of the part of javatools/cheetah/__init__.py that finds the compiled templates
at run time.

Simplifications: `makedirs` works and directories are not kept; the name of a directory has no
wildcards; `check_package` only fails when there is no such directory; the messages of `announce`
are left out; time goes on by one with each file that is opened for writing. Cheetah's compiler is a
function of the configuration, the name and the text of the template; as in Cheetah, its constructor
reads the template and `str` compiles it. `build_py` of distutils is not modelled, except for the
place where Python puts byte code.
-/
namespace Javatools

/-- `os.path.basename` -/
def pyBasename (p : Str) : Str := (p.reverse.takeWhile (· ≠ '/')).reverse

/-- `os.path.splitext(p)[0]` for a name without slashes: dots in front do not begin an extension. -/
def splitextRoot (p : Str) : Str :=
  let ext := p.reverse.takeWhile (· ≠ '.')
  let root := (p.reverse.drop (ext.length + 1)).reverse
  if '.' ∈ p ∧ root.any (· ≠ '.') then root else p

/-- `glob("*.tmpl")` in a directory with these names: hidden ones are left out. -/
def globTmpl (names : List Str) : List Str :=
  names.filter fun n => endsWith n ".tmpl".toList && n.head? ≠ some '.'

/-- Files: modification time and text. -/
abbrev BuildFiles := Str → Option (Nat × Str)

/-- What a build needs to know besides the files: the directory of a package, the names in a
directory (`none`: there is no such directory), the configuration, the compiler, `build_lib`, and
what is set for byte code. -/
structure BuildEnv (κ : Type) where
  packageDir : Str → Str
  listing : Str → Option (List Str)
  config : Res κ
  compiler : κ → Str → Str → Res Str
  buildLib : Str
  compile : Bool
  optimize : Nat

/-- The files and the time. -/
structure BuildState where
  files : BuildFiles
  now : Nat

/-- The file gets this text, now. -/
def BuildState.write (s : BuildState) (p text : Str) : BuildState :=
  { files := fun q => if q = p then some (s.now, text) else s.files q, now := s.now + 1 }

section
variable {κ : Type}

/-- javatools/cheetah/setuptools.py:65-75 `find_package_templates`: names and files. -/
def findTemplates (env : BuildEnv κ) (dir : Str) : Res (List (Str × Str)) :=
  match env.listing dir with
  | none => .error (.other "DistutilsFileError")
  | some names =>
    .ok (((globTmpl names).map (pathJoin dir)).map fun f => (splitextRoot (pyBasename f), f))

/-- javatools/cheetah/setuptools.py:111-112, 130-131: the compiled template. -/
def templateOutput (env : BuildEnv κ) (package template : Str) : Str :=
  pathJoin ((splitAll '.' package).foldl pathJoin env.buildLib) (template ++ ".py".toList)

/-- `distutils.util.newer` -/
def newerFile (files : BuildFiles) (source target : Str) : Res Bool :=
  match files source with
  | none => .error (.other "DistutilsFileError")
  | some (t, _) =>
    match files target with
    | none => .ok true
    | some (u, _) => .ok (decide (u < t))

/-- javatools/cheetah/setuptools.py:88-120 `build_template`; the exception it ends with. -/
def buildTemplate (env : BuildEnv κ) (s : BuildState) (template file package : Str) :
    BuildState × Option PyErr :=
  match s.files file with
  | none => (s, some (.other "FileNotFoundError"))
  | some (_, text) =>
    match env.config with
    | .error e => (s, some e)
    | .ok conf =>
      let out := templateOutput env package template
      match newerFile s.files file out with
      | .error e => (s, some e)
      | .ok false => (s, none)
      | .ok true =>
        match env.compiler conf template text with
        | .error e => (s.write out [], some e)
        | .ok code => (s.write out code, none)

/-- javatools/cheetah/setuptools.py:83-85: the templates of a package. -/
def buildTemplates (env : BuildEnv κ) (package : Str) :
    BuildState → List (Str × Str) → BuildState × Option PyErr
  | s, [] => (s, none)
  | s, (t, f) :: ts =>
    match buildTemplate env s t f package with
    | (s, some e) => (s, some e)
    | (s, none) => buildTemplates env package s ts

/-- javatools/cheetah/setuptools.py:78-85 `build_package_templates` -/
def buildPackages (env : BuildEnv κ) : BuildState → List Str → BuildState × Option PyErr
  | s, [] => (s, none)
  | s, p :: ps =>
    match findTemplates env (env.packageDir p) with
    | .error e => (s, some e)
    | .ok ts =>
      match buildTemplates env p s ts with
      | (s, some e) => (s, some e)
      | (s, none) => buildPackages env s ps

/-- javatools/cheetah/setuptools.py:154-156 `run`, up to the rest of `build_py`; `none` is `None`,
which `packages` is for a distribution that has modules only. -/
def runBuild (env : BuildEnv κ) (s : BuildState) (packages : Option (List Str)) :
    BuildState × Option PyErr :=
  match packages with
  | none => (s, none)
  | some ps => if ps = [] then (s, none) else buildPackages env s ps

/-- javatools/cheetah/setuptools.py:129-139: what is listed for a template. -/
def listedFor (env : BuildEnv κ) (includeBytecode : Bool) (package template : Str) : List Str :=
  let out := templateOutput env package template
  out :: if includeBytecode then
      (if env.compile then [out ++ "c".toList] else []) ++
      (if env.optimize > 0 then [out ++ "o".toList] else [])
    else []

/-- javatools/cheetah/setuptools.py:126-141: the loop over the packages. -/
def listPackages (env : BuildEnv κ) (includeBytecode : Bool) : List Str → Res (List Str)
  | [] => .ok []
  | p :: ps =>
    match findTemplates env (env.packageDir p) with
    | .error e => .error e
    | .ok ts =>
      match listPackages env includeBytecode ps with
      | .error e => .error e
      | .ok rest => .ok (ts.flatMap (fun t => listedFor env includeBytecode p t.1) ++ rest)

/-- javatools/cheetah/setuptools.py:123-141 `get_template_outputs` -/
def templateOutputs (env : BuildEnv κ) (includeBytecode : Bool) (packages : Option (List Str)) :
    Res (List Str) :=
  match packages with
  | none => .error .typeError
  | some ps => listPackages env includeBytecode ps
end

/-! ### Finding the compiled templates -/

/-- A module of the package `javatools.cheetah`: whether the attribute with the name of the module is
a template, some other class, not a class, or not there; or the exception from importing it. -/
inductive TmplModule where
  | template
  | otherClass
  | noClass
  | lacks
  | fails (e : PyErr)
  deriving DecidableEq

/-- `pkgutil.iter_modules` for a directory of `.py` files with these names: sorted, without
`__init__` and without names with a dot. -/
def iterModules (names : List Str) : List Str :=
  ((sortNames names).filter fun n => endsWith n ".py".toList && n ≠ "__init__.py".toList).map
      (fun n => n.take (n.length - 3)) |>.filter fun m => m ≠ [] && !m.contains '.'

/-- javatools/cheetah/__init__.py:38-45: the loop. -/
def iterTemplates (modules : Str → TmplModule) : List Str → Res (List Str)
  | [] => .ok []
  | n :: ns =>
    if n = "setuptools".toList then iterTemplates modules ns
    else
      match modules n with
      | .fails e => .error e
      | .lacks => .error .attributeError
      | .noClass => .error .typeError
      | .otherClass => iterTemplates modules ns
      | .template =>
        match iterTemplates modules ns with
        | .error e => .error e
        | .ok ts => .ok (n :: ts)

/-- javatools/cheetah/__init__.py:28-53 `get_templates`: the names of the templates. -/
def getTemplates (modules : Str → TmplModule) (names : List Str) : Res (List Str) :=
  iterTemplates modules (iterModules names)

end Javatools
