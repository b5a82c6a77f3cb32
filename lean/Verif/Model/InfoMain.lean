import Verif.Model.ArgParse
import Verif.Model.JarInfoCli
/-
Model of `main` of classinfo (javatools/classinfo.py:475-477), jarinfo (javatools/jarinfo.py:335-337)
and distinfo (javatools/distinfo.py:286-288): the command line is parsed, and the report on the files is
printed. What argparse itself prints (usage and help) is left out.
-/
namespace Javatools

/-- Where the options of the three tools are stored: javatools/classinfo.py:411-460,
javatools/jarinfo.py:301-319, javatools/distinfo.py:258-267, and `--json`. -/
inductive Dest where
  | classProvides | classRequires | apiIgnore
  | show_ (level : Nat)
  | lines | locals | disassemble | sigs | constpool | verbose | json
  | zip | manifest | jarClasses | jarProvides | jarRequires
  | distProvides | distRequires
  deriving DecidableEq, Repr

/-- `dest` and `const` of the options. -/
def dests : List (OptSpec × Dest) := [
  (spec .flag ["--json"], .json),
  (spec .flag ["--class-provides"], .classProvides),
  (spec .flag ["--class-requires"], .classRequires),
  (spec .value ["--api-ignore"], .apiIgnore),
  (spec .flag ["--header"], .show_ 0),
  (spec .flag ["--public"], .show_ 1),
  (spec .flag ["--package"], .show_ 3),
  (spec .flag ["--private"], .show_ 7),
  (spec .flag ["-l"], .lines),
  (spec .flag ["-o"], .locals),
  (spec .flag ["-c"], .disassemble),
  (spec .flag ["-s"], .sigs),
  (spec .flag ["-p"], .constpool),
  (spec .flag ["--verbose"], .verbose),
  (spec .flag ["--zip"], .zip),
  (spec .flag ["--manifest"], .manifest),
  (spec .flag ["--jar-classes"], .jarClasses),
  (spec .flag ["--jar-provides"], .jarProvides),
  (spec .flag ["--jar-requires"], .jarRequires),
  (spec .flag ["--dist-provides"], .distProvides),
  (spec .flag ["--dist-requires"], .distRequires)]

/-- `store_true`, `store_const` and `append` (whose option has one argument). -/
def Dest.set (o : DistArgs) (args : List Str) : Dest → DistArgs
  | .classProvides => { o with jar.info.classProvides := true }
  | .classRequires => { o with jar.info.classRequires := true }
  | .apiIgnore => { o with jar.info.apiIgnore := o.jar.info.apiIgnore ++ args }
  | .show_ n => { o with jar.info.level := n }
  | .lines => { o with jar.info.lines := true }
  | .locals => { o with jar.info.locals := true }
  | .disassemble => { o with jar.info.disassemble := true }
  | .sigs => { o with jar.info.sigs := true }
  | .constpool => { o with jar.info.constpool := true }
  | .verbose => { o with jar.info.verbose := true }
  | .json => { o with jar.info.json := true }
  | .zip => { o with jar.zip := true }
  | .manifest => { o with jar.manifest := true }
  | .jarClasses => { o with jar.classes := true }
  | .jarProvides => { o with jar.provides := true }
  | .jarRequires => { o with jar.requires := true }
  | .distProvides => { o with provides := true }
  | .distRequires => { o with requires := true }

/-- The action of an option on the namespace. -/
def infoStep (o : DistArgs) : ArgEvent → DistArgs
  | .files _ => o
  | .opt s args =>
    match PyDict.get? dests s with
    | none => o
    | some d => d.set o args

/-- The namespace that `parse_args` gives. -/
def infoNamespace (evs : List ArgEvent) : DistArgs := evs.foldl infoStep {}

/-- What is printed: a text, or JSON documents; and the exception that ended it, if any. -/
inductive InfoOut (J : Type) where
  | text (out : Out)
  | docs (out : List J × Option PyErr)
  deriving DecidableEq

/-- javatools/classinfo.py:380-383 `cli_json_class` for one file after the other, :386-408 `cli`. -/
def classJsonLoop (E : PrintEnv) (o : InfoArgs) : List (Res Bytes) → List ClassJson × Option PyErr
  | [] => ([], none)
  | f :: fs =>
    match f.bind fun b => (unpackClass E.lim (.bytes b)).bind (simplifyClassinfo E o) with
    | .error e => ([], some e)
    | .ok d => ((d :: (classJsonLoop E o fs).1), (classJsonLoop E o fs).2)

/-- One document. -/
def oneDoc {J : Type} : Res J → List J × Option PyErr
  | .error e => ([], some e)
  | .ok d => ([d], none)

section
variable (negNum isInt : Str → Bool)

/-- javatools/classinfo.py:475-477 `main`, 386-408 `cli`; `read` is the content of the files. -/
def classinfoMain (E : PrintEnv) (read : Str → Res Bytes) (argv : List Str) : InfoOut ClassJson :=
  match Tool.classinfo.parse negNum isInt argv with
  | .error e => .text ([], some e)
  | .ok evs =>
    let o := (infoNamespace evs).jar.info
    let files := (eventFiles evs).map read
    if o.json then .docs (classJsonLoop E o.norm files) else .text (classinfoCli E o files)

/-- javatools/jarinfo.py:335-337 `main`, 278-298 `cli` -/
def jarinfoMain (E : PrintEnv) (pct : Nat → Nat → Str) (jars : Str → JarFile) (argv : List Str) :
    InfoOut JarJson :=
  match Tool.jarinfo.parse negNum isInt argv with
  | .error e => .text ([], some e)
  | .ok evs =>
    let o := (infoNamespace evs).jar
    let files := (eventFiles evs).map jars
    if o.info.json then .docs (jarinfoJson E.lim o files) else .text (jarinfoCli E pct o files)

/-- javatools/distinfo.py:286-288 `main`, 242-255 `cli` -/
def distinfoMain (E : DistEnv) (dist : Str → DistBase) (argv : List Str) : InfoOut DistInfoJson :=
  match Tool.distinfo.parse negNum isInt argv with
  | .error e => .text ([], some e)
  | .ok evs =>
    let o := infoNamespace evs
    match eventFiles evs with
    | f :: _ =>
      if o.jar.info.json then .docs (oneDoc (distInfoJson E o (dist f)))
      else .text (distInfoReport E o (dist f))
    | [] => .text ([], some (.other "AttributeError"))
end

end Javatools
