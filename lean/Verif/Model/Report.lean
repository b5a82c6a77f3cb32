import Verif.Model.ManifestCli
import Verif.Model.DistDiff
/-
Model of javatools/report.py: reporters, the files that reports are written to, and the links in
the HTML reports (also javatools/cheetah/__init__.py and the templates report.tmpl and
change_SquashedChange.tmpl). The content of the files is in Model/Change. POSIX paths; `formats` is
a set, whose order is the order of the list.
-/
namespace Javatools

/-! ### `os.path` -/

/-- `posixpath.abspath`; `cwd` is the working directory. -/
def abspath (cwd p : Str) : Str := normpath (if p.head? = some '/' then p else pathJoin cwd p)

/-- The length of `posixpath.commonprefix` of two lists. -/
def commonLen : List Str → List Str → Nat
  | a :: as, b :: bs => if a = b then commonLen as bs + 1 else 0
  | _, _ => 0

/-- `posixpath.relpath` -/
def relpath (cwd path start : Str) : Res Str :=
  if path = [] then .error .valueError
  else
    let sl := (splitAll '/' (abspath cwd start)).filter fun x => x ≠ []
    let pl := (splitAll '/' (abspath cwd path)).filter fun x => x ≠ []
    let i := commonLen sl pl
    match List.replicate (sl.length - i) ['.', '.'] ++ pl.drop i with
    | [] => .ok ['.']
    | c :: cs => .ok (cs.foldl pathJoin c)

/-! ### Report formats -/

inductive Fmt where
  | json
  | text
  | html
  deriving DecidableEq

/-- javatools/report.py:281, 351, 406: `extension` -/
def Fmt.extension : Fmt → Str
  | .json => ".json".toList
  | .text => ".text".toList
  | .html => ".html".toList

/-- javatools/report.py:87-93: the format with a name. -/
def Fmt.byName (n : Str) : Option Fmt :=
  if n = "json".toList then some .json
  else if n = "txt".toList ∨ n = "text".toList then some .text
  else if n = "htm".toList ∨ n = "html".toList then some .html
  else none

/-- A format made by `setup`; `clear` drops it. -/
structure FormatInst where
  fmt : Fmt
  basedir : Str
  crumbs : List (Str × Str)
  deriving DecidableEq

/-- Where a report goes. -/
inductive Target where
  | file (path : Str)
  | stdout
  deriving DecidableEq

/-- javatools/report.py:200-223 `ReportFormat.run` without `out` -/
def FormatInst.run (f : FormatInst) (entry : Str) : Target :=
  if entry = [] then .stdout
  else .file (pathJoin (if f.basedir = [] then "./".toList else f.basedir) (entry ++ f.fmt.extension))

/-! ### Reporters -/

/-- javatools/report.py:58-67 -/
structure Reporter where
  basedir : Str
  entry : Str
  crumbs : List (Str × Str) := []
  formats : List Fmt := []
  instances : Option (List FormatInst) := none
  deriving DecidableEq

namespace Reporter

/-- javatools/report.py:70-78 `get_relative_breadcrumbs` -/
def relativeCrumbs (cwd basedir : Str) : List (Str × Str) → Res (List (Str × Str))
  | [] => .ok []
  | (b, e) :: rest =>
    match relpath cwd b basedir with
    | .error x => .error x
    | .ok p =>
      match relativeCrumbs cwd basedir rest with
      | .error x => .error x
      | .ok ps => .ok ((p, e) :: ps)

/-- javatools/report.py:96-103 `add_report_format` -/
def addFormat (r : Reporter) (f : Fmt) : Reporter :=
  if f ∈ r.formats then r else { r with formats := r.formats ++ [f] }

/-- javatools/report.py:81-93 `add_formats_by_name` -/
def addFormatsByName (r : Reporter) : List Str → Reporter
  | [] => r
  | n :: ns =>
    match Fmt.byName n with
    | some f => (r.addFormat f).addFormatsByName ns
    | none => r.addFormatsByName ns

/-- javatools/report.py:106-120 `subreporter` -/
def subreporter (r : Reporter) (subpath entry : Str) : Reporter :=
  { basedir := pathJoin r.basedir subpath, entry := entry,
    crumbs := r.crumbs ++ [(r.basedir, r.entry)], formats := r.formats }

/-- javatools/report.py:123-143 `setup` -/
def setup (cwd : Str) (r : Reporter) : Res Reporter :=
  match r.instances with
  | some (_ :: _) => .ok r
  | _ =>
    match relativeCrumbs cwd r.basedir r.crumbs with
    | .error e => .error e
    | .ok cs => .ok { r with instances := some (r.formats.map fun f => ⟨f, r.basedir, cs⟩) }

/-- javatools/report.py:163-172 `clear` -/
def clear (r : Reporter) : Reporter := { r with instances := none }

/-- javatools/report.py:146-160 `run`: the formats that were run with their targets, and the
reporter afterwards. -/
def run (cwd : Str) (r : Reporter) : Res (List (FormatInst × Target) × Reporter) :=
  match (match r.instances with
    | none => r.setup cwd
    | some _ => .ok r) with
  | .error e => .error e
  | .ok r' => .ok ((r'.instances.getD []).map (fun f => (f, f.run r'.entry)), r'.clear)

end Reporter

/-- A call of a method of a `Reporter`. -/
inductive ReporterCall where
  | add (f : Fmt)
  | setup
  | run
  | clear
  deriving DecidableEq

/-- The reporter after a call. -/
def Reporter.call (cwd : Str) (r : Reporter) : ReporterCall → Reporter
  | .add f => r.addFormat f
  | .setup =>
    match r.setup cwd with
    | .ok r' => r'
    | .error _ => r
  | .run =>
    match r.run cwd with
    | .ok (_, r') => r'
    | .error _ => r
  | .clear => r.clear

/-- javatools/report.py:251-259 `_opt_cb_report`: the effect of one `--report` on `options.reports`. -/
def optReport (reports : List Str) (values : Str) : List Str :=
  if ',' ∈ values then reports ++ (splitAll ',' values).filter fun v => v ≠ [] else reports ++ [values]

/-! ### The reports of a comparison -/

/-- The entries of the changes that `JarContentsReport.collect_impl` (javatools/jardiff.py:442-453)
replaces by a `JarClassReport`. -/
def reportedEntries (cs : List (Change DiffOpts)) : List Str :=
  cs.filterMap fun c => if isReported c then c.hdr.entry else none

/-- javatools/jardiff.py:447-452: the reporters of a `JarReport`: those of its classes, then itself. -/
def jarReporters (r : Reporter) (classes : List Str) : List Reporter :=
  classes.map (fun e => r.subreporter e "JavaClassReport".toList) ++ [r]

/-- javatools/distdiff.py:391-401: the reporters of a `DistReport`: those of its JARs (with the
reported classes of each) and classes, then itself. -/
def distReporters (r : Reporter) (jars : List (Str × List Str)) (classes : List Str) :
    List Reporter :=
  jars.flatMap (fun j => jarReporters (r.subreporter j.1 "JarReport".toList) j.2) ++
    classes.map (fun e => r.subreporter e "JavaClassReport".toList) ++ [r]

/-- The files that a reporter writes. -/
def Reporter.files (r : Reporter) : List Str :=
  r.formats.filterMap fun f =>
    match FormatInst.run ⟨f, r.basedir, []⟩ r.entry with
    | .file p => some p
    | .stdout => none

/-! ### HTML -/

/-- javatools/cheetah/__init__.py:56-64 `xml_entity_escape` -/
def xmlEscape (s : Str) : Str :=
  ((s.flatMap fun c => if c = '&' then "&amp;".toList else [c]).flatMap
    fun c => if c = '>' then "&gt;".toList else [c]).flatMap
      fun c => if c = '<' then "&lt;".toList else [c]

/-- javatools/cheetah/report.tmpl:61-63: the source of the link of a breadcrumb. -/
def crumbHref (c : Str × Str) : Str := pathJoin c.1 (c.2 ++ ".html".toList)

/-- javatools/cheetah/change_SquashedChange.tmpl:28-33: the source of the link to a sub-report. -/
def detailsHref (entry reportName : Str) : Str :=
  entry ++ "/".toList ++ reportName ++ ".html".toList

/-- javatools/report.py:409-424 `_relative`; `exists_` is `os.path.exists`. -/
def relativeUri (exists_ : Str → Bool) (cwd basedir uri : Str) : Res Str :=
  if "http:".toList.isPrefixOf uri || "https:".toList.isPrefixOf uri ||
      "file:".toList.isPrefixOf uri || "/".toList.isPrefixOf uri then .ok uri
  else if exists_ uri then relpath cwd uri basedir
  else .ok uri

/-- The options the HTML reports use. -/
structure HtmlOpts where
  copyData : Option Str := none
  copied : Bool := false
  javascripts : List Str := []
  stylesheets : List Str := []
  deriving DecidableEq

/-- javatools/report.py:435-472 `CheetahReportFormat.setup`; `copy` is what `copydir` returns for the
destination. -/
def htmlSetup (copy : Str → Res (List Str)) (o : HtmlOpts) : Res HtmlOpts :=
  match o.copyData with
  | none => .ok o
  | some dir =>
    if o.copied || dir.isEmpty then .ok o
    else
      match copy dir with
      | .error e => .error e
      | .ok fs => .ok { o with
          javascripts := fs.filter (fun f => endsWith f ".js".toList) ++ o.javascripts
          stylesheets := fs.filter (fun f => !endsWith f ".js".toList && endsWith f ".css".toList) ++
            o.stylesheets
          copied := true }

example : relpath "/w".toList "rep".toList "rep/a/B.class".toList = .ok "../..".toList ∧
    relpath "/w".toList "./x.css".toList "/r".toList = .ok "../w/x.css".toList ∧
    relpath "/w".toList "rep".toList "rep".toList = .ok ".".toList ∧
    relpath "/w".toList [] "rep".toList = .error .valueError := by decide +kernel

end Javatools
