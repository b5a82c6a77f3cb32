import Verif.Model.DiffMain
import Verif.Model.Report
/-
Model of classdiff and jardiff with `--report`: `cli_classes_diff` (javatools/classdiff.py:951-975),
`cli_jars_diff` (javatools/jardiff.py:518-545), `JavaClassReport` (javatools/classdiff.py:869-882),
`JarClassReport` (javatools/jardiff.py:165-183), `JarContentsReport` and `JarReport`
(javatools/jardiff.py:427-511), and what the formats write (javatools/report.py:185-243, 281-302, 351-356,
475-528).

Simplifications:
* the formats of a reporter are a set in the program and a list here;
* what a template makes of a change is a parameter, and the data that HTML reports share are not copied here
  (see Model/Report);
* the JSON document is the one of the change, without the options that the program adds;
* what has been written to a file when its format raises is left out, as is the empty file;
* three attributes of the namespace that can be `True` in place of a list of patterns (see Model/DiffMain)
  are taken to be empty then.
-/
namespace Javatools

/-- What is in the file of a report. -/
inductive Page where
  | text (s : Str)
  | json (doc : Change.Json)
  | html (s : Str)

/-- What the reports depend on. -/
structure ReportEnv where
  cwd : Str
  /-- the exception of making the directory and opening the file, if any -/
  cannotWrite : Target → Option PyErr
  /-- javatools/report.py:475-528: the page for a change -/
  html : {O : Type} → O → FormatInst → Change O → Res Str

section
variable (P : ReportEnv) {O : Type} (o : O) (s : Change.ShowOpts)

/-- `run_impl` of the three formats: javatools/report.py:284-302, 354-356, 475-528. -/
def pageOf (f : FormatInst) (c : Change O) : Res Page :=
  match f.fmt with
  | .text => .ok (.text (c.textReport o s))
  | .json => .ok (.json (c.toJson o s))
  | .html => (P.html o f c).map .html

/-- javatools/report.py:155-158: the formats one after the other. What has been written, and the exception that
ended it, if any. -/
def writeTo (c : Change O) : List (FormatInst × Target) → List (Target × Page) × Option PyErr
  | [] => ([], none)
  | (f, t) :: rest =>
    match P.cannotWrite t with
    | some e => ([], some e)
    | none =>
      match pageOf P o s f c with
      | .error e => ([], some e)
      | .ok p => ((t, p) :: (writeTo c rest).1, (writeTo c rest).2)

/-- javatools/report.py:146-160 `Reporter.run` -/
def Reporter.report (r : Reporter) (c : Change O) : List (Target × Page) × Option PyErr :=
  match r.run P.cwd with
  | .error e => ([], some e)
  | .ok (ts, _) => writeTo P o s c ts
end

/-- The same change as an instance of another class. -/
def Change.retype {O : Type} (name : String) : Change O → Change O
  | .leaf h cmp changed desc => .leaf { h with typeName := name } cmp changed desc
  | .super h short changed desc children => .super { h with typeName := name } short changed desc children
  | .squashed h oc changed desc ignored => .squashed { h with typeName := name } oc changed desc ignored

/-- What was written on the way, and the outcome. -/
abbrev Logged (α : Type) := List (Target × Page) × Res α

/-- The outcome of a check whose change is then reported. -/
def reported (P : ReportEnv) {O : Type} (o : O) (s : Change.ShowOpts) (R : Reporter) (c : Change O) :
    Logged (Change O) :=
  match R.report P o s c with
  | (w, some e) => (w, .error e)
  | (w, none) => (w, .ok c)

section
variable (P : ReportEnv) (s : Change.ShowOpts) (R : Reporter)

/-- javatools/classdiff.py:880-882 `JavaClassReport.check` -/
def classReport (T : Texts) (lim depth : Nat) (o : Opts) (l r : ClassInfo) : Logged (Change Opts) :=
  match (javaClassChange T lim depth l r).check with
  | .error e => ([], .error e)
  | .ok c => reported P o s R (c.retype "JavaClassReport")

/-- javatools/jardiff.py:446-452, 175-183: `JarClassReport` for a class that has been compared, `x`. Its child has
been checked and is reported. -/
def subReport (o : DiffOpts) (x : Change DiffOpts) : List (Target × Page) × Option PyErr :=
  match x.collect, x.hdr.entry with
  | [c], some e => (R.subreporter e "JavaClassReport".toList).report P o s (c.retype "JavaClassReport")
  | _, _ => ([], none)

/-- javatools/jardiff.py:456-481 `JarContentsReport.check_impl`, as `reportAll`, with what is written. -/
def reportLoop (o : DiffOpts) : List (Change DiffOpts) → Bool → Logged (List (Change DiffOpts) × Bool)
  | [], c => ([], .ok ([], c))
  | x :: xs, c =>
    match x.check with
    | .error e => ([], .error e)
    | .ok x' =>
      match (if isReported x then subReport P s R o x' else ([], none)) with
      | (w, some e) => (w, .error e)
      | (w, none) =>
        match reportLoop o xs (c || x'.isChange) with
        | (w', .error e) => (w ++ w', .error e)
        | (w', .ok (xs', c')) =>
          (w ++ w', .ok ((if isReported x then x'.squash false (some o) else x') :: xs', c'))

/-- javatools/jardiff.py:484-511 `JarReport.check`, as `jarReportCheck`, with what is written. -/
def jarReportRun (E : JarEnv) (o : DiffOpts) (l r : Archive) : Logged (Change DiffOpts) :=
  match (jarTypeChange l r).check with
  | .error e => ([], .error e)
  | .ok t =>
    match jarContentsChildren E l r with
    | .error e => ([], .error e)
    | .ok cs =>
      match reportLoop P s R o cs false with
      | (w, .error e) => (w, .error e)
      | (w, .ok (cs', c)) =>
        match reported P o s R
            (.super { typeName := "JarReport", label := "JAR".toList } none (false || t.isChange || c) none
              [t, .super { typeName := "JarContentsReport", label := "JAR Contents".toList } none c none cs']) with
        | (w', d) => (w ++ w', d)
end

/-! ### The command line -/

/-- javatools/report.py:251-259, 266-272: `reports` -/
def reportNames (evs : List ArgEvent) : List Str :=
  evs.foldl (fun names ev => match ev with
    | .opt o args => if o = spec .value ["--report"] then args.foldl optReport names else names
    | .files _ => names) []

/-- javatools/report.py:266-272: `report_dir` -/
def reportDir (evs : List ArgEvent) : Option Str :=
  evs.foldl (fun d ev => match ev with
    | .opt o args => if o = spec .value ["--report-dir"] then args.head? else d
    | .files _ => d) none

/-- javatools/classdiff.py:954, javatools/jardiff.py:524: `options.report_dir or "./"` -/
def orHere : Option Str → Str
  | none => "./".toList
  | some [] => "./".toList
  | some d => d

/-- A run: the reports that are written, and the rest. -/
structure ReportRun where
  files : List (Target × Page)
  run : DiffRun

/-- After `check`: javatools/classdiff.py:966-975, javatools/jardiff.py:536-545. -/
def finishReport (W : DiffWorld) (ns : DiffNs) {O : Type} (o : O) : Logged (Change O) → ReportRun
  | (w, .error e) => ⟨w, .fails e⟩
  | (w, .ok c) =>
    ⟨w, finishRun W ns (c.textReport o ns.show, none) (.ok (c.toJson o ns.show)) (.ok (c.exitStatus o))⟩

/-- `cli` with reports. -/
def reportCli (W : DiffWorld) (P : ReportEnv) (t : DiffTool) (ns : DiffNs) (dir : Str) (names : List Str)
    (a b : Str) : ReportRun :=
  match t with
  | .classdiff =>
    match W.cls a with
    | .error e => ⟨[], .fails e⟩
    | .ok l =>
      match W.cls b with
      | .error e => ⟨[], .fails e⟩
      | .ok r =>
        finishReport W ns ns.flags (classReport P ns.show
          (Reporter.addFormatsByName { basedir := dir, entry := "JavaClassReport".toList } names)
          W.E.T W.E.lim W.E.depth ns.flags l r)
  | _ =>
    match W.jar a with
    | .error e => ⟨[], .fails e⟩
    | .ok l =>
      match W.jar b with
      | .error e => ⟨[], .fails e⟩
      | .ok r =>
        finishReport W ns ns.opts (jarReportRun P ns.show
          (Reporter.addFormatsByName { basedir := dir, entry := "JarReport".toList } names)
          W.E.toJarEnv ns.opts l r)

/-- javatools/classdiff.py:1145-1151, javatools/jardiff.py:622-628: `main`. Not for distdiff. -/
def reportMain (negNum isInt : Str → Bool) (W : DiffWorld) (P : ReportEnv) (t : DiffTool) (argv : List Str) :
    ReportRun :=
  match t.tool.parse negNum isInt argv with
  | .error e => ⟨[], .fails e⟩
  | .ok evs =>
    match diffSteps {} evs with
    | .error e => ⟨[], .fails e⟩
    | .ok ns =>
      match eventFiles evs with
      | a :: b :: _ =>
        if reportNames evs = [] then ⟨[], diffCli W t ns a b⟩
        else reportCli W P t ns (orHere (reportDir evs)) (reportNames evs) a b
      | _ => ⟨[], .fails .indexError⟩

end Javatools
