import Verif.Model.ArgParse
import Verif.Model.DistDiff
import Verif.Model.ClassInfoCli
/-
Model of classdiff, jardiff and distdiff from the command line to the exit status and what is
printed: the attributes of the namespace (javatools/classdiff.py:1019-1105, javatools/jardiff.py:554-577,
javatools/distdiff.py:593-619), `cli_classes_diff` (javatools/classdiff.py:951-975), `cli_jars_diff`
(javatools/jardiff.py:518-545), `cli_dist_diff` (javatools/distdiff.py:558-585) and `quick_report`
(javatools/report.py:627-640).

Three attributes are lists of patterns, and `--ignore` can make them `True`. Such an attribute is `none`
here.

Simplifications:
* runs with `--report` are a parameter;
* the command line is parsed first, then the actions are applied to the namespace; so for a command line that
  is refused and would make an action raise before that is noticed, the exception is `SystemExit`;
* what has been written of a JSON document when the encoder raises is left out;
* `print` and `write` do not fail.
-/
namespace Javatools

/-- The namespace, as far as it is looked at. -/
structure DiffNs where
  flags : Opts := []
  /-- `ignore_manifest_key`; `none` is `True` -/
  keys : Option (List Str) := some []
  /-- `ignore_jar_entry` -/
  entries : Option (List Str) := some []
  /-- `ignore_filenames` -/
  files : Option (List Str) := some []
  silent : Bool := false
  json : Bool := false
  showIgnored : Bool := false
  showUnchanged : Bool := false
  shallow : Bool := false
  output : Option Str := none

/-- The actions other than those of `--ignore…` options without patterns. -/
inductive DiffDest where
  | silent
  | verbose
  | output
  | json
  | showIgnored
  | showUnchanged
  | shallow
  | keys
  | entries
  | files
  deriving DecidableEq

/-- javatools/classdiff.py:1091-1102, javatools/jardiff.py:561, 575-577, javatools/distdiff.py:609-615 -/
def diffDests : List (OptSpec × DiffDest) := [
  (spec .flag ["-q", "--quiet"], .silent),
  (spec .flag ["-v", "--verbose"], .verbose),
  (spec .value ["-o", "--output"], .output),
  (spec .flag ["-j", "--json"], .json),
  (spec .flag ["--show-ignored"], .showIgnored),
  (spec .flag ["--show-unchanged"], .showUnchanged),
  (spec .flag ["--shallow"], .shallow),
  (spec .value ["--ignore-manifest-key"], .keys),
  (spec .value ["--ignore-jar-entry"], .entries),
  (spec .value ["--ignore-filenames"], .files)]

/-- `action="append"`; `True` has no `append` (argparse copies the value, then appends). -/
def appendTo (l : Option (List Str)) (args : List Str) : Res (Option (List Str)) :=
  match l with
  | none => .error .attributeError
  | some l => .ok (some (l ++ args))

/-- The actions `store_true`, `_opt_cb_verbose` (javatools/classdiff.py:1073-1081), `store` and `append`. -/
def DiffDest.set (ns : DiffNs) (args : List Str) : DiffDest → Res DiffNs
  | .silent => .ok { ns with silent := true }
  | .verbose => .ok { ns with showUnchanged := true, showIgnored := true }
  | .output => .ok { ns with output := args.head? }
  | .json => .ok { ns with json := true }
  | .showIgnored => .ok { ns with showIgnored := true }
  | .showUnchanged => .ok { ns with showUnchanged := true }
  | .shallow => .ok { ns with shallow := true }
  | .keys => (appendTo ns.keys args).map fun l => { ns with keys := l }
  | .entries => (appendTo ns.entries args).map fun l => { ns with entries := l }
  | .files => (appendTo ns.files args).map fun l => { ns with files := l }

/-- javatools/classdiff.py:1027-1041: the attributes that `--ignore` sets to `True`. -/
def OptArg.named : OptArg → List Str
  | .flag _ => []
  | .ignore values => (((splitChar ',' values).map strip).filter fun i => !i.isEmpty).map ignoreAttr

/-- The effect of `--ignore` and `--ignore-…`. -/
def DiffNs.ignores (ns : DiffNs) (a : OptArg) : DiffNs :=
  { ns with
    flags := applyOpt ns.flags a
    keys := if "ignore_manifest_key".toList ∈ a.named then none else ns.keys
    entries := if "ignore_jar_entry".toList ∈ a.named then none else ns.entries
    files := if "ignore_filenames".toList ∈ a.named then none else ns.files }

/-- The effect of an action. An option that wants an argument but is given `--` behind an equals sign makes
`_get_values` raise. -/
def diffStep (ns : DiffNs) : ArgEvent → Res DiffNs
  | .files _ => .ok ns
  | .opt o args =>
    if o.takes && args.isEmpty then .error .valueError
    else
      match (ArgEvent.opt o args).optArg with
      | some a => .ok (ns.ignores a)
      | none =>
        match PyDict.get? diffDests o with
        | some d => d.set ns args
        | none => .ok ns

/-- The actions in order. -/
def diffSteps (ns : DiffNs) : List ArgEvent → Res DiffNs
  | [] => .ok ns
  | ev :: evs =>
    match diffStep ns ev with
    | .error e => .error e
    | .ok ns' => diffSteps ns' evs

/-! ### Changes asked about such a namespace -/

def DiffNs.opts (ns : DiffNs) : DiffOpts :=
  ⟨ns.flags, ns.keys.getD [], ns.entries.getD [], ns.files.getD []⟩

def DiffNs.show (ns : DiffNs) : Change.ShowOpts := ⟨ns.showUnchanged, ns.showIgnored⟩

/-- The classes that look at `ignore_jar_entry` first: javatools/jardiff.py:116-118 and the derived classes
that do not override it. -/
def entryClasses : List String :=
  ["JarManifestChange", "JarGenericFileChange", "JarContentAdded", "JarContentRemoved", "JarContentChange",
   "JarClassAdded", "JarClassRemoved", "JarClassChange"]

/-- Does the rule of the class look at an attribute that is `True`? `fnmatches(entry, *True)`
(javatools/jardiff.py:117, javatools/distdiff.py:116) and `set(True)` (javatools/manifest.py:144, 192) raise
`TypeError`. -/
def DiffNs.raises (ns : DiffNs) (name : String) : Bool :=
  (ns.entries.isNone && decide (name ∈ entryClasses)) ||
  (ns.files.isNone && decide (name ∈ distTypes)) ||
  (ns.keys.isNone && (decide (name = "ManifestMainChange") ||
    (decide (name = "ManifestSectionChange") && !ns.flags.attr "ignore_manifest_subsections")))

namespace Change

mutual
/-- `is_ignored`, as `Change.isIgnored`, but it may raise. -/
def isIgnoredNs (ns : DiffNs) : Change DiffOpts → Res Bool
  | leaf h cmp changed desc =>
    if ns.raises h.typeName then .error .typeError
    else .ok ((leaf h cmp changed desc).isIgnored ns.opts)
  | super h short changed desc children =>
    if ns.raises h.typeName then .error .typeError
    else
      let base : Res Bool :=
        if ¬ (super h short changed desc children).isChange then .ok false
        else if children.isEmpty then .ok false
        else allIgnoredNs ns children
      match h.ign with
      | .inherit => base
      | .only rule => .ok (rule ns.opts)
      | .orElse rule => if rule ns.opts then .ok true else base
  | squashed _ _ _ _ ignored => .ok ignored
/-- The loop. -/
def allIgnoredNs (ns : DiffNs) : List (Change DiffOpts) → Res Bool
  | [] => .ok true
  | c :: cs =>
    if c.isChange then
      match isIgnoredNs ns c with
      | .error e => .error e
      | .ok false => .ok false
      | .ok true => allIgnoredNs ns cs
    else allIgnoredNs ns cs
end

/-- javatools/report.py:359-382: the line for a change, `none` if it is not shown. -/
def lineNs (ns : DiffNs) (indent : Nat) (c : Change DiffOpts) : Res (Option Str) :=
  if c.isChange then
    match c.isIgnoredNs ns with
    | .error e => .error e
    | .ok true =>
      .ok (if ns.showIgnored then some (indentLine indent [c.getDescription, " [IGNORED]".toList]) else none)
    | .ok false => .ok (some (indentLine indent [c.getDescription]))
  else .ok (if ns.showUnchanged then some (indentLine indent [c.getDescription]) else none)

mutual
/-- javatools/report.py:359-385 `_indent_change`: what is written, and the exception. -/
def indentNs (ns : DiffNs) (indent : Nat) : Change DiffOpts → Out
  | super h short changed desc children =>
    match lineNs ns indent (super h short changed desc children) with
    | .error e => ([], some e)
    | .ok none => ([], none)
    | .ok (some line) => seqOut [say line, indentAllNs ns (indent + 1) children]
  | leaf h cmp changed desc =>
    match lineNs ns indent (leaf h cmp changed desc) with
    | .error e => ([], some e)
    | .ok none => ([], none)
    | .ok (some line) => say line
  | squashed h oc changed desc ignored =>
    match lineNs ns indent (squashed h oc changed desc ignored) with
    | .error e => ([], some e)
    | .ok none => ([], none)
    | .ok (some line) => say line
def indentAllNs (ns : DiffNs) (indent : Nat) : List (Change DiffOpts) → Out
  | [] => ([], none)
  | c :: cs => seqOut [indentNs ns indent c, indentAllNs ns indent cs]
end

mutual
/-- Does every change of which `simplify` asks `is_ignored` answer? `none` if so, otherwise the exception:
javatools/change.py:183-208, 498-519. -/
def jsonRaises (ns : DiffNs) : Change DiffOpts → Option PyErr
  | super h short changed desc children =>
    match isIgnoredNs ns (super h short changed desc children) with
    | .error e => some e
    | .ok _ => jsonRaisesAll ns children
  | leaf h cmp changed desc =>
    match isIgnoredNs ns (leaf h cmp changed desc) with
    | .error e => some e
    | .ok _ => none
  | squashed _ _ _ _ _ => none
/-- The children: of those that changed, each is asked, and again when it is rendered. -/
def jsonRaisesAll (ns : DiffNs) : List (Change DiffOpts) → Option PyErr
  | [] => none
  | c :: cs =>
    if c.isChange then
      match isIgnoredNs ns c with
      | .error e => some e
      | .ok ign =>
        if ns.showIgnored || !ign then
          match jsonRaises ns c with
          | some e => some e
          | none => jsonRaisesAll ns cs
        else jsonRaisesAll ns cs
    else if ns.showUnchanged then
      match jsonRaises ns c with
      | some e => some e
      | none => jsonRaisesAll ns cs
    else jsonRaisesAll ns cs
end

/-- `JSONReportFormat` -/
def jsonNs (ns : DiffNs) (c : Change DiffOpts) : Res Json :=
  match jsonRaises ns c with
  | some e => .error e
  | none => .ok (c.toJson ns.opts ns.show)

/-- javatools/jardiff.py:542-545, javatools/distdiff.py:582-585 -/
def statusNs (ns : DiffNs) (c : Change DiffOpts) : Res Nat :=
  if c.isChange then (c.isIgnoredNs ns).map fun ign => if ign then 0 else 1 else .ok 0

end Change

/-! ### The tools -/

/-- What is printed. -/
inductive Rendered where
  | text (s : Str)
  | json (doc : Change.Json)

/-- A run: what is written where (`none` is standard output), if anything, and the exit status. -/
structure DiffRun where
  printed : Option (Option Str × Rendered)
  status : Res Nat

def DiffRun.fails (e : PyErr) : DiffRun := ⟨none, .error e⟩

/-- The tools that compare. -/
inductive DiffTool where
  | classdiff
  | jardiff
  | distdiff
  deriving DecidableEq

def DiffTool.tool : DiffTool → Tool
  | .classdiff => .classdiff
  | .jardiff => .jardiff
  | .distdiff => .distdiff

/-- What the runs depend on. -/
structure DiffWorld where
  E : DistEnv
  /-- `unpack_classfile` -/
  cls : Str → Res ClassInfo
  /-- an archive or exploded archive -/
  jar : Str → Res Archive
  /-- a directory -/
  dir : Str → Forest
  /-- the exception of `open(name, "w")`, if any -/
  cannotOpen : Str → Option PyErr

/-- javatools/report.py:635: `if options.output` -/
def DiffNs.dest (ns : DiffNs) : Option Str :=
  match ns.output with
  | some [] => none
  | x => x

/-- After `check`: javatools/classdiff.py:966-975, javatools/jardiff.py:536-545,
javatools/distdiff.py:576-585, javatools/report.py:627-640. -/
def finishRun (W : DiffWorld) (ns : DiffNs) (text : Out) (json : Res Change.Json) (status : Res Nat) : DiffRun :=
  if ns.silent then ⟨none, status⟩
  else
    match ns.dest.bind W.cannotOpen with
    | some e => .fails e
    | none =>
      if ns.json then
        match json with
        | .error e => .fails e
        | .ok doc => ⟨some (ns.dest, .json doc), status⟩
      else
        match text with
        | (s, some e) => ⟨some (ns.dest, .text s), .error e⟩
        | (s, none) => ⟨some (ns.dest, .text s), status⟩

/-- javatools/distdiff.py:289-292 `DistChange.get_description` -/
def nameDist (a b : Str) : Change DiffOpts → Change DiffOpts
  | .super h short changed desc children =>
    .super { h with describe := some fun c =>
      h.label ++ (if c then " changed from ".toList else " unchanged from ".toList) ++ a ++ " to ".toList ++ b }
      short changed desc children
  | c => c

/-- The change that jardiff and distdiff check: javatools/jardiff.py:533, javatools/distdiff.py:572. -/
def deltaOf (W : DiffWorld) (t : DiffTool) (shallow : Bool) (a b : Str) : Res (Change DiffOpts) :=
  match t with
  | .distdiff => .ok (nameDist a b (distChange W.E (W.dir a) (W.dir b) shallow))
  | _ => (W.jar a).bind fun l => (W.jar b).bind fun r => .ok (jarChange W.E.toJarEnv l r)

/-- `cli` without reports: javatools/classdiff.py:951-982, javatools/jardiff.py:518-551,
javatools/distdiff.py:558-590. -/
def diffCli (W : DiffWorld) (t : DiffTool) (ns : DiffNs) (a b : Str) : DiffRun :=
  match t with
  | .classdiff =>
    match (W.cls a).bind fun l => (W.cls b).bind fun r =>
        (javaClassChange W.E.T W.E.lim W.E.depth l r).check with
    | .error e => .fails e
    | .ok c =>
      finishRun W ns (c.textReport ns.flags ns.show, none) (.ok (c.toJson ns.flags ns.show))
        (.ok (c.exitStatus ns.flags))
  | _ =>
    match (deltaOf W t ns.shallow a b).bind Change.check with
    | .error e => .fails e
    | .ok c => finishRun W ns (c.indentNs ns 0) (c.jsonNs ns) (c.statusNs ns)

section
variable (negNum isInt : Str → Bool) (W : DiffWorld) (other : List ArgEvent → DiffRun)

/-- javatools/classdiff.py:1145-1151, javatools/jardiff.py:622-628, javatools/distdiff.py:663-669: `main` -/
def diffMain (t : DiffTool) (argv : List Str) : DiffRun :=
  match t.tool.parse negNum isInt argv with
  | .error e => .fails e
  | .ok evs =>
    match diffSteps {} evs with
    | .error e => .fails e
    | .ok ns =>
      if reportGiven evs then other evs
      else
        match eventFiles evs with
        | a :: b :: _ => diffCli W t ns a b
        | _ => .fails .indexError
end

end Javatools
