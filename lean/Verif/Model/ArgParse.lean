import Verif.Model.ClassDiff
import Verif.Model.Text
/-
Model of the command lines of classdiff, jardiff, distdiff, classinfo, jarinfo and distinfo: their parsers
(javatools/classdiff.py:985-1151, javatools/jardiff.py:554-628, javatools/distdiff.py:593-669,
javatools/report.py:262-312, 609-624, javatools/classinfo.py:411-477, javatools/jarinfo.py:301-337,
javatools/distinfo.py:258-288) and of `argparse.ArgumentParser.parse_args` (CPython 3.11,
Lib/argparse.py; 3.8-3.10 agree but for `-q=`), as far as it is used: options that take nothing or one
argument, abbreviations of long options, short options in one word, `--`, and one positional argument with
`nargs` none, 2 or `"+"`. No parser has options that look like negative numbers.

What a parser makes of a command line is the sequence of actions that it takes, or the exception
`SystemExit`. The texts of usage errors are left out.
-/
namespace Javatools

/-- What the action of an option does with its argument. -/
inductive OptKind where
  /-- `-h`: `SystemExit(0)` -/
  | help
  /-- `nargs=0` -/
  | flag
  /-- one argument -/
  | value
  /-- one argument, `type=int` -/
  | int
  deriving DecidableEq, Repr

/-- One `add_argument`: the option strings and the kind of action. -/
structure OptSpec where
  strings : List Str
  kind : OptKind
  deriving DecidableEq, Repr

/-- `nargs` is `None` rather than 0. -/
def OptSpec.takes (o : OptSpec) : Bool :=
  match o.kind with
  | .help => false
  | .flag => false
  | .value => true
  | .int => true

/-- `exit(2)` of `ArgumentParser.error` -/
def usageError : PyErr := .other "SystemExit(2)"

/-- `exit(0)` after the help -/
def helpExit : PyErr := .other "SystemExit(0)"

/-- An action that is taken: an option with its arguments (none, or one; also none for an option
that wants one but is given `--` behind an equals sign), or the positional argument. -/
inductive ArgEvent where
  | opt (o : OptSpec) (args : List Str)
  | files (fs : List Str)
  deriving DecidableEq, Repr

/-- An argument string, classified: `--`, an argument, or an option with the action that was found,
if any, the option string and the explicit argument. -/
inductive Tok where
  | dashes
  | arg (s : Str)
  | opt (o : Option OptSpec) (string : Str) (explicit : Option Str)
  deriving DecidableEq, Repr

section
/- `negNum s` is whether `s` matches `^-\d+$|^-\d*\.\d+$`, `isInt s` whether `int(s)` accepts it. -/
variable (negNum isInt : Str → Bool)
/- The options of the parser, `-h` first. -/
variable (opts : List OptSpec)

/-- `_option_string_actions` -/
def optionStrings : List (Str × OptSpec) := opts.flatMap fun o => o.strings.map fun s => (s, o)

def lookupOption (s : Str) : Option OptSpec := PyDict.get? (optionStrings opts) s

/-- Python `s.split('=', 1)` if there is an equals sign. -/
def splitEq (s : Str) : Option (Str × Str) := splitFirst '=' s

/-- Lib/argparse.py `_get_option_tuples` -/
def optionTuples (s : Str) : List (OptSpec × Str × Option Str) :=
  match s with
  | '-' :: '-' :: _ =>
    match splitEq s with
    | some (p, e) =>
      ((optionStrings opts).filter fun x => p.isPrefixOf x.1).map fun x => (x.2, x.1, some e)
    | none =>
      ((optionStrings opts).filter fun x => s.isPrefixOf x.1).map fun x => (x.2, x.1, none)
  | _ =>
    (optionStrings opts).filterMap fun x =>
      if x.1 = s.take 2 then some (x.2, x.1, some (s.drop 2))
      else if s.isPrefixOf x.1 then some (x.2, x.1, none)
      else none

/-- Lib/argparse.py `_parse_optional`, and the classification of `_parse_known_args`. -/
def classifyArg (s : Str) : Res Tok :=
  if s.head? ≠ some '-' then .ok (.arg s)
  else
    match lookupOption opts s with
    | some o => .ok (.opt (some o) s none)
    | none =>
      if s.length = 1 then .ok (.arg s)
      else
        match (splitEq s).bind fun x => (lookupOption opts x.1).map fun o => (o, x) with
        | some (o, p, e) => .ok (.opt (some o) p (some e))
        | none =>
          match optionTuples opts s with
          | _ :: _ :: _ => .error usageError
          | [(o, p, e)] => .ok (.opt (some o) p e)
          | [] =>
            if negNum s then .ok (.arg s)
            else if ' ' ∈ s then .ok (.arg s)
            else .ok (.opt none s none)

/-- Lib/argparse.py `_parse_known_args`: the first loop. -/
def classify : List Str → Res (List Tok)
  | [] => .ok []
  | s :: ss =>
    if s = "--".toList then .ok (.dashes :: ss.map .arg)
    else
      match classifyArg negNum opts s with
      | .error e => .error e
      | .ok t =>
        match classify ss with
        | .error e => .error e
        | .ok ts => .ok (t :: ts)

/-- `_get_values` strips out the first `--`. -/
def optValues (v : Str) : List Str := if v = "--".toList then [] else [v]

/-- Lib/argparse.py `take_action` for an option: `_get_values`, and help. -/
def takeAction (o : OptSpec) (args : List Str) : Res ArgEvent :=
  match o.kind with
  | .help => .error helpExit
  | .int => if args.all isInt then .ok (.opt o args) else .error usageError
  | _ => .ok (.opt o args)

/-- The actions of one option word, in order. -/
def takeActions : List (OptSpec × List Str) → Res (List ArgEvent)
  | [] => .ok []
  | (o, args) :: rest =>
    match takeAction isInt o args with
    | .error e => .error e
    | .ok ev =>
      match takeActions rest with
      | .error e => .error e
      | .ok evs => .ok (ev :: evs)

/-- Lib/argparse.py `consume_optional`: the loop while there is an explicit argument. The actions,
and the option at the end that has none yet, if any. `short` is `option_string[1] not in chars`. -/
def consumeExplicit : Str → OptSpec → Bool → Res (List (OptSpec × List Str) × Option OptSpec)
  | [], o, _ => if o.takes then .ok ([(o, optValues [])], none) else .error usageError
  | c :: cs, o, short =>
    if o.takes then .ok ([(o, optValues (c :: cs))], none)
    else if !short then .error usageError
    else
      match lookupOption opts ['-', c] with
      | none => .error usageError
      | some o' =>
        if cs.isEmpty then .ok ([(o, [])], some o')
        else
          match consumeExplicit cs o' true with
          | .error e => .error e
          | .ok (as, last) => .ok ((o, []) :: as, last)

/-- The option word before its arguments are looked for: its actions and the option that is left. -/
def consumeWord (o : OptSpec) (string : Str) :
    Option Str → Res (List (OptSpec × List Str) × Option OptSpec)
  | none => .ok ([], some o)
  | some e => consumeExplicit opts e o (decide (string[1]? ≠ some '-'))

/-- `nargs` of the positional argument: none, 2 or `"+"`. -/
inductive Nargs where
  | one
  | two
  | plus
  deriving DecidableEq, Repr

/-- What the pattern of the positional argument, `(-*A-*)`, `(-*A-*A-*)` or `(-*A[A-]*)`, matches of the
arguments that come next, and what is left. There is no more than one `--`, which every pattern matches
wherever it stands. -/
def Nargs.take : Nargs → List Str → Option (List Str × List Str)
  | .one, a :: rest => some ([a], rest)
  | .two, a :: b :: rest => some ([a, b], rest)
  | .plus, a :: rest => some (a :: rest, [])
  | _, _ => none

/-- The state of the parser: the actions so far for arguments before an option, whether the positional
argument is still to come, and whether something was not recognised. -/
structure Settled where
  events : List ArgEvent
  pending : Bool
  extras : Bool
  deriving DecidableEq, Repr

/-- The words that are arguments. -/
def Tok.argOf : Tok → Option Str
  | .arg s => some s
  | _ => none

section
variable (nargs : Nargs)

/-- Lib/argparse.py `_parse_known_args`: the arguments before an option, `run`. There is no `--` before an
option. -/
def settle (pending extras : Bool) (run : List Str) : Settled :=
  if run.isEmpty then ⟨[], pending, extras⟩
  else if pending then
    match nargs.take run with
    | some (fs, rest) => ⟨[.files fs], false, extras || !rest.isEmpty⟩
    | none => ⟨[], true, true⟩
  else ⟨[], false, true⟩

/-- Lib/argparse.py `_parse_known_args` behind the last option, and the end of `parse_args`: nothing
may be missing and nothing left. `ts` is empty or begins with `--`. -/
def parseTail (pending extras : Bool) (run : List Str) (ts : List Tok) : Res (List ArgEvent) :=
  if pending then
    match nargs.take (run ++ ts.filterMap Tok.argOf) with
    | none => .error usageError
    | some (fs, rest) => if extras || !rest.isEmpty then .error usageError else .ok [.files fs]
  else if extras || !run.isEmpty || !ts.isEmpty then .error usageError
  else .ok []

/-- Lib/argparse.py `_parse_known_args`: the main loop. `run` are the arguments since the last option. -/
def parseLoop (pending extras : Bool) (run : List Str) : List Tok → Res (List ArgEvent)
  | .opt none _ _ :: ts =>
    (parseLoop (settle nargs pending extras run).pending true [] ts).map
      ((settle nargs pending extras run).events ++ ·)
  | .opt (some o) s e :: ts =>
    match consumeWord opts o s e with
    | .error e => .error e
    | .ok (as, none) =>
      match takeActions isInt as with
      | .error e => .error e
      | .ok evs =>
        (parseLoop (settle nargs pending extras run).pending (settle nargs pending extras run).extras [] ts).map
          ((settle nargs pending extras run).events ++ evs ++ ·)
    | .ok (as, some o') =>
      if o'.takes then
        match ts with
        | .arg v :: ts =>
          match takeActions isInt (as ++ [(o', [v])]) with
          | .error e => .error e
          | .ok evs =>
            (parseLoop (settle nargs pending extras run).pending (settle nargs pending extras run).extras [] ts).map
              ((settle nargs pending extras run).events ++ evs ++ ·)
        | _ => .error usageError
      else
        match takeActions isInt (as ++ [(o', [])]) with
        | .error e => .error e
        | .ok evs =>
          (parseLoop (settle nargs pending extras run).pending (settle nargs pending extras run).extras [] ts).map
            ((settle nargs pending extras run).events ++ evs ++ ·)
  | .arg a :: ts => parseLoop pending extras (run ++ [a]) ts
  | ts => parseTail nargs pending extras run ts

/-- `ArgumentParser.parse_args` -/
def parseArgs (argv : List Str) : Res (List ArgEvent) :=
  match classify negNum opts argv with
  | .error e => .error e
  | .ok ts => parseLoop isInt opts nargs true false [] ts
end
end

/-! ### The parsers -/

/-- One `add_argument` with these option strings. -/
def spec (kind : OptKind) (strings : List String) : OptSpec := ⟨strings.map String.toList, kind⟩

/-- `ArgumentParser()` adds `-h`. -/
def helpOpts : List OptSpec := [spec .help ["-h", "--help"]]

/-- javatools/classdiff.py:1084-1105 `add_general_optgroup` -/
def generalOpts : List OptSpec := [
  spec .flag ["-q", "--quiet"],
  spec .flag ["-v", "--verbose"],
  spec .value ["-o", "--output"],
  spec .flag ["-j", "--json"],
  spec .flag ["--show-ignored"],
  spec .flag ["--show-unchanged"],
  spec .value ["--ignore"]]

/-- javatools/classdiff.py:985-1016 `add_classdiff_optgroup` -/
def classdiffOpts : List OptSpec := [
  spec .flag ["--ignore-version-up"],
  spec .flag ["--ignore-version-down"],
  spec .flag ["--ignore-platform-up"],
  spec .flag ["--ignore-platform-down"],
  spec .flag ["--ignore-absolute-lines"],
  spec .flag ["--ignore-relative-lines"],
  spec .flag ["--ignore-deprecated"],
  spec .flag ["--ignore-added"],
  spec .flag ["--ignore-pool"],
  spec .flag ["--ignore-lines"],
  spec .flag ["--ignore-platform"],
  spec .flag ["--ignore-version"]]

/-- javatools/report.py:262-272 `add_general_report_optgroup`, 305-312 `add_json_report_optgroup`,
609-624 `add_html_report_optgroup` -/
def reportOpts : List OptSpec := [
  spec .value ["--report-dir"],
  spec .value ["--report"],
  spec .int ["--json-indent"],
  spec .value ["--html-stylesheet"],
  spec .value ["--html-javascript"],
  spec .value ["--html-copy-data"]]

/-- javatools/jardiff.py:554-577 `add_jardiff_optgroup` -/
def jardiffOpts : List OptSpec := [
  spec .value ["--ignore-jar-entry"],
  spec .flag ["--ignore-jar-signature"],
  spec .flag ["--ignore-manifest"],
  spec .flag ["--ignore-manifest-subsections"],
  spec .value ["--ignore-manifest-key"]]

/-- javatools/distdiff.py:593-619 `add_distdiff_optgroup` -/
def distdiffOpts : List OptSpec := [
  spec .int ["--processes"],
  spec .flag ["--shallow"],
  spec .value ["--ignore-filenames"],
  spec .flag ["--ignore-trailing-whitespace"]]

/-- `--json` of the tools that show: javatools/classinfo.py:467-468, javatools/jarinfo.py:327-328,
javatools/distinfo.py:276-277 -/
def jsonOpts : List OptSpec := [spec .flag ["--json"]]

/-- javatools/classinfo.py:411-460 `add_classinfo_optgroup` -/
def classinfoOpts : List OptSpec := [
  spec .flag ["--class-provides"],
  spec .flag ["--class-requires"],
  spec .value ["--api-ignore"],
  spec .flag ["--header"],
  spec .flag ["--public"],
  spec .flag ["--package"],
  spec .flag ["--private"],
  spec .flag ["-l"],
  spec .flag ["-o"],
  spec .flag ["-c"],
  spec .flag ["-s"],
  spec .flag ["-p"],
  spec .flag ["--verbose"]]

/-- javatools/jarinfo.py:301-319 `add_jarinfo_optgroup` -/
def jarinfoOpts : List OptSpec := [
  spec .flag ["--zip"],
  spec .flag ["--manifest"],
  spec .flag ["--jar-classes"],
  spec .flag ["--jar-provides"],
  spec .flag ["--jar-requires"]]

/-- javatools/distinfo.py:258-267 `add_distinfo_optgroup` -/
def distinfoOpts : List OptSpec := [
  spec .flag ["--dist-provides"],
  spec .flag ["--dist-requires"]]

/-- The tools. -/
inductive Tool where
  | classdiff
  | jardiff
  | distdiff
  | classinfo
  | jarinfo
  | distinfo
  deriving DecidableEq, Repr

/-- `create_optparser`: javatools/classdiff.py:1108-1124, javatools/jardiff.py:580-601,
javatools/distdiff.py:622-642, javatools/classinfo.py:463-472, javatools/jarinfo.py:322-332,
javatools/distinfo.py:270-283 -/
def Tool.opts : Tool → List OptSpec
  | .classdiff => helpOpts ++ generalOpts ++ classdiffOpts ++ reportOpts
  | .jardiff => helpOpts ++ generalOpts ++ jardiffOpts ++ classdiffOpts ++ reportOpts
  | .distdiff => helpOpts ++ generalOpts ++ distdiffOpts ++ jardiffOpts ++ classdiffOpts ++ reportOpts
  | .classinfo => helpOpts ++ jsonOpts ++ classinfoOpts
  | .jarinfo => helpOpts ++ jsonOpts ++ jarinfoOpts ++ classinfoOpts
  | .distinfo => helpOpts ++ jsonOpts ++ distinfoOpts ++ jarinfoOpts ++ classinfoOpts

/-- The positional argument of the same. -/
def Tool.nargs : Tool → Nargs
  | .classdiff => .two
  | .jardiff => .two
  | .distdiff => .two
  | .classinfo => .plus
  | .jarinfo => .plus
  | .distinfo => .one

/-- `create_optparser(…).parse_args(argv)` -/
def Tool.parse (negNum isInt : Str → Bool) (t : Tool) (argv : List Str) : Res (List ArgEvent) :=
  parseArgs negNum isInt t.opts t.nargs argv

/-- `default_classdiff_options` (javatools/classdiff.py:1127-1142), `default_jardiff_options`
(javatools/jardiff.py:604-619), `default_distdiff_options` (javatools/distdiff.py:645-660) up to
`parse_args(list())`. What comes behind it is never reached. -/
def Tool.defaultOptions (negNum isInt : Str → Bool) (t : Tool) : Res (List ArgEvent) :=
  t.parse negNum isInt []

/-! ### What the options do -/

/-- The effect on the attributes that the comparison of classes looks at: `--ignore`, `--ignore-lines`
and so on as `OptArg`. javatools/classdiff.py:1019-1070. -/
def ArgEvent.optArg : ArgEvent → Option OptArg
  | .opt o [v] => if o.strings = ["--ignore".toList] then some (.ignore v) else none
  | .opt o [] =>
    match o.strings with
    | [s] => if "--ignore-".toList.isPrefixOf s ∧ o.takes = false then some (.flag (s.drop 9)) else none
    | _ => none
  | _ => none

/-- javatools/classdiff.py:1084-1105: `silent`. -/
def quietGiven (evs : List ArgEvent) : Bool :=
  evs.any fun ev => decide (ev = .opt (spec .flag ["-q", "--quiet"]) [])

/-- javatools/report.py:262-272: `reports` is not empty. -/
def reportGiven (evs : List ArgEvent) : Bool :=
  evs.any fun ev => match ev with | .opt o _ => decide (o = spec .value ["--report"]) | _ => false

def ArgEvent.filesOf : ArgEvent → List Str
  | .files fs => fs
  | .opt _ _ => []

/-- The positional argument. -/
def eventFiles (evs : List ArgEvent) : List Str := evs.flatMap ArgEvent.filesOf

section
variable (negNum isInt : Str → Bool) (T : Texts) (lim depth : Nat)
/- `unpack_classfile`, and what happens with reports and with printing. -/
variable (read : Str → Res ClassInfo) (other : List ArgEvent → ClassInfo → ClassInfo → Res Nat)

/-- javatools/classdiff.py:978-982 `cli` and 951-975 `cli_classes_diff`. Only the silent run without reports
is spelled out. -/
def classdiffRun (evs : List ArgEvent) : Res Nat :=
  match eventFiles evs with
  | a :: b :: _ =>
    match read a with
    | .error e => .error e
    | .ok l =>
      match read b with
      | .error e => .error e
      | .ok r =>
        if quietGiven evs && !reportGiven evs then
          classDiffStatus T lim depth (parseOpts (evs.filterMap ArgEvent.optArg)) l r
        else other evs l r
  | _ => .error (.other "IndexError")

/-- javatools/classdiff.py:1145-1151 `main` -/
def classdiffMain (argv : List Str) : Res Nat :=
  match Tool.classdiff.parse negNum isInt argv with
  | .error e => .error e
  | .ok evs => classdiffRun T lim depth read other evs
end

end Javatools
