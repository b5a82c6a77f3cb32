import Verif.Model.ArgParse
import Verif.Model.ManifestCli
/-
Model of the command lines of `jarutil create`, `jarutil sign` and `manifest create`: their parsers
(javatools/jarutil.py:245-289, javatools/manifest.py:927-946) and
`ArgumentParser.parse_known_args` (CPython 3.11, Lib/argparse.py) as far as they use it beyond
Model/ArgParse: several positional arguments of one word each, options with `nargs="+"`, and words
that are left over.

Simplifications: the texts of usage errors are left out; an option whose argument is `--` behind an
equals sign is as one that is not given (argparse stores an empty list, on which the commands fail);
an archive that is only partly written
because `create_jar` raises is not modelled.
-/
namespace Javatools

/-! ### parse_known_args -/

/-- The words of a command line, with the options put together with their arguments: an argument,
the actions of an option word, an option that is not known, `--`, an error. -/
inductive CmdItem where
  | arg (s : Str)
  | acts (as : List (OptSpec × List Str))
  | unknown (s : Str)
  | dashes
  | bad (e : PyErr)
  deriving DecidableEq, Repr

/-- The arguments that come next, and what is left. -/
def leadingArgs : List CmdItem → List Str × List CmdItem
  | .arg s :: rest => let r := leadingArgs rest; (s :: r.1, r.2)
  | rest => ([], rest)

/-- What an option takes of the words behind it: one argument, or (`nargs="+"`, the pattern `A+`
for an option) as many as there are. -/
def argsBehind (plus : Bool) (rest : List CmdItem) : List Str × List CmdItem :=
  if plus then leadingArgs rest
  else
    match rest with
    | .arg s :: rest => ([s], rest)
    | rest => ([], rest)

section
variable (negNum isInt : Str → Bool) (opts : List OptSpec)
/- The options with `nargs="+"`. -/
variable (plus : OptSpec → Bool)

/-- Lib/argparse.py `consume_optional` for each option word. -/
def groupToks : List Tok → List CmdItem
  | [] => []
  | .dashes :: ts => .dashes :: groupToks ts
  | .arg s :: ts => .arg s :: groupToks ts
  | .opt none s _ :: ts => .unknown s :: groupToks ts
  | .opt (some o) s e :: ts =>
    match consumeWord opts o s e with
    | .error x => [.bad x]
    | .ok (as, none) => .acts as :: groupToks ts
    | .ok (as, some o') =>
      if o'.takes then
        match argsBehind (plus o') (groupToks ts) with
        | ([], _) => [.bad usageError]
        | (vs, rest) => .acts (as ++ [(o', vs)]) :: rest
      else .acts (as ++ [(o', [])]) :: groupToks ts

/-- The actions taken, and the words left over. -/
abbrev Known := List ArgEvent × List Str

def Known.before (evs : List ArgEvent) (xs : List Str) (k : Known) : Known := (evs ++ k.1, xs ++ k.2)

/-- The positional arguments that are found, each of one word. -/
def oneEach (fs : List Str) : List ArgEvent := fs.map fun f => .files [f]

/-- Lib/argparse.py `_parse_known_args` behind the last option, where `left` positional arguments
are still to come. Each of their patterns `(-*A-*)` takes a `--` next to its word. -/
def knownTail (left : Nat) (run : List Str) (rest : List CmdItem) : Res Known :=
  match rest with
  | [] => if run.length < left then .error usageError
    else .ok (oneEach (run.take left), run.drop left)
  | _ :: rest =>
    let behind := (leadingArgs rest).1
    if left = 0 ∨ left < run.length then
      .ok (oneEach (run.take left), run.drop left ++ "--".toList :: behind)
    else if (run ++ behind).length < left then .error usageError
    else .ok (oneEach ((run ++ behind).take left), (run ++ behind).drop left)

/-- Lib/argparse.py `_parse_known_args`: the main loop. `run` are the arguments since the last
option. -/
def knownLoop (left : Nat) (run : List Str) : List CmdItem → Res Known
  | .arg s :: rest => knownLoop left (run ++ [s]) rest
  | .bad e :: _ => .error e
  | .unknown s :: rest =>
    (knownLoop (left - run.length) [] rest).map
      (Known.before (oneEach (run.take left)) (run.drop left ++ [s]))
  | .acts as :: rest =>
    match takeActions isInt as with
    | .error e => .error e
    | .ok evs =>
      (knownLoop (left - run.length) [] rest).map
        (Known.before (oneEach (run.take left) ++ evs) (run.drop left))
  | rest => knownTail left run rest

/-- `ArgumentParser.parse_known_args`, with `count` positional arguments. -/
def parseKnown (count : Nat) (argv : List Str) : Res Known :=
  match classify negNum opts argv with
  | .error e => .error e
  | .ok ts => knownLoop isInt count [] (groupToks opts plus ts)

/-- `ArgumentParser.parse_args`, likewise. -/
def parseExactly (count : Nat) (argv : List Str) : Res (List ArgEvent) :=
  match parseKnown negNum isInt opts plus count argv with
  | .error e => .error e
  | .ok (evs, []) => .ok evs
  | .ok (_, _ :: _) => .error usageError
end

/-! ### What the namespace holds -/

/-- The arguments of each use of an option. -/
def usesOf (evs : List ArgEvent) (o : OptSpec) : List (List Str) :=
  evs.filterMap fun ev => match ev with
    | .opt o' args => if o' = o then some args else none
    | .files _ => none

/-- `action="store"`: the last one. -/
def stored (evs : List ArgEvent) (o : OptSpec) : Option Str := ((usesOf evs o).getLast?).bind List.head?

/-! ### jarutil create -/

/-- javatools/jarutil.py:253-256 -/
def mainClassOpt : OptSpec := spec .value ["-m", "--main-class"]

/-- javatools/jarutil.py:251-256 -/
def jarCreateOpts : List OptSpec := helpOpts ++ [mainClassOpt]

section
variable (negNum isInt : Str → Bool)

/-- javatools/jarutil.py:245-260 `cli_create_jar`: the name of the archive and its entries. What
`-m` says is not looked at. -/
def jarCreateRun (W : World) (argv : List Str) : Res (Str × Zip) :=
  match parseKnown negNum isInt jarCreateOpts (fun _ => false) 1 argv with
  | .error e => .error e
  | .ok (evs, entries) =>
    match eventFiles evs with
    | jar :: _ =>
      match createJar W entries with
      | .error e => .error e
      | .ok z => .ok (jar, z)
    | [] => .error (.other "AttributeError")

/-! ### jarutil sign -/

/-- javatools/jarutil.py:282-284 -/
def digestOpt : OptSpec := spec .value ["-d", "--digest"]

/-- javatools/jarutil.py:286-290 -/
def chainOpt : OptSpec := spec .value ["-c", "--chain"]

/-- javatools/jarutil.py:292-294 -/
def outputOpt : OptSpec := spec .value ["-o", "--output"]

/-- javatools/jarutil.py:271-294 -/
def jarSignOpts : List OptSpec := helpOpts ++ [digestOpt, chainOpt, outputOpt]

/-- javatools/jarutil.py:263-314 `cli_sign_jar`: the exit status, and the archive that is written
with its name. -/
def jarSignRun (up : Char → Str) (C : Crypto) (H : Hashes) (W : World) (argv : List Str) :
    Res (Int × Option (Str × Zip)) :=
  match parseExactly negNum isInt jarSignOpts (fun _ => false) 4 argv with
  | .error e => .error e
  | .ok evs =>
    match eventFiles evs with
    | [jar, cert, key, alias] =>
      match cliSign up C H W jar cert key alias (usesOf evs chainOpt).flatten
          ((stored evs digestOpt).getD "SHA-256".toList) with
      | .error e => .error e
      | .ok (status, none) => .ok (status, none)
      | .ok (status, some z) => .ok (status, some ((stored evs outputOpt).getD jar, z))
    | _ => .error (.other "AttributeError")

/-! ### manifest create -/

/-- javatools/manifest.py:936-937 -/
def recursiveOpt : OptSpec := spec .flag ["-r", "--recursive"]

/-- javatools/manifest.py:938-940, `nargs="+"` and `action="append"` -/
def ignoreOpt : OptSpec := spec .value ["-i", "--ignore"]

/-- javatools/manifest.py:941-942 -/
def manifestOpt : OptSpec := spec .value ["-m", "--manifest"]

/-- javatools/manifest.py:933-944 -/
def manifestCreateOpts : List OptSpec :=
  helpOpts ++ [recursiveOpt, ignoreOpt, manifestOpt, digestOpt]

/-- javatools/manifest.py:946: the namespace. -/
def createArgs (evs : List ArgEvent) (content : Str) : CreateArgs :=
  { content := content
    recursive := !(usesOf evs recursiveOpt).isEmpty
    ignore := usesOf evs ignoreOpt
    manifest := stored evs manifestOpt
    digest := stored evs digestOpt }

/-- javatools/manifest.py:927-987 `cli_create`: the name of the written file and its content. -/
def manifestCreateRun (H : Hashes) (W : World) (argv : List Str) : Res (Option Str × Bytes) :=
  match parseExactly negNum isInt manifestCreateOpts (fun o => decide (o = ignoreOpt)) 1 argv with
  | .error e => .error e
  | .ok evs =>
    match eventFiles evs with
    | content :: _ =>
      match cliCreate H W (createArgs evs content) with
      | .error e => .error e
      | .ok b => .ok (stored evs manifestOpt, b)
    | [] => .error (.other "AttributeError")
end

end Javatools
