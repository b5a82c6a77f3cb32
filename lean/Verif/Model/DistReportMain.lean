import Verif.Model.ReportMain
/-
Model of distdiff with `--report`, with and without worker processes: `cli_dist_diff`
(javatools/distdiff.py:558-585), `DistReport` (javatools/distdiff.py:368-523), `DistJarReport` and `DistClassReport`
(javatools/distdiff.py:210-222, 248-263), `_mp_run_check` (javatools/distdiff.py:526-551).

Simplifications, besides those of Model/ReportMain, Model/DistDiff and Model/DistMp:
* with worker processes the files are listed report by report, in the order of the files that were compared, as the
  main process knows of them; when they were written is left out;
* when the main process raises while there are workers, the files that these have written by then are left open;
* a run that does not end is not a run here.
-/
namespace Javatools

section
variable (P : ReportEnv) (s : Change.ShowOpts) (R : Reporter) (E : DistEnv) (l r : Forest) (o : DiffOpts)

/-- javatools/distdiff.py:384-403: `check` of the `DistJarReport` or the `DistClassReport` that `collect_impl` puts in
place of a change, with what is written. The child of the latter is left as a `JavaClassChange`. -/
def distSubReport (c : Change DiffOpts) : Logged (Change DiffOpts) :=
  match c.hdr.entry with
  | none => ([], .error (.other "unreachable"))
  | some entry =>
    if c.hdr.typeName = "DistJarChange" then
      match bothFiles E.openJar l r entry with
      | .error e => ([], .error e)
      | .ok (a, b) =>
        match jarReportRun P s (R.subreporter entry "JarReport".toList) E.toJarEnv o a b with
        | (w, .error e) => (w, .error e)
        | (w, .ok d) => (w, .ok (.super { c.hdr with typeName := "DistJarReport" } none d.isChange none [d]))
    else
      match c.check with
      | .error e => ([], .error e)
      | .ok x =>
        match x.collect with
        | [d] =>
          match (R.subreporter entry "JavaClassReport".toList).report P o s (d.retype "JavaClassReport") with
          | (w, some e) => (w, .error e)
          | (w, none) => (w, .ok (x.retype "DistClassReport"))
        | _ => ([], .error (.other "unreachable"))

/-- A child after its turn: checked, and squashed if it is a report (javatools/distdiff.py:501-514). -/
def distOne (c : Change DiffOpts) : Logged (Change DiffOpts) :=
  if isDistReported c then
    match distSubReport P s R E l r o c with
    | (w, .error e) => (w, .error e)
    | (w, .ok d) => (w, .ok (d.squash false (some o)))
  else ([], c.check)

/-- javatools/distdiff.py:491-516: the loop of `check_impl` without processes, with what is written. -/
def distLoop : List (Change DiffOpts) → Bool → Logged (List (Change DiffOpts) × Bool)
  | [], c => ([], .ok ([], c))
  | x :: xs, c =>
    match distOne P s R E l r o x with
    | (w, .error e) => (w, .error e)
    | (w, .ok x') =>
      match distLoop xs (c || x'.isChange) with
      | (w', .error e) => (w ++ w', .error e)
      | (w', .ok (xs', c')) => (w ++ w', .ok (x' :: xs', c'))

/-- The operations that the main process and the workers share, on changes with the files written for them. -/
def distWrites : Jobs (Change DiffOpts × List (Target × Page)) where
  isReport x := isDistReported x.1
  check x := x.1.check.map fun c => (c, [])
  run x :=
    match distSubReport P s R E l r o x.1 with
    | (_, .error e) => .error e
    | (w, .ok d) => .ok (d.squash false (some o), w)
  isChange x := x.1.isChange

/-- javatools/distdiff.py:518-523 `DistReport.check` after `check_impl`: the report about both distributions, of
which `a` and `b` are the names. -/
def distReported (a b : Str) (w : List (Target × Page)) (out : List (Change DiffOpts) × Bool) :
    Logged (Change DiffOpts) :=
  match reported P o s R (nameDist a b (distReport out)) with
  | (w', d) => (w ++ w', d)

/-- `DistReport.check` without processes. -/
def distSeqRun (shallow : Bool) (a b : Str) : Logged (Change DiffOpts) :=
  match distChildren E l r shallow with
  | .error e => ([], .error e)
  | .ok cs =>
    match distLoop P s R E l r o cs false with
    | (w, .error e) => (w, .error e)
    | (w, .ok out) => distReported P s R o a b w out

/-- `DistReport.check` with processes: javatools/distdiff.py:406-488. The reporter is set up first. -/
inductive DistMpRun (shallow : Bool) (n : Int) (a b : Str) : Logged (Change DiffOpts) → Prop where
  | setupFails (e : PyErr) : R.setup P.cwd = .error e → DistMpRun shallow n a b ([], .error e)
  | collectFails (R' : Reporter) (e : PyErr) : R.setup P.cwd = .ok R' → distChildren E l r shallow = .error e →
      DistMpRun shallow n a b ([], .error e)
  | fails (R' : Reporter) (cs : List (Change DiffOpts)) (st : MpState (Change DiffOpts × List (Target × Page)))
      (e : PyErr) (w : List (Target × Page)) : R.setup P.cwd = .ok R' → distChildren E l r shallow = .ok cs →
      MpReach (distWrites P s R' E l r o) n (cs.map fun c => (c, [])) st → st.main = .failed e →
      DistMpRun shallow n a b (w, .error e)
  | ends (R' : Reporter) (cs : List (Change DiffOpts)) (st : MpState (Change DiffOpts × List (Target × Page)))
      (c : Bool) (xs : List (Change DiffOpts × List (Target × Page))) : R.setup P.cwd = .ok R' →
      distChildren E l r shallow = .ok cs →
      MpReach (distWrites P s R' E l r o) n (cs.map fun c => (c, [])) st → st.main = .done c →
      st.changes = xs.map some →
      DistMpRun shallow n a b (distReported P s R' o a b (xs.flatMap Prod.snd) (xs.map Prod.fst, c))
end

/-- `cli` with reports: javatools/distdiff.py:558-590. `n` is `options.processes`. The possible runs. -/
inductive DistReportCli (W : DiffWorld) (P : ReportEnv) (ns : DiffNs) (dir : Str) (names : List Str) (n : Int)
    (a b : Str) : ReportRun → Prop where
  | seq : n = 0 → DistReportCli W P ns dir names n a b (finishReport W ns ns.opts (distSeqRun P ns.show
      (Reporter.addFormatsByName { basedir := dir, entry := "DistReport".toList } names) W.E (W.dir a) (W.dir b)
      ns.opts ns.shallow a b))
  | par (out : Logged (Change DiffOpts)) : n ≠ 0 → DistMpRun P ns.show
      (Reporter.addFormatsByName { basedir := dir, entry := "DistReport".toList } names) W.E (W.dir a) (W.dir b)
      ns.opts ns.shallow n a b out → DistReportCli W P ns dir names n a b (finishReport W ns ns.opts out)

/-- javatools/distdiff.py:603-606: `processes`; `cpus` is `cpu_count()`, and `int` the number for a word. -/
def processCount (int : Str → Int) (cpus : Int) (evs : List ArgEvent) : Int :=
  evs.foldl (fun n ev => match ev with
    | .opt o args => if o = spec .int ["--processes"] then ((args.head?).map int).getD n else n
    | .files _ => n) cpus

/-- javatools/distdiff.py:663-669 `main`: the possible runs. -/
inductive DistMain (negNum isInt : Str → Bool) (int : Str → Int) (cpus : Int) (W : DiffWorld) (P : ReportEnv)
    (argv : List Str) : ReportRun → Prop where
  | refused (e : PyErr) : Tool.distdiff.parse negNum isInt argv = .error e →
      DistMain negNum isInt int cpus W P argv ⟨[], .fails e⟩
  | action (evs : List ArgEvent) (e : PyErr) : Tool.distdiff.parse negNum isInt argv = .ok evs →
      diffSteps {} evs = .error e → DistMain negNum isInt int cpus W P argv ⟨[], .fails e⟩
  | plain (evs : List ArgEvent) (ns : DiffNs) (a b : Str) (more : List Str) :
      Tool.distdiff.parse negNum isInt argv = .ok evs → diffSteps {} evs = .ok ns → eventFiles evs = a :: b :: more →
      reportNames evs = [] → DistMain negNum isInt int cpus W P argv ⟨[], diffCli W .distdiff ns a b⟩
  | report (evs : List ArgEvent) (ns : DiffNs) (a b : Str) (more : List Str) (run : ReportRun) :
      Tool.distdiff.parse negNum isInt argv = .ok evs → diffSteps {} evs = .ok ns → eventFiles evs = a :: b :: more →
      reportNames evs ≠ [] →
      DistReportCli W P ns (orHere (reportDir evs)) (reportNames evs) (processCount int cpus evs) a b run →
      DistMain negNum isInt int cpus W P argv run

end Javatools
