import Verif.Model.JarPage
import Verif.Model.DistDiff
/-
The page of the HTML report on two distributions, from the directories on: the children of a
`DistReport` that has been checked without worker processes (Model/DistDiff), put into the templates
(Model/Page).
-/
namespace Javatools

/-- What the templates ask of a change of a `DistReport`. A squashed change stands for a `DistJarReport`
or a `DistClassReport` (javatools/distdiff.py:210-222, 248-263); a class's is called `DistClassChange` in
Model/DistDiff. -/
def distTreeOf (o : DiffOpts) : Change DiffOpts → Tree
  | .squashed h oc changed desc ignored =>
    let c : Change DiffOpts := Change.squashed h oc changed desc ignored
    if oc = "DistJarReport" then
      .squashed "DistJarReport" ⟨c.isChange, c.isIgnored o⟩ (h.entry.getD []) "JarReport".toList
    else
      .squashed "DistClassReport" ⟨c.isChange, c.isIgnored o⟩ (h.entry.getD []) "JavaClassReport".toList
  | c => treeOf o c

/-- javatools/distdiff.py:491-524 `DistReport.check_impl` and `check` with the HTML format
(javatools/report.py:475-528): the page. -/
def distReportPage (E : DistEnv) (l r : Forest) (shallow : Bool) (o : DiffOpts) (f : PageFrame) :
    Res (List Frag) :=
  match distChildren E l r shallow with
  | .error e => .error e
  | .ok cs =>
    match seqCheck (distJobs E l r o) cs with
    | .error e => .error e
    | .ok (cs', _) => .ok (distPage f (cs'.map (distTreeOf o)))

end Javatools
