import Verif.Model.Page
import Verif.Model.JarDiff
/-
The page of the HTML report on two JARs, from the archives on: the changes of a `JarReport` that has
been checked (Model/JarDiff), put into the templates (Model/Page).
-/
namespace Javatools

mutual
/-- What the templates ask of a change below a `JarReport`. A squashed change stands for a
`JarClassReport` (javatools/jardiff.py:442-453, 470-472). -/
def treeOf (o : DiffOpts) : Change DiffOpts → Tree
  | .leaf h cmp changed desc =>
    let c := Change.leaf h cmp changed desc
    .node h.typeName ⟨c.isChange, c.isIgnored o⟩ h.label (h.entry.getD []) []
  | .super h short changed desc children =>
    let c := Change.super h short changed desc children
    .node h.typeName ⟨c.isChange, c.isIgnored o⟩ h.label (h.entry.getD []) (treesOf o children)
  | .squashed h oc changed desc ignored =>
    let c : Change DiffOpts := Change.squashed h oc changed desc ignored
    .squashed "JarClassReport" ⟨c.isChange, c.isIgnored o⟩ (h.entry.getD []) "JavaClassReport".toList
def treesOf (o : DiffOpts) : List (Change DiffOpts) → List Tree
  | [] => []
  | c :: cs => treeOf o c :: treesOf o cs
end

/-- javatools/jardiff.py:506-511 `JarReport.check` with the HTML format (javatools/report.py:475-528):
the page. -/
def jarReportPage (E : JarEnv) (l r : Archive) (o : DiffOpts) (f : PageFrame) : Res (List Frag) :=
  match jarReportCheck E l r o with
  | .error e => .error e
  | .ok c =>
    match c.collect with
    | [t, contents] => .ok (jarPage f ⟨t.isChange, t.isIgnored o⟩ (treesOf o contents.collect))
    | _ => .error (.other "unreachable")

end Javatools
