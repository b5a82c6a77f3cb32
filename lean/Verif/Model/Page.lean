import Verif.Model.Markup
import Verif.Model.Template
/-
Model of the pages that the HTML reports on archives and distributions make: the frame of every
page (javatools/cheetah/report.tmpl), the changes of an archive or a distribution below it, and the
templates change_Addition, change_Removal, change_SuperChange, manifest_ManifestChange,
jardiff_JarClassChange and distdiff_DistClassChange, which extend others.

Simplifications: as in Model/Markup, white space between tags is left out. The changes are those
below an archive or a distribution, so of javatools/change.py, javatools/manifest.py,
javatools/jardiff.py and javatools/distdiff.py; the pages of classes are in Model/Markup.
-/
namespace Javatools

/-! ### The frame -/

/-- javatools/report.py:427-432 `_relative_uris` -/
def relativeUris (exists_ : Str → Bool) (cwd basedir : Str) (uris : List Str) : Res (List Str) :=
  match uris.mapM (relativeUri exists_ cwd basedir) with
  | .error e => .error e
  | .ok us => .ok (us.filter fun u => !u.isEmpty)

/-- What a page is told besides the changes. -/
structure PageFrame where
  title : Frag
  noJquery : Bool
  stylesheets : List Str
  javascripts : List Str
  crumbs : List (Str × Str)

/-- javatools/cheetah/report.tmpl:1-5 -/
def prologue : List Frag := [
  tg "?xml version=\"1.0\" encoding=\"UTF-8\"?",
  tg "!DOCTYPE html \n     PUBLIC \"-//W3C//DTD XHTML 1.0 Strict//EN\"\n    \"http://www.w3.org/TR/xhtml1/DTD/xhtml1-strict.dtd\"",
  tg "html xmlns=\"http://www.w3.org/1999/xhtml\" xml:lang=\"en\" lang=\"en\""]

/-- javatools/cheetah/report.tmpl:26-30 -/
def styleLink (s : Str) : Str := "link rel=\"stylesheet\" type=\"text/css\" href=\"".toList ++ s ++ "\" /".toList

/-- javatools/cheetah/report.tmpl:37-39 -/
def scriptTag (s : Str) : Str := "script type=\"text/javascript\" src=\"".toList ++ s ++ "\"".toList

/-- javatools/cheetah/report.tmpl:35 -/
def jqueryTag : Str :=
  "script type=\"text/javascript\" src=\"http://ajax.googleapis.com/ajax/libs/jquery/1.7.1/jquery.min.js\" type=\"text/javascript\"".toList

/-- javatools/cheetah/report.tmpl:14-47 -/
def headFrags (f : PageFrame) : List Frag :=
  [tg "head", tg "title", f.title, tg "/title"] ++
    f.stylesheets.map (fun s => .tag (styleLink s)) ++
    (if f.noJquery then [] else [.tag jqueryTag, tg "/script"]) ++
    f.javascripts.flatMap (fun s => [.tag (scriptTag s), tg "/script"]) ++ [tg "/head"]

/-- javatools/cheetah/report.tmpl:62 -/
def crumbTag (c : Str × Str) : Str := "a href=\"".toList ++ crumbHref c ++ "\"".toList

/-- javatools/cheetah/report.tmpl:50-72 -/
def headingFrags (f : PageFrame) : List Frag :=
  [tg "div id=\"report-heading\"", tg "ul class=\"breadcrumbs\""] ++
    f.crumbs.flatMap (fun c => [tg "li", .tag (crumbTag c), .raw c.2, tg "/a", tg "/li"]) ++
    [tg "li", f.title, tg "/li", tg "/ul", tg "h1", f.title, tg "/h1", tg "/div"]

/-- javatools/cheetah/report.tmpl:1-99; `details` is the block of this name. -/
def pageFrags (f : PageFrame) (details : List Frag) : List Frag :=
  prologue ++ headFrags f ++ [tg "body"] ++ headingFrags f ++
    [tg "div id=\"report-intro\"", tg "/div"] ++ details ++
    [tg "div id=\"report-outro\"", tg "/div", tg "/body", tg "/html"]

/-! ### The changes -/

/-- The template of a change (C130). -/
def templateOf (type : String) : Option Str :=
  match mro changeClasses type with
  | none => none
  | some order =>
    match (resolveTemplate packageModule packageTemplates [] order).1 with
    | .ok t => some t
    | .error _ => none

/-- What a page shows of a change that is not part of the report on a class: its type, `is_change`
and `is_ignored`, its label or entry, its children; or a squashed change: the class that it was, its
entry and the `report_name`. -/
inductive Tree where
  | node (type : String) (v : Verdict) (label entry : Str) (kids : List Tree)
  | squashed (origclass : String) (v : Verdict) (entry reportName : Str)

/-- The block `description`: javatools/cheetah/change_Change.tmpl:24-28,
manifest_ManifestChange.tmpl:4-6, jardiff_JarContentChange.tmpl:5-7,
distdiff_DistContentChange.tmpl:3-6; jardiff_JarClassChange.tmpl:1 and distdiff_DistClassChange.tmpl:1
extend the last two, change_Addition.tmpl:1, change_Removal.tmpl:1 and change_SuperChange.tmpl:1 the
first. -/
def descriptionFrags (template label entry : Str) : List Frag :=
  if template = "manifest_ManifestChange".toList then
    [tg "div class=\"description\"", txt "The manifest has changed between Jars", tg "/div"]
  else if template = "jardiff_JarContentChange".toList ∨ template = "jardiff_JarClassChange".toList ∨
      template = "distdiff_DistContentChange".toList ∨ template = "distdiff_DistClassChange".toList then
    [.esc entry]
  else [tg "div class=\"description\"", .esc label, tg "/div"]

mutual
/-- javatools/cheetah/change_Change.tmpl:22-45, change_SquashedChange.tmpl:6-35 -/
def treeFrags : Tree → List Frag
  | .node type v label entry kids =>
    changeDiv type v (descriptionFrags ((templateOf type).getD []) label entry ++
      (if kids.isEmpty then [] else collectDiv (treesFrags kids)))
  | .squashed origclass v entry reportName =>
    squashedFrags (divClasses ("SquashedChange " ++ origclass) v) entry reportName

/-- javatools/cheetah/change_Change.tmpl:38-40: the children. -/
def treesFrags : List Tree → List Frag
  | [] => []
  | t :: ts => treeFrags t ++ treesFrags ts
end

/-- The class of a change. -/
def Tree.type : Tree → String
  | .node type .. => type
  | .squashed .. => "SquashedChange"

/-- The class under whose heading a squashed change goes. -/
def Tree.child : Tree → Child
  | .node type _ _ entry _ => ⟨type, "", entry⟩
  | .squashed origclass _ entry _ => ⟨"SquashedChange", origclass, entry⟩

/-- The labels of the headings, javatools/jardiff.py:85-287, javatools/distdiff.py:77-273; the
classes named `...Report` inherit theirs. Other classes have no heading (`Change` stands for it). -/
def headingLabel (type : String) : String :=
  match [("JarContentChange", "Jar Content"), ("JarContentAdded", "Jar Content Added"),
      ("JarContentRemoved", "Jar Content Removed"), ("JarClassAdded", "Java Class Added"),
      ("JarClassRemoved", "Java Class Removed"), ("JarClassChange", "Java Class"),
      ("JarClassReport", "Java Class"),
      ("JarManifestChange", "Jar Manifest"), ("JarSignatureFileChange", "Jar Signature File"),
      ("JarSignatureFileAdded", "Jar Signature File Added"),
      ("JarSignatureFileRemoved", "Jar Signature File Removed"),
      ("JarSignatureBlockFileChange", "Jar Signature Block File"),
      ("JarSignatureBlockFileAdded", "Jar Signature Block File Added"),
      ("JarSignatureBlockFileRemoved", "Jar Signature Block File Removed"),
      ("JarGenericFileChange", "Jar Generic File"),
      ("DistContentChange", "Distributed Content"),
      ("DistContentAdded", "Distributed Content Added"),
      ("DistContentRemoved", "Distributed Content Removed"), ("DistTextChange", "Distributed Text"),
      ("DistManifestChange", "Distributed Manifest"), ("DistJarChange", "Distributed JAR"),
      ("DistJarReport", "Distributed JAR"), ("DistClassReport", "Distributed Java Class"),
      ("DistJarAdded", "Distributed JAR Added"), ("DistJarRemoved", "Distributed JAR Removed"),
      ("DistClassChange", "Distributed Java Class"),
      ("DistClassAdded", "Distributed Java Class Added"),
      ("DistClassRemoved", "Distributed Java Class Removed")].find? fun p => p.1 = type with
  | some p => p.2
  | none => "Change"

/-- javatools/cheetah/jardiff_JarContentsReport.tmpl:2-18, distdiff_DistReport.tmpl:5-21
`render_by_class` -/
def groupFrags (g : String × List Tree) : List Frag :=
  [tg "div class=\"change-category\"", tg "h2", txt (headingLabel g.1), tg "/h2"] ++
    treesFrags g.2 ++ [tg "/div"]

/-- javatools/cheetah/jardiff_JarContentsReport.tmpl:22-74 -/
def jarContentsFrags (children : List Tree) : List Frag :=
  [tg "!-- begin jardiff_JarContentsReport.details --", tg "div class=\"details\""] ++
    (reportGroups Tree.type (fun t => jarOrig t.child) (fun t => t.child.entry) "SquashedChange" jarOrder
      children).flatMap groupFrags ++
    [tg "/div", tg "!-- end jardiff_JarContentsReport.details --"]

/-- javatools/cheetah/report.tmpl:80-86 for a `JarReport` (jardiff_JarReport.tmpl:1), which has the
children `JarTypeChange` and `JarContentsReport`. -/
def jarPage (f : PageFrame) (typeChange : Verdict) (children : List Tree) : List Frag :=
  pageFrags { f with title := txt "JarReport" }
    ([tg "div id=\"report-details\""] ++
      treeFrags (.node "JarTypeChange" typeChange "Jar type".toList [] []) ++
      jarContentsFrags children ++ [tg "/div"])

/-- javatools/cheetah/distdiff_DistReport.tmpl:24-74 in the frame of javatools/cheetah/report.tmpl:1-99 -/
def distPage (f : PageFrame) (children : List Tree) : List Frag :=
  pageFrags { f with title := txt "DistReport" }
    ((reportGroups Tree.type (fun t => distOrig t.child) (fun t => t.child.entry) "SquashedChange" distOrder
      children).flatMap groupFrags)

end Javatools
