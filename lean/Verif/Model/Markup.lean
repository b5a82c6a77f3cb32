import Verif.Model.Html
/-
Model of the markup of the HTML report on a class: the Cheetah templates
javatools/cheetah/classdiff_*.tmpl, change_Change.tmpl, change_SquashedChange.tmpl, subreport.tmpl
and the part of report.tmpl that shows the changes.

Simplifications: a page is the sequence of tags and texts that the templates put out; white space
between them, comments, the head of the page and its breadcrumbs are left out. The data of a page
are the strings that the change objects give (for those see Model/ClassDiff and Model/Member) and
the answers of `is_change` and `is_ignored`; `(", ".join(...))` with its parentheses, `... or
"(None)"` and `"0x%04x: ..." % ...` are one string here.
-/
namespace Javatools

/-- A piece of a page: a tag (what stands between `<` and `>`), a text that goes through `escape`,
a text put out as it is. -/
inductive Frag where
  | tag (s : Str)
  | esc (s : Str)
  | raw (s : Str)
  deriving DecidableEq, Repr

/-- The page. -/
def renderFrags : List Frag → Str
  | [] => []
  | .tag s :: fs => '<' :: s ++ '>' :: renderFrags fs
  | .esc s :: fs => xmlEscape s ++ renderFrags fs
  | .raw s :: fs => s ++ renderFrags fs

/-- A tag given in a template. -/
def tg (s : String) : Frag := .tag s.toList

/-- A text given in a template. -/
def txt (s : String) : Frag := .raw s.toList

/-! ### Tables with headers on the left -/

/-- What a template is told of one property: `is_change()`, whether it shows it at all when it is
unchanged, and both texts. -/
structure Sub where
  changed : Bool
  shows : Bool
  left : Str
  right : Str
  deriving DecidableEq, Repr

/-- How a template shows a property: its label, whether it escapes the texts, whether the modified
cell is marked, whether the cell is closed when there is no change. -/
structure RowSpec where
  label : String
  escapes : Bool
  marks : Bool
  closes : Bool
  deriving DecidableEq, Repr

/-- The text of a cell. -/
def RowSpec.text (spec : RowSpec) (s : Str) : Frag := if spec.escapes then .esc s else .raw s

/-- javatools/cheetah/classdiff_ClassInfoChange.tmpl:37-200, classdiff_FieldChange.tmpl:55-177,
classdiff_MethodChange.tmpl:60-221, `sub_*`; classdiff_MethodAdded.tmpl:59-64,
classdiff_MethodRemoved.tmpl:59-64 `row`: one property. -/
def subRow (spec : RowSpec) (s : Sub) : List Frag :=
  if s.changed then
    [tg "tr", tg "th rowspan=\"2\"", txt spec.label, tg "/th",
      tg "td", spec.text s.left, tg "/td", tg "/tr",
      tg "tr", tg (if spec.marks then "td class=\"is_changed\"" else "td"), spec.text s.right,
      tg "/td", tg "/tr"]
  else if s.shows then
    [tg "tr", tg "th", txt spec.label, tg "/th", tg "td", spec.text s.left] ++
      (if spec.closes then [tg "/td"] else []) ++ [tg "/tr"]
  else []

/-- The rows of a table. -/
def subRows : List RowSpec → List Sub → List Frag
  | spec :: specs, s :: ss => subRow spec s ++ subRows specs ss
  | _, _ => []

/-- javatools/cheetah/classdiff_ClassInfoChange.tmpl:12-27, classdiff_FieldChange.tmpl:24-37,
classdiff_MethodChange.tmpl:26-41, classdiff_MethodRemoved.tmpl:21-55 -/
def leftTable (specs : List RowSpec) (subs : List Sub) : List Frag :=
  [tg "div class=\"details\"", tg "div class=\"lrdata\"", tg "table class=\"left-headers\""] ++
    subRows specs subs ++ [tg "/table", tg "/div", tg "/div"]

/-- javatools/cheetah/classdiff_ClassInfoChange.tmpl:15-24, 37-200 -/
def classRows : List RowSpec := [
  ⟨"Class Name", false, false, true⟩, ⟨"Class Flags", false, true, true⟩,
  ⟨"Extends", false, true, true⟩, ⟨"Implements", false, true, true⟩,
  ⟨"Java Version", false, true, true⟩, ⟨"Java Platform", false, true, true⟩,
  ⟨"Generics Signature", true, true, true⟩, ⟨"Deprecated", false, true, true⟩]

/-- javatools/cheetah/classdiff_FieldChange.tmpl:27-34, 55-177 -/
def fieldRows : List RowSpec := [
  ⟨"Field Name", true, false, false⟩, ⟨"Field Type", false, false, false⟩,
  ⟨"Field Flags", false, true, true⟩, ⟨"Generics Signature", true, true, true⟩,
  ⟨"Const Value", true, true, true⟩, ⟨"Deprecated", false, true, true⟩]

/-- javatools/cheetah/classdiff_MethodChange.tmpl:29-38, 60-221 -/
def methodRows : List RowSpec := [
  ⟨"Method Name", true, false, false⟩, ⟨"Return Type", false, false, false⟩,
  ⟨"Argument Types", false, false, true⟩, ⟨"Method Flags", false, true, true⟩,
  ⟨"Generics Signature", true, true, true⟩, ⟨"Exceptions", false, true, true⟩,
  ⟨"Abstract", false, true, true⟩, ⟨"Deprecated", false, true, true⟩]

/-- javatools/cheetah/classdiff_MethodAdded.tmpl:30-64, classdiff_MethodRemoved.tmpl:30-64 -/
def lonelyRows : List RowSpec := [
  ⟨"Method Name", true, false, true⟩, ⟨"Return Type", true, false, true⟩,
  ⟨"Argument Types", true, false, true⟩, ⟨"Method Flags", true, false, true⟩,
  ⟨"Generics Signature", true, false, true⟩, ⟨"Exceptions", true, false, true⟩,
  ⟨"Abstract", true, false, true⟩, ⟨"Deprecated", true, false, true⟩]

/-! ### The frame of a change -/

/-- `is_change()` and `is_ignored(options)` -/
structure Verdict where
  changed : Bool
  ignored : Bool
  deriving DecidableEq, Repr

/-- javatools/cheetah/change_Change.tmpl:8-18: the classes, for a change of the class `type`. -/
def divClasses (type : String) (v : Verdict) : String :=
  "Change " ++ type ++ (if v.changed then (if v.ignored then " is_changed is_ignored" else " is_changed")
    else " is_unchanged")

/-- javatools/cheetah/change_Change.tmpl:22-45 -/
def changeDiv (type : String) (v : Verdict) (body : List Frag) : List Frag :=
  tg ("div class=\"" ++ divClasses type v ++ "\"") :: body ++ [tg "/div"]

/-- javatools/cheetah/subreport.tmpl:4-10: heading and description. -/
def subHeading (type label : String) (desc : Str) : List Frag :=
  [tg ("h2 id=\"" ++ type ++ "\""), txt label, tg "/h2",
    tg "div class=\"description\"", .esc desc, tg "/div"]

/-- javatools/cheetah/change_Change.tmpl:24-28: the description of a change without a template. -/
def plainDescription (label : String) : List Frag :=
  [tg "div class=\"description\"", .esc label.toList, tg "/div"]

/-- javatools/cheetah/change_Change.tmpl:35-43 -/
def collectDiv (kids : List Frag) : List Frag :=
  tg "div class=\"collect\"" :: kids ++ [tg "/div"]

/-! ### Annotations -/

/-- An annotations change: the rows of its table. -/
structure AnnoView where
  verdict : Verdict
  rows : List AnnoRow
  deriving DecidableEq, Repr

/-- javatools/cheetah/classdiff_AnnotationsChange.tmpl:24-39 -/
def annoSingle (rows : List AnnoRow) : List Frag :=
  [tg "table class=\"annotations\"", tg "thead", tg "tr", tg "th", txt "Index", tg "/th",
    tg "th", txt "Annotation", tg "/th", tg "/tr", tg "/thead"] ++
  rows.flatMap (fun r => [tg "tr",
    tg "td class=\"const-index\"", .raw (natText r.index), tg "/td",
    tg "td class=\"const-value\"", .raw r.left, tg "/td", tg "/tr"]) ++ [tg "/table"]

/-- javatools/cheetah/classdiff_AnnotationsChange.tmpl:42-72 -/
def annoDual (rows : List AnnoRow) : List Frag :=
  [tg "table class=\"annotations\"", tg "thead", tg "tr", tg "th rowspan=\"2\"", txt "Index", tg "/th",
    tg "th colspan=\"2\"", txt "Annotation", tg "/th", tg "/tr",
    tg "tr", tg "th", txt "Original", tg "/th", tg "th", txt "Changed", tg "/th", tg "/tr",
    tg "/thead"] ++
  rows.flatMap (fun r => [tg "tr",
    tg "td class=\"const-index\"", .raw (natText r.index), tg "/td",
    tg "td class=\"const-value\"", .raw r.left, tg "/td",
    tg (if r.changed then "td class=\"const-value is_changed\""
      else "td class=\"const-value is_unchanged\""), .raw r.right, tg "/td", tg "/tr"]) ++
  [tg "/table"]

/-- javatools/cheetah/classdiff_AnnotationsChange.tmpl:6-21; the labels are at
javatools/classdiff.py:227-234, 640-647, 746-753. -/
def annoFrags (type label : String) (a : AnnoView) : List Frag :=
  changeDiv type a.verdict
    ([tg "div class=\"description\"", txt label, tg "/div",
      tg "div class=\"details\"", tg "div class=\"lrdata\""] ++
      (if a.verdict.changed then annoDual a.rows else annoSingle a.rows) ++ [tg "/div", tg "/div"])

/-! ### Constants -/

/-- A row of the constant pool; `right` is none where the constants are the same. The types are
those of `_pretty_const_type_val`, the values as they go into `escape`. -/
structure PoolRow where
  index : Nat
  left : Str × Str
  right : Option (Str × Str)
  deriving DecidableEq, Repr

/-- javatools/cheetah/classdiff_ClassConstantPoolChange.tmpl:21-40 -/
def poolSingle (rows : List PoolRow) : List Frag :=
  [tg "table class=\"constant-pool\"", tg "thead", tg "tr", tg "th", txt "Index", tg "/th",
    tg "th", txt "Type", tg "/th", tg "th", txt "Value", tg "/th", tg "/tr", tg "/thead"] ++
  rows.flatMap (fun r => [tg "tr",
    tg "td class=\"const-index\"", .raw (natText r.index), tg "/td",
    tg "td class=\"const-type\"", .raw r.left.1, tg "/td",
    tg "td class=\"const-value\"", .esc r.left.2, tg "/td", tg "/tr"]) ++ [tg "/table"]

/-- javatools/cheetah/classdiff_ClassConstantPoolChange.tmpl:60-71: one row; the `</tr>` is only in
one of the branches. -/
def poolDualRow (r : PoolRow) : List Frag :=
  [tg "tr", tg "td class=\"const-index\"", .raw (natText r.index), tg "/td",
    tg "td class=\"const-type\"", .raw r.left.1, tg "/td",
    tg "td class=\"const-value\"", .esc r.left.2, tg "/td"] ++
  match r.right with
  | none => [tg "td class=\"const-type empty\"", tg "/td", tg "td class=\"const-value empty\"", tg "/td"]
  | some p => [tg "td class=\"const-type is_changed\"", .raw p.1, tg "/td",
      tg "td class=\"const-value is_changed\"", .esc p.2, tg "/td", tg "/tr"]

/-- javatools/cheetah/classdiff_ClassConstantPoolChange.tmpl:44-75 -/
def poolDual (rows : List PoolRow) : List Frag :=
  [tg "table class=\"dual-constant-pool\"", tg "thead", tg "tr", tg "th", txt "Index", tg "/th",
    tg "th", txt "Original Type", tg "/th", tg "th", txt "Original Value", tg "/th",
    tg "th", txt "Modified Type", tg "/th", tg "th", txt "Modified Value", tg "/th", tg "/tr",
    tg "/thead"] ++ rows.flatMap poolDualRow ++ [tg "/table"]

/-- A constant pool change. -/
structure PoolView where
  verdict : Verdict
  desc : Str
  rows : List PoolRow
  deriving DecidableEq, Repr

/-- javatools/cheetah/classdiff_ClassConstantPoolChange.tmpl:7-17 -/
def poolFrags (p : PoolView) : List Frag :=
  changeDiv "ClassConstantPoolChange" p.verdict
    (subHeading "ClassConstantPoolChange" "Constant pool" p.desc ++
      [tg "div class=\"details\"", tg "div class=\"lrdata\""] ++
      (if p.verdict.changed then poolDual p.rows else poolSingle p.rows) ++ [tg "/div", tg "/div"])

/-! ### Code -/

/-- The tag of a cell of the table of code. The templates also write a `rowspan` of 1, which is left
out here.
javatools/cheetah/classdiff_MethodCodeChange.tmpl:57-96, 138-143 -/
def cellTag (c : Cell) : Str :=
  "td".toList ++ (if c.cols = 1 then [] else " colspan=\"".toList ++ natText c.cols ++ ['"']) ++
    (if c.rows = 1 then [] else " rowspan=\"".toList ++ natText c.rows ++ ['"'])

/-- The rows of the table of code. -/
def codeFragRows (rows : List (List Cell)) : List Frag :=
  rows.flatMap fun r => tg "tr" :: r.flatMap (fun c => [.tag (cellTag c), .raw c.text, tg "/td"]) ++
    [tg "/tr"]

/-- javatools/cheetah/classdiff_MethodCodeChange.tmpl:9-27 -/
def codeHeadDual : List Frag := [
  tg "thead", tg "tr", tg "th", txt "Relative", tg "/th", tg "th colspan=\"4\"", txt "Original", tg "/th",
  tg "th colspan=\"4\"", txt "Modified", tg "/th", tg "/tr", tg "tr",
  tg "th", txt "line", tg "/th", tg "th", txt "line", tg "/th", tg "th", txt "offset", tg "/th",
  tg "th", txt "opcode", tg "/th", tg "th", txt "args", tg "/th", tg "th", txt "line", tg "/th",
  tg "th", txt "offset", tg "/th", tg "th", txt "opcode", tg "/th", tg "th", txt "args", tg "/th",
  tg "/tr", tg "/thead"]

/-- javatools/cheetah/classdiff_MethodCodeChange.tmpl:116-129 -/
def codeHeadSingle : List Frag := [
  tg "thead", tg "tr", tg "th", txt "Relative", tg "/th", tg "th colspan=\"4\"", txt "Method Code",
  tg "/th", tg "/tr", tg "tr",
  tg "th", txt "line", tg "/th", tg "th", txt "line", tg "/th", tg "th", txt "offset", tg "/th",
  tg "th", txt "opcode", tg "/th", tg "th", txt "args", tg "/th", tg "/tr", tg "/thead"]

/-- A code change: the table (see `codeDetails`), if there is one. -/
structure CodeView where
  verdict : Verdict
  dual : Bool
  table : Option (List (List Cell))
  deriving DecidableEq, Repr

/-- javatools/cheetah/classdiff_MethodCodeChange.tmpl:8-178 -/
def codeFrags (c : CodeView) : List Frag :=
  changeDiv "MethodCodeChange" c.verdict
    (plainDescription "Method Code" ++ [tg "div class=\"details\"", tg "div class=\"lrdata\""] ++
      (match c.table with
      | none => []
      | some rows => tg "table" :: (if c.dual then codeHeadDual else codeHeadSingle) ++
          codeFragRows rows ++ [tg "/table"]) ++
      [tg "/div", tg "/div"])

/-! ### Members -/

/-- A change of a field or method. -/
inductive MemberView where
  | field (v : Verdict) (name : Str) (subs : List Sub) (annos invisible : AnnoView)
  | method (v : Verdict) (head : Str) (subs : List Sub) (annos invisible : AnnoView) (code : CodeView)
  | methodAdded (v : Verdict) (head : Str) (subs : List Sub)
  | methodRemoved (v : Verdict) (head : Str) (subs : List Sub)
  | fieldAdded (v : Verdict)
  | fieldRemoved (v : Verdict)
  deriving DecidableEq, Repr

/-- javatools/cheetah/classdiff_FieldChange.tmpl:7-51, classdiff_MethodChange.tmpl:7-56,
classdiff_MethodAdded.tmpl:6-26, classdiff_MethodRemoved.tmpl:6-26. In MethodAdded the `</div` is
not closed, so that the tag goes on to the `>` of the `<div class="details">` after it. -/
def memberFrags : MemberView → List Frag
  | .field v name subs a b => changeDiv "FieldChange" v
      ([tg "h3", .esc name, tg "/h3"] ++ leftTable fieldRows subs ++
        collectDiv (annoFrags "FieldAnnotationsChange" "Field runtime annotations" a ++
          annoFrags "FieldInvisibleAnnotationsChange" "Field runtime invisible annotations" b))
  | .method v head subs a b c => changeDiv "MethodChange" v
      ([tg "h3", .esc head, tg "/h3"] ++ leftTable methodRows subs ++
        collectDiv (annoFrags "MethodAnnotationsChange" "Method runtime annotations" a ++
          annoFrags "MethodInvisibleAnnotationsChange" "Method runtime invisible annotations" b ++
          codeFrags c))
  | .methodAdded v head subs => changeDiv "MethodAdded" v
      ([tg "h3", .esc head, tg "/h3", tg "div class=\"description\"", txt "Method Added",
        tg "/div\n<div class=\"details\"", tg "div class=\"lrdata\"", tg "table class=\"left-headers\""] ++
        subRows lonelyRows subs ++ [tg "/table", tg "/div", tg "/div"])
  | .methodRemoved v head subs => changeDiv "MethodRemoved" v
      ([tg "h3", .esc head, tg "/h3", tg "div class=\"description\"", txt "Method Removed", tg "/div"] ++
        leftTable lonelyRows subs)
  | .fieldAdded v => changeDiv "FieldAdded" v (plainDescription "Field added")
  | .fieldRemoved v => changeDiv "FieldRemoved" v (plainDescription "Field removed")

/-- The fields or methods of a class. -/
structure MembersView where
  verdict : Verdict
  desc : Str
  kids : List MemberView
  deriving DecidableEq, Repr

/-- javatools/cheetah/subreport.tmpl, change_Change.tmpl:22-45 -/
def membersFrags (type label : String) (m : MembersView) : List Frag :=
  changeDiv type m.verdict (subHeading type label m.desc ++
    (if m.kids.isEmpty then [] else collectDiv (m.kids.flatMap memberFrags)))

/-! ### The report on a class -/

/-- The data of a report on a class, javatools/classdiff.py:852-884. -/
structure ClassPage where
  title : Str
  infoVerdict : Verdict
  infoDesc : Str
  info : List Sub
  annos : AnnoView
  invisible : AnnoView
  pool : PoolView
  fields : MembersView
  methods : MembersView
  deriving DecidableEq, Repr

/-- javatools/cheetah/classdiff_ClassInfoChange.tmpl:7-34 -/
def infoFrags (v : Verdict) (desc : Str) (subs : List Sub) : List Frag :=
  changeDiv "ClassInfoChange" v
    (subHeading "ClassInfoChange" "Class information" desc ++ leftTable classRows subs)

/-- javatools/cheetah/report.tmpl:69, 80-86 for a `JavaClassReport`
(classdiff_JavaClassReport.tmpl:6-12): the title and the changes. -/
def classFrags (p : ClassPage) : List Frag :=
  [tg "h1", .esc p.title, tg "/h1", tg "div id=\"report-details\""] ++
    infoFrags p.infoVerdict p.infoDesc p.info ++
    annoFrags "ClassAnnotationsChange" "Class runtime annotations" p.annos ++
    annoFrags "ClassInvisibleAnnotationsChange" "Class runtime invisible annotations" p.invisible ++
    poolFrags p.pool ++
    membersFrags "ClassFieldsChange" "Fields" p.fields ++
    membersFrags "ClassMethodsChange" "Methods" p.methods ++ [tg "/div"]

/-! ### Entries of archives and distributions -/

/-- javatools/cheetah/change_SquashedChange.tmpl:6-35: the link to a sub-report; `classes` are the
classes of the `div`. -/
def squashedFrags (classes : String) (entry reportName : Str) : List Frag :=
  [tg ("div class=\"" ++ classes ++ "\""), .esc entry, tg "span class=\"moreinfo\"", txt "[",
    .tag ("a href=\"".toList ++ detailsHref entry reportName ++ ['"']), txt "details", tg "/a", txt "]",
    tg "/span", tg "/div"]

/-- javatools/cheetah/jardiff_JarContentChange.tmpl:5-7, distdiff_DistContentChange.tmpl:3-6 -/
def contentFrags (type : String) (v : Verdict) (entry : Str) : List Frag :=
  changeDiv type v [.esc entry]

end Javatools
