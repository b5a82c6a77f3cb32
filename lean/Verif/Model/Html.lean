import Verif.Model.Change
import Verif.Model.Lines
import Verif.Model.Dir
import Verif.Model.Report
import Verif.Model.ClassInfoCli
/-
Model of what the Cheetah templates of the HTML reports lay out: the headings of a JAR or
distribution report with the changes under them (javatools/cheetah/jardiff_JarContentsReport.tmpl,
distdiff_DistReport.tmpl), the table of a method's code (classdiff_MethodCodeChange.tmpl), of
annotations (classdiff_AnnotationsChange.tmpl) and of constants
(classdiff_ClassConstantPoolChange.tmpl).

Simplifications: the result is the sequence of headings and changes, or the rows and cells of the
table, instead of the text of the page; `$render_change` of a child is that child; types are named
by a parameter; the strings of a cell are the strings put into it.
-/
namespace Javatools

/-! ### Changes under headings -/

section
variable {α τ : Type} [DecidableEq τ]

/-- javatools/cheetah/jardiff_JarContentsReport.tmpl:50-55, distdiff_DistReport.tmpl:50-57:
squashed changes go to the bucket of what they were; `orig` is the class with reports replaced. -/
def gatherSquashed (orig : α → τ) : PyDict τ (List α) → List α → PyDict τ (List α)
  | m, [] => m
  | m, s :: ss => gatherSquashed orig (m.set (orig s) ((m.get? (orig s)).getD [] ++ [s])) ss

/-- javatools/cheetah/jardiff_JarContentsReport.tmpl:9, distdiff_DistReport.tmpl:12:
`dict((ch.entry, ch) for ch in changes)` -/
def byEntry (entry : α → Str) : PyDict Str α → List α → PyDict Str α
  | m, [] => m
  | m, c :: cs => byEntry entry (m.set (entry c) c) cs

/-- javatools/cheetah/jardiff_JarContentsReport.tmpl:2-18, distdiff_DistReport.tmpl:5-21
`render_by_class`: the changes shown under the heading; none without changes. -/
def renderByClass (entry : α → Str) (t : τ) (changes : List α) : List (τ × List α) :=
  if changes = [] then []
  else
    let chm := byEntry entry [] changes
    [(t, (sortNames chm.keys).filterMap chm.get?)]

/-- javatools/cheetah/jardiff_JarContentsReport.tmpl:59-61, distdiff_DistReport.tmpl:61-63: the
listed types. -/
def renderListed (entry : α → Str) : PyDict τ (List α) → List τ →
    List (τ × List α) × PyDict τ (List α)
  | m, [] => ([], m)
  | m, t :: ts =>
    let (out, m') := renderListed entry (m.del t) ts
    (renderByClass entry t ((m.get? t).getD []) ++ out, m')

/-- javatools/cheetah/jardiff_JarContentsReport.tmpl:22-70, distdiff_DistReport.tmpl:25-70: the
headings of the report and the changes under each; `sq` is `SquashedChange`. -/
def reportGroups (type : α → τ) (orig : α → τ) (entry : α → Str) (sq : τ) (order : List τ)
    (children : List α) : List (τ × List α) :=
  let m := collectByType type [] children
  let m := gatherSquashed orig (m.del sq) ((m.get? sq).getD [])
  let (out, m) := renderListed entry m order
  out ++ m.flatMap fun p => renderByClass entry p.1 p.2
end

/-- A child of a JAR or distribution report: its class, `origclass` when it is squashed, `entry`. -/
structure Child where
  type : String
  origclass : String
  entry : Str
  deriving DecidableEq, Repr

/-- javatools/cheetah/jardiff_JarContentsReport.tmpl:51-53 -/
def jarOrig (c : Child) : String :=
  if c.origclass = "JarClassReport" then "JarClassChange" else c.origclass

/-- javatools/cheetah/jardiff_JarContentsReport.tmpl:33-47 -/
def jarOrder : List String := [
  "JarManifestChange",
  "JarSignatureFileAdded", "JarSignatureFileRemoved", "JarSignatureFileChange",
  "JarSignatureBlockFileAdded", "JarSignatureBlockFileRemoved", "JarSignatureBlockFileChange",
  "JarContentAdded", "JarContentRemoved", "JarContentChange",
  "JarClassAdded", "JarClassRemoved", "JarClassChange"]

/-- javatools/cheetah/distdiff_DistReport.tmpl:51-55 -/
def distOrig (c : Child) : String :=
  if c.origclass = "DistJarReport" then "DistJarChange"
  else if c.origclass = "DistClassReport" then "DistClassChange"
  else c.origclass

/-- javatools/cheetah/distdiff_DistReport.tmpl:34-47 -/
def distOrder : List String := [
  "DistClassAdded", "DistClassRemoved", "DistClassChange",
  "DistJarAdded", "DistJarRemoved", "DistJarChange", "DistJarChange",
  "DistTextChange", "DistManifestChange",
  "DistContentAdded", "DistContentRemoved", "DistContentChange"]

/-- javatools/cheetah/jardiff_JarContentsReport.tmpl:22-70 -/
def jarGroups (children : List Child) : List (String × List Child) :=
  reportGroups Child.type jarOrig Child.entry "SquashedChange" jarOrder children

/-- javatools/cheetah/distdiff_DistReport.tmpl:25-70 -/
def distGroups (children : List Child) : List (String × List Child) :=
  reportGroups Child.type distOrig Child.entry "SquashedChange" distOrder children

/-! ### The table of a method's code -/

/-- A `<td>` with its `colspan`, `rowspan` and text. -/
structure Cell where
  cols : Nat
  rows : Nat
  text : Str
  deriving DecidableEq, Repr

/-- `args[0]` -/
def firstArg : Args → Res Str
  | .ints [] => .error .indexError
  | .ints (v :: _) => .ok (intText v)
  | .lookup d _ => .ok (intText d)
  | .table d _ _ _ => .ok (intText d)

/-- javatools/cheetah/classdiff_MethodCodeChange.tmpl:67-68, 87-88, 143-144 -/
def argCell (i : Insn) : Res Str :=
  match hasConstArg i.code with
  | .error e => .error e
  | .ok false => .ok (argsText i.args)
  | .ok true =>
    match firstArg i.args with
    | .error e => .error e
    | .ok s => .ok ('#' :: s)

/-- javatools/cheetah/classdiff_MethodCodeChange.tmpl:65-68, 85-88, 141-144: offset, opcode and
arguments. -/
def insnCells (i : Insn) : Res (List Cell) :=
  match getOpnameByCode i.code with
  | .error e => .error e
  | .ok name =>
    match argCell i with
    | .error e => .error e
    | .ok a => .ok [⟨1, 1, natText i.off⟩, ⟨1, 1, name⟩, ⟨1, 1, a⟩]

/-- javatools/cheetah/classdiff_MethodCodeChange.tmpl:62, 82: `left[0]`, `right[0]`. -/
def sideLine : MergeSide → Res Str
  | none => .error .typeError
  | some (n, _) => .ok (natText n)

/-- javatools/cheetah/classdiff_MethodCodeChange.tmpl:40-48: `left_dis`, `right_dis`. -/
def sideInsns : MergeSide → List Insn
  | none => []
  | some (_, is) => is

/-- javatools/cheetah/classdiff_MethodCodeChange.tmpl:60-78, 80-98: the cells of one side in one
row, and `last` afterwards. -/
def sideCells (rowspan lastrow : Nat) (side : MergeSide) (first last : Bool) :
    Option Insn → Res (List Cell × Bool)
  | some i =>
    if first then
      match sideLine side with
      | .error e => .error e
      | .ok line =>
        match insnCells i with
        | .error e => .error e
        | .ok cs => .ok (⟨1, rowspan, line⟩ :: cs, last)
    else
      match insnCells i with
      | .error e => .error e
      | .ok cs => .ok (cs, last)
  | none =>
    if last then .ok ([], last)
    else if first then .ok ([⟨4, lastrow, []⟩], true)
    else .ok ([⟨3, lastrow, []⟩], true)

/-- `zip_longest` of two sequences, without the padding of an exhausted one -/
def zipPairs {β γ : Type} : List β → List γ → List (Option β × Option γ)
  | [], ys => ys.map fun y => (none, some y)
  | x :: xs, [] => (some x, none) :: xs.map fun x => (some x, none)
  | x :: xs, y :: ys => (some x, some y) :: zipPairs xs ys

/-- javatools/cheetah/classdiff_MethodCodeChange.tmpl:53-101: the rows of one relative line. -/
def codeRows (rel : Int) (rowspan lastrow : Nat) (left right : MergeSide) :
    Bool → Bool → List (Option Insn × Option Insn) → Res (List (List Cell))
  | _, _, [] => .ok []
  | first, last, (l, r) :: rest =>
    match sideCells rowspan lastrow left first last l with
    | .error e => .error e
    | .ok (lc, last) =>
      match sideCells rowspan lastrow right first last r with
      | .error e => .error e
      | .ok (rc, last) =>
        match codeRows rel rowspan lastrow left right false last rest with
        | .error e => .error e
        | .ok rows =>
          .ok (((if first then [⟨1, rowspan, intText rel⟩] else []) ++ lc ++ rc) :: rows)

/-- javatools/cheetah/classdiff_MethodCodeChange.tmpl:36-101: one relative line. -/
def codeGroup (rel : Int) (left right : MergeSide) : Res (List (List Cell)) :=
  let l := sideInsns left
  let r := sideInsns right
  let rowspan := max l.length r.length
  let lastrow := rowspan - min l.length r.length
  codeRows rel rowspan lastrow left right true false (zipPairs l r)

/-- `sorted(merged.items())` (no two items have the same relative line) -/
def insertRel {β : Type} (x : Int × β) : List (Int × β) → List (Int × β)
  | [] => [x]
  | y :: ys => if x.1 < y.1 then x :: y :: ys else y :: insertRel x ys

/-- `sorted(merged.items())` -/
def sortRel {β : Type} : List (Int × β) → List (Int × β)
  | [] => []
  | x :: xs => insertRel x (sortRel xs)

/-- One after the other. -/
def concatRes {β γ : Type} (f : β → Res (List γ)) : List β → Res (List γ)
  | [] => .ok []
  | x :: xs =>
    match f x with
    | .error e => .error e
    | .ok ys =>
      match concatRes f xs with
      | .error e => .error e
      | .ok zs => .ok (ys ++ zs)

/-- javatools/cheetah/classdiff_MethodCodeChange.tmpl:35-102: the body of the table. -/
def codeTable (merged : PyDict Int (MergeSide × MergeSide)) : Res (List (List Cell)) :=
  concatRes (fun p => codeGroup p.1 p.2.1 p.2.2) (sortRel merged)

/-- javatools/cheetah/classdiff_MethodCodeChange.tmpl:8-104 `details_changed`: the body. -/
def changedCode (l r : Option CodeInfo) : Res (List (List Cell)) :=
  match mergeCode l r with
  | .error e => .error e
  | .ok merged => codeTable merged

/-- javatools/cheetah/classdiff_MethodCodeChange.tmpl:135-149: the rows of one group. -/
def plainRows (rowspan : Nat) (g : LineGroup) : Bool → List Insn → Res (List (List Cell))
  | _, [] => .ok []
  | first, i :: is =>
    match insnCells i with
    | .error e => .error e
    | .ok cs =>
      match plainRows rowspan g false is with
      | .error e => .error e
      | .ok rows =>
        .ok (((if first then [⟨1, rowspan, intText g.relLine⟩, ⟨1, rowspan, natText g.absLine⟩]
          else []) ++ cs) :: rows)

/-- javatools/cheetah/classdiff_MethodCodeChange.tmpl:108-153 `details_unchanged`: the body; no
table without code. -/
def unchangedCode (l : Option CodeInfo) : Res (Option (List (List Cell))) :=
  match l with
  | none => .ok none
  | some c =>
    match c.iterCodeByLines with
    | .error e => .error e
    | .ok gs =>
      match concatRes (fun g => plainRows g.insns.length g true g.insns) gs with
      | .error e => .error e
      | .ok rows => .ok (some rows)

/-- javatools/cheetah/classdiff_MethodCodeChange.tmpl:157-172: which table, and its body. -/
def codeDetails (isChange : Bool) (l r : Option CodeInfo) :
    Res (Bool × Option (List (List Cell))) :=
  if isChange || decide ((l.map CodeInfo.code).getD [] ≠ (r.map CodeInfo.code).getD []) then
    match changedCode l r with
    | .error e => .error e
    | .ok rows => .ok (true, some rows)
  else
    match unchangedCode l with
    | .error e => .error e
    | .ok t => .ok (false, t)

/-! ### The tables of annotations and of constants -/

section
variable (E : PrintEnv)

/-- `(la and la.pretty_annotation()) or ""`: an annotation is a dict, which is false when it is
empty (javatools/cheetah/classdiff_AnnotationsChange.tmpl:59, 63, 66). -/
def dualAnnoCell (pool : Pool) : Option AVal → Res Str
  | none => .ok []
  | some (.anno _ []) => .ok []
  | some a => annoText E pool a

/-- `la == ra`; `None` is equal to `None` only. -/
def optAnnoEq (lp rp : Pool) : Option AVal → Option AVal → Res Bool
  | some a, some b => valEq lp rp E.lim a b
  | none, none => .ok true
  | _, _ => .ok false

/-- A row of the table of annotations: index, both texts, whether it is marked as changed. -/
structure AnnoRow where
  index : Nat
  left : Str
  right : Str
  changed : Bool
  deriving DecidableEq, Repr

/-- javatools/cheetah/classdiff_AnnotationsChange.tmpl:55-70: the loop. -/
def dualAnnoRows (lp rp : Pool) : Nat → List (Option AVal × Option AVal) → Res (List AnnoRow)
  | _, [] => .ok []
  | index, (a, b) :: rest =>
    match dualAnnoCell E lp a with
    | .error e => .error e
    | .ok left =>
      match optAnnoEq E lp rp a b with
      | .error e => .error e
      | .ok eq =>
        match dualAnnoCell E rp b with
        | .error e => .error e
        | .ok right =>
          match dualAnnoRows lp rp (index + 1) rest with
          | .error e => .error e
          | .ok rows => .ok (⟨index, left, right, !eq⟩ :: rows)

/-- javatools/cheetah/classdiff_AnnotationsChange.tmpl:42-72 `render_dual_annotations` -/
def dualAnnotations (lp rp : Pool) (l r : List AVal) : Res (List AnnoRow) :=
  dualAnnoRows E lp rp 0 (zipPairs l r)

/-- javatools/cheetah/classdiff_AnnotationsChange.tmpl:24-39 `render_annotations` -/
def singleAnnotations (pool : Pool) : Nat → List AVal → Res (List (Nat × Str))
  | _, [] => .ok []
  | index, a :: as =>
    match annoText E pool a with
    | .error e => .error e
    | .ok t =>
      match singleAnnotations pool (index + 1) as with
      | .error e => .error e
      | .ok rows => .ok ((index, t) :: rows)

/-- `not lv`: the values that `_pretty_const_type_val` (javatools/__init__.py:2170-2231) leaves as
numbers, and the empty string. -/
def falsyConst : Const → Bool
  | .utf8 s => s.isEmpty
  | .integer v => decide (v = 0)
  | .module n => decide (n = 0)
  | .package n => decide (n = 0)
  | _ => false

/-- Type and value of a cell of the table of constants: `lt or ""`, `escape(str(lv or ""))`
(javatools/cheetah/classdiff_ClassConstantPoolChange.tmpl:62-63, 68-69). -/
def dualConstCell : PrettyCell → Res (Str × Str)
  | none => .ok ([], [])
  | some (_, c) =>
    match constText E c with
    | .error e => .error e
    | .ok (t, v) => .ok (t, if falsyConst c then [] else xmlEscape v)

/-- The pair `(lt, lv)` as it is compared; values of one type are equal when their texts are. -/
def cellKey : PrettyCell → Res (Option (Str × Str))
  | none => .ok none
  | some (_, c) => (constText E c).map some

/-- A row of the table of constants. -/
structure DualRow where
  index : Nat
  left : Str × Str
  /-- `none`: the two empty cells of an unchanged row -/
  right : Option (Str × Str)
  deriving DecidableEq, Repr

/-- javatools/cheetah/classdiff_ClassConstantPoolChange.tmpl:56-72: one row. -/
def dualConstRow (row : Nat × PrettyCell × PrettyCell) : Res DualRow :=
  match cellKey E row.2.1, cellKey E row.2.2 with
  | .error e, _ => .error e
  | _, .error e => .error e
  | .ok a, .ok b =>
    match dualConstCell E row.2.1 with
    | .error e => .error e
    | .ok left =>
      if a = b then .ok ⟨row.1, left, none⟩
      else
        match dualConstCell E row.2.2 with
        | .error e => .error e
        | .ok right => .ok ⟨row.1, left, some right⟩

/-- javatools/cheetah/classdiff_ClassConstantPoolChange.tmpl:44-75 `render_dual_constant_pool` -/
def dualConstants (l r : Pool) : Res (List DualRow) :=
  match prettyMergeConstants l r with
  | .error e => .error e
  | .ok rows => rows.mapM (dualConstRow E)

/-- javatools/cheetah/classdiff_ClassConstantPoolChange.tmpl:21-40 `render_constant_pool`, over
`pretty_constants` (javatools/__init__.py:316-325): index, type, value. -/
def singleConstants : Nat → Pool → Res (List (Nat × Str × Str))
  | _, [] => .ok []
  | i, none :: rest => singleConstants (i + 1) rest
  | i, some c :: rest =>
    match constText E c with
    | .error e => .error e
    | .ok (t, v) =>
      match singleConstants (i + 1) rest with
      | .error e => .error e
      | .ok rows => .ok ((i, t, xmlEscape v) :: rows)
end

end Javatools
