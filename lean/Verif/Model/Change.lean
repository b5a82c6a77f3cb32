import Verif.Model.Base
/-
Model of javatools/change.py and of the text and JSON report formats of javatools/report.py.

A change object is a tree. What the Python classes override is data of a node:
* `Kind`: whether the object is an `Addition` or a `Removal` (isinstance), which decides
  `is_change`;
* `describe`: an overridden `get_description`, as a function of `is_change()`;
* `ign`: an overridden `is_ignored`;
* for a leaf, the outcome of `check_impl` (it may raise), for a composite the list
  `collect_impl` yields, in order.
Simplification: `collect_impl` is taken to give the same children every time it runs, so the
cache `self.changes` and its refill are invisible; `Verif.Model.Lifecycle` has them, and C146 shows
that they do not matter.
-/
namespace Javatools

/-- Whether a change object is an instance of `Addition` or `Removal`
(javatools/change.py:211-232). -/
inductive Kind where
  | plain | addition | removal
  deriving DecidableEq, Repr

/-- How `is_ignored` is defined by the class of a change. -/
inductive IgnoreRule (O : Type) where
  /-- not overridden -/
  | inherit
  /-- `return rule(options)` -/
  | only (rule : O → Bool)
  /-- `return rule(options) or super().is_ignored(options)` -/
  | orElse (rule : O → Bool)

/-- The fixed attributes of a change object. `O` is the type of option objects. -/
structure Hdr (O : Type) where
  typeName : String
  label : Str
  entry : Option Str := none
  kind : Kind := .plain
  describe : Option (Bool → Str) := none
  ign : IgnoreRule O := .inherit

/-- A change object. -/
inductive Change (O : Type) where
  /-- `Change`, `Addition`, `Removal` (no comparison: `check` does nothing) and `GenericChange`
  (with the outcome of `check_impl`), and the state `changed`, `description`. -/
  | leaf (h : Hdr O) (cmp : Option (Res (Bool × Option Str))) (changed : Bool) (desc : Option Str)
  /-- `SuperChange`. `short` is the outcome of a `check_impl` that decides without checking the
  children (javatools/classdiff.py:617-624). -/
  | super (h : Hdr O) (short : Option Bool) (changed : Bool) (desc : Option Str)
      (children : List (Change O))
  /-- `SquashedChange` (javatools/change.py:535-587); `h.typeName` is the squashed type. -/
  | squashed (h : Hdr O) (origclass : String) (changed : Bool) (desc : Str) (ignored : Bool)

namespace Change
variable {O : Type}

def hdr : Change O → Hdr O
  | leaf h .. => h
  | super h .. => h
  | squashed h .. => h

/-- javatools/change.py:161-162, 219-220, 231-232, 560-561 `is_change` -/
def isChange : Change O → Bool
  | leaf h _ changed _ => match h.kind with
    | .plain => changed
    | _ => true
  | super h _ changed _ _ => match h.kind with
    | .plain => changed
    | _ => true
  | squashed _ _ changed _ _ => changed

/-- javatools/change.py:179-180 and 444-454 `collect` -/
def collect : Change O → List (Change O)
  | super _ _ _ _ children => children
  | _ => []

/-- javatools/change.py:174-176: the description built from the label. -/
def defaultDescription (label : Str) (isChange : Bool) : Str :=
  label ++ (if isChange then " changed".toList else " unchanged".toList)

/-- `self.description or default` -/
def orDefault (desc : Option Str) (default : Str) : Str :=
  match desc with
  | none => default
  | some d => if d = [] then default else d

/-- javatools/change.py:174-176 `get_description`, or the override. -/
def getDescription : Change O → Str
  | leaf h cmp changed desc => match h.describe with
    | some f => f (leaf h cmp changed desc).isChange
    | none => orDefault desc (defaultDescription h.label (leaf h cmp changed desc).isChange)
  | super h short changed desc cs => match h.describe with
    | some f => f (super h short changed desc cs).isChange
    | none => orDefault desc (defaultDescription h.label (super h short changed desc cs).isChange)
  | squashed h _ changed desc _ => orDefault (some desc) (defaultDescription h.label changed)

mutual
/-- `is_ignored`: javatools/change.py:165-171 (leaves), 471-488 (composites), 556-557. -/
def isIgnored (o : O) : Change O → Bool
  | leaf h _ _ _ => match h.ign with
    | .inherit => false
    | .only rule => rule o
    | .orElse rule => rule o || false
  | super h short changed desc children =>
    let base :=
      if ¬ (super h short changed desc children).isChange then false
      else if children.isEmpty then false
      else allIgnored o children
    match h.ign with
    | .inherit => base
    | .only rule => rule o
    | .orElse rule => rule o || base
  | squashed _ _ _ _ ignored => ignored
/-- javatools/change.py:485-488: the loop. -/
def allIgnored (o : O) : List (Change O) → Bool
  | [] => true
  | c :: cs => if c.isChange && !(isIgnored o c) then false else allIgnored o cs
end

mutual
/-- `check`: javatools/change.py:149-150, 355-361 and 457-468. The result is the updated
object. -/
def check : Change O → Res (Change O)
  | leaf h none changed desc => .ok (leaf h none changed desc)
  | leaf h (some r) _ _ =>
    match r with
    | .error e => .error e
    | .ok (c, d) => .ok (leaf h (some r) c d)
  | super h (some b) _ _ children => .ok (super h (some b) b none children)
  | super h none _ _ children =>
    match checkAll children false with
    | .error e => .error e
    | .ok (children', c) => .ok (super h none c none children')
  | squashed h oc changed desc ignored => .ok (squashed h oc changed desc ignored)
/-- javatools/change.py:464-468: the loop over the children, with `c`. -/
def checkAll : List (Change O) → Bool → Res (List (Change O) × Bool)
  | [], c => .ok ([], c)
  | x :: xs, c =>
    match check x with
    | .error e => .error e
    | .ok x' =>
      match checkAll xs (c || x'.isChange) with
      | .error e => .error e
      | .ok (xs', c') => .ok (x' :: xs', c')
end

/-- javatools/classdiff.py:972-975, javatools/jardiff.py:542-545, javatools/distdiff.py:582-585:
the exit status for a checked change. -/
def exitStatus (o : O) (c : Change O) : Nat :=
  if !c.isChange || c.isIgnored o then 0 else 1

/-! ### Squashing -/

/-- javatools/change.py:545-553: the `SquashedChange` constructor. -/
def mkSquashed (cls : String) (kind : Kind) (c : Change O) (ignored : Bool) : Change O :=
  squashed { typeName := cls, label := c.hdr.label, entry := c.hdr.entry, kind := kind }
    c.hdr.typeName c.isChange c.getDescription ignored

/-- javatools/change.py:590-606 `squash(change, is_ignored=False, options)` -/
def squash (c : Change O) (ignored : Bool) (options : Option O) : Change O :=
  let ignored := match options with
    | some o => c.isIgnored o
    | none => ignored
  match c.hdr.kind with
  | .removal => mkSquashed "SquashedRemoval" .removal c ignored
  | .addition => mkSquashed "SquashedAddition" .addition c ignored
  | .plain => mkSquashed "SquashedChange" .plain c ignored

/-- javatools/change.py:522-532 `squash_children` (the cleared old children are unreachable). -/
def squashChildren (c : Change O) (o : O) : Change O :=
  match c with
  | super h short changed desc children =>
    super h short changed desc (children.map fun x => x.squash false (some o))
  | c => c

/-! ### Reports -/

/-- The two report options (`getattr(options, ..., False)`). -/
structure ShowOpts where
  showUnchanged : Bool := false
  showIgnored : Bool := false

/-- Lower-case hexadecimal digit. -/
def hexDigit (n : Nat) : Char := if n < 10 then Char.ofNat (48 + n) else Char.ofNat (87 + n)

/-- `n` in `k` hexadecimal digits. -/
def hexN : Nat → Nat → Str
  | 0, _ => []
  | k + 1, n => hexN k (n / 16) ++ [hexDigit (n % 16)]

/-- CPython's `backslashreplace` for one character. -/
def backslash (c : Char) : Str :=
  if c.toNat < 128 then [c]
  else if c.toNat < 256 then '\\' :: 'x' :: hexN 2 c.toNat
  else if c.toNat < 65536 then '\\' :: 'u' :: hexN 4 c.toNat
  else '\\' :: 'U' :: hexN 8 c.toNat

/-- `x.encode("ascii", "backslashreplace").decode("ascii")` -/
def asciiSafe (s : Str) : Str := s.flatMap backslash

/-- javatools/report.py:388-398 `_indent`: what is written. -/
def indentLine (indent : Nat) (msgs : List Str) : Str :=
  (List.replicate indent "  ".toList).flatten ++ (msgs.map asciiSafe).flatten ++ ['\n']

mutual
/-- javatools/report.py:359-385 `_indent_change`: the pieces written, one per `_indent` call. -/
def indentChange (o : O) (s : ShowOpts) (indent : Nat) : Change O → List Str
  | leaf h cmp changed desc =>
    let c := leaf h cmp changed desc
    if c.isChange then
      if c.isIgnored o then
        if s.showIgnored then [indentLine indent [c.getDescription, " [IGNORED]".toList]] else []
      else [indentLine indent [c.getDescription]]
    else if s.showUnchanged then [indentLine indent [c.getDescription]] else []
  | super h short changed desc children =>
    let c := super h short changed desc children
    if c.isChange then
      if c.isIgnored o then
        if s.showIgnored then
          indentLine indent [c.getDescription, " [IGNORED]".toList] ::
            indentAll o s (indent + 1) children
        else []
      else indentLine indent [c.getDescription] :: indentAll o s (indent + 1) children
    else if s.showUnchanged then
      indentLine indent [c.getDescription] :: indentAll o s (indent + 1) children
    else []
  | squashed h oc changed desc ignored =>
    let c := squashed h oc changed desc ignored
    if c.isChange then
      if c.isIgnored o then
        if s.showIgnored then [indentLine indent [c.getDescription, " [IGNORED]".toList]] else []
      else [indentLine indent [c.getDescription]]
    else if s.showUnchanged then [indentLine indent [c.getDescription]] else []
/-- javatools/report.py:384-385: the loop. -/
def indentAll (o : O) (s : ShowOpts) (indent : Nat) : List (Change O) → List Str
  | [] => []
  | c :: cs => indentChange o s indent c ++ indentAll o s indent cs
end

/-- javatools/report.py:354-356 `TextReportFormat.run_impl`: everything written. -/
def textReport (o : O) (s : ShowOpts) (c : Change O) : Str := (indentChange o s 0 c).flatten

/-- The dictionary of `simplify` (javatools/change.py:183-208, 498-519, 564-567), as rendered by
`JSONChangeEncoder`; the rendered old and new data of a leaf are left out. -/
inductive Json where
  | obj (cls : String) (isChange : Bool) (description label : Str) (isIgnored : Bool)
      (isAddition isRemoval : Bool) (entry : Option Str) (children : Option (List Json))

/-- Truthiness of `self.entry`: `None` and `""` are left out (javatools/change.py:205-206). -/
def entryShown (e : Option Str) : Option Str :=
  match e with
  | some [] => none
  | e => e

mutual
/-- javatools/report.py:328-343 `JSONChangeEncoder.default` applied through the tree. -/
def toJson (o : O) (s : ShowOpts) : Change O → Json
  | leaf h cmp changed desc =>
    let c := leaf h cmp changed desc
    .obj h.typeName c.isChange c.getDescription h.label (c.isIgnored o)
      (h.kind == .addition) (h.kind == .removal) (entryShown h.entry) none
  | super h short changed desc children =>
    let c := super h short changed desc children
    .obj h.typeName c.isChange c.getDescription h.label (c.isIgnored o)
      (h.kind == .addition) (h.kind == .removal) (entryShown h.entry)
      (some (toJsonKept o s children))
  | squashed h oc changed desc ignored =>
    let c := squashed h oc changed desc ignored
    .obj h.typeName c.isChange c.getDescription h.label (c.isIgnored o)
      (h.kind == .addition) (h.kind == .removal) (entryShown h.entry) none
/-- javatools/change.py:510-518: the filtering loop, each kept child rendered. -/
def toJsonKept (o : O) (s : ShowOpts) : List (Change O) → List Json
  | [] => []
  | x :: xs =>
    if x.isChange then
      if s.showIgnored || !(x.isIgnored o) then toJson o s x :: toJsonKept o s xs
      else toJsonKept o s xs
    else if s.showUnchanged then toJson o s x :: toJsonKept o s xs
    else toJsonKept o s xs
end

end Change

/-! ### Grouping by type -/

section
variable {α τ : Type} [DecidableEq τ]

/-- javatools/change.py:59-77 `collect_by_type` (and 37-56 with the type's name). -/
def collectByType (type : α → τ) : PyDict τ (List α) → List α → PyDict τ (List α)
  | cache, [] => cache
  | cache, v :: vs =>
    match cache.get? (type v) with
    | some bucket => collectByType type (cache.set (type v) (bucket ++ [v])) vs
    | none => collectByType type (cache.set (type v) [v]) vs

/-- javatools/change.py:91-93: popping the listed types. -/
def popTypes : PyDict τ (List α) → List τ → List α × PyDict τ (List α)
  | cache, [] => ([], cache)
  | cache, t :: ts =>
    let vals := (cache.get? t).getD []
    let (out, cache') := popTypes (cache.del t) ts
    (vals ++ out, cache')

/-- javatools/change.py:80-97 `iterate_by_type` -/
def iterateByType (type : α → τ) (objs : List α) (typelist : List τ) : List α :=
  let (out, cache) := popTypes (collectByType type [] objs) typelist
  out ++ cache.flatMap Prod.snd
end

end Javatools
