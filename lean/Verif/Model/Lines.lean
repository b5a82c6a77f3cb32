import Verif.Model.Member
import Verif.Model.Opcodes
/-
Model of the line number functions of javatools/__init__.py and of the two merging functions
of javatools/classdiff.py.
-/
namespace Javatools

/-- javatools/__init__.py:1662-1678 `get_linenumbertable`: (code_offset, line_number) pairs.
The `_lnt` cache holds the same value for the life of the object. -/
def CodeInfo.getLinenumbertable (c : CodeInfo) : Res (List (Nat × Nat)) :=
  match getAttribute c.attribs "LineNumberTable" with
  | none => .ok []
  | some buf => (counted u2u2).run buf

/-- javatools/__init__.py:1681-1693 `get_relativelinenumbertable`, on the table. -/
def relativeTable (lnt : List (Nat × Nat)) : List (Nat × Int) :=
  match lnt with
  | [] => []
  | (_, lineoff) :: _ => lnt.map fun e => (e.1, (e.2 : Int) - lineoff)

/-- javatools/__init__.py:1728-1743: the loop, with `prev_line`. -/
def lineLoop (pc : Nat) : Nat → List (Nat × Nat) → Nat
  | prev, [] => prev
  | prev, (offset, line) :: rest =>
    if offset < pc then lineLoop pc line rest
    else if offset = pc then line
    else prev

/-- javatools/__init__.py:1728-1743 `get_line_for_offset`, given the table. -/
def lineForOffset (lnt : List (Nat × Nat)) (pc : Nat) : Nat := lineLoop pc 0 lnt

/-- A group yielded by `iter_code_by_lines`: absolute line, relative line, instructions. -/
structure LineGroup where
  absLine : Nat
  relLine : Int
  insns : List Insn
  deriving DecidableEq, Repr

/-- javatools/__init__.py:1759-1775: the loop. `cur` is `(cur_line, current)`, none at first. -/
def groupLoop (lnt : List (Nat × Nat)) (lntOffset : Nat) :
    Option (Nat × List Insn) → List Insn → List LineGroup
  | none, [] => []
  | some (line, current), [] =>
    if current ≠ [] then [⟨line, (line : Int) - lntOffset, current⟩] else []
  | none, i :: is => groupLoop lnt lntOffset (some (lineForOffset lnt i.off, [i])) is
  | some (line, current), i :: is =>
    let absLine := lineForOffset lnt i.off
    if line = absLine then groupLoop lnt lntOffset (some (line, current ++ [i])) is
    else ⟨line, (line : Int) - lntOffset, current⟩ ::
      groupLoop lnt lntOffset (some (absLine, [i])) is

/-- javatools/__init__.py:1746-1775 on a table and a disassembly. -/
def codeByLines (lnt : List (Nat × Nat)) (dis : List Insn) : List LineGroup :=
  match lnt with
  | [] => [⟨1, 1, dis⟩]
  | (_, off) :: _ => groupLoop lnt off none dis

/-- javatools/__init__.py:1778-1789 `JavaCodeInfo.disassemble` -/
def CodeInfo.disassemble (c : CodeInfo) : Res (List Insn) := disassembleAll c.code

/-- javatools/__init__.py:1746-1775 `iter_code_by_lines`, fully consumed. -/
def CodeInfo.iterCodeByLines (c : CodeInfo) : Res (List LineGroup) := do
  let lnt ← c.getLinenumbertable
  let dis ← c.disassemble
  .ok (codeByLines lnt dis)

/-! ### classdiff.merge_code -/

/-- One side of an entry of the merged code: absolute line and instructions. -/
abbrev MergeSide := Option (Nat × List Insn)

/-- javatools/classdiff.py:928-931 -/
def mergeLeft (data : PyDict Int (MergeSide × MergeSide)) :
    List LineGroup → PyDict Int (MergeSide × MergeSide)
  | [] => data
  | g :: gs => mergeLeft (data.set g.relLine (some (g.absLine, g.insns), none)) gs

/-- javatools/classdiff.py:934-942 (the entry found is updated in place) -/
def mergeRight (data : PyDict Int (MergeSide × MergeSide)) :
    List LineGroup → PyDict Int (MergeSide × MergeSide)
  | [] => data
  | g :: gs =>
    match data.get? g.relLine with
    | none => mergeRight (data.set g.relLine (none, some (g.absLine, g.insns))) gs
    | some found => mergeRight (data.set g.relLine (found.1, some (g.absLine, g.insns))) gs

/-- javatools/classdiff.py:925-944 on the groups of both sides. -/
def mergeGroups (l r : List LineGroup) : PyDict Int (MergeSide × MergeSide) :=
  mergeRight (mergeLeft [] l) r

/-- `(code and code.iter_code_by_lines()) or tuple()` -/
def groupsOf (c : Option CodeInfo) : Res (List LineGroup) :=
  match c with
  | none => .ok []
  | some c => c.iterCodeByLines

/-- javatools/classdiff.py:917-944 `merge_code` -/
def mergeCode (l r : Option CodeInfo) : Res (PyDict Int (MergeSide × MergeSide)) := do
  let lg ← groupsOf l
  let rg ← groupsOf r
  .ok (mergeGroups lg rg)

/-! ### classdiff.pretty_merge_constants -/

/-- A pretty constant: `none` is `(None, None)`. -/
abbrev PrettyCell := Option (String × Const)

/-- `for index in range(start, stop): ... yield ...` on both pools
(javatools/classdiff.py:901-904); returns the rows and the value of `index` afterwards. -/
def mergeBoth (l r : Pool) : Nat → Nat → Nat → Res (List (Nat × PrettyCell × PrettyCell) × Nat)
  | 0, _, index => .ok ([], index)
  | n + 1, start, _ => do
    let lc ← prettyConst l start
    let rc ← prettyConst r start
    let (rows, last) ← mergeBoth l r n (start + 1) start
    .ok ((start, lc, rc) :: rows, last)

/-- javatools/classdiff.py:907-909 -/
def mergeOnlyLeft (l : Pool) : Nat → Nat → Res (List (Nat × PrettyCell × PrettyCell))
  | 0, _ => .ok []
  | n + 1, start => do
    let lc ← prettyConst l start
    let rows ← mergeOnlyLeft l n (start + 1)
    .ok ((start, lc, none) :: rows)

/-- javatools/classdiff.py:912-914 -/
def mergeOnlyRight (r : Pool) : Nat → Nat → Res (List (Nat × PrettyCell × PrettyCell))
  | 0, _ => .ok []
  | n + 1, start => do
    let rc ← prettyConst r start
    let rows ← mergeOnlyRight r n (start + 1)
    .ok ((start, none, rc) :: rows)

/-- javatools/classdiff.py:889-914 `pretty_merge_constants`, fully consumed. A loop over
`range(a, b)` makes `b - a` rounds starting at `a`. -/
def prettyMergeConstants (l r : Pool) : Res (List (Nat × PrettyCell × PrettyCell)) := do
  let lsize := l.length
  let rsize := r.length
  let (rows, index) ← mergeBoth l r (min lsize rsize - 1) 1 1
  if lsize > rsize then do
    let more ← mergeOnlyLeft l (lsize - index) index
    .ok (rows ++ more)
  else if rsize > lsize then do
    let more ← mergeOnlyRight r (rsize - index) index
    .ok (rows ++ more)
  else .ok rows

end Javatools
