import Verif.Model.Html
/-
How a table is read: the slots that its cells cover, as HTML assigns them.
-/
namespace Javatools

/-- The slots of a row: `(k + 1, t)` is covered by a cell with the text `t` that goes on for `k`
rows more. The list given is what cells of earlier rows still cover, `(0, _)` where a slot is free.
Each cell takes the next free slots; there is nothing if a cell overlaps another, if slots are left
over or if there are too few. -/
def fillRow : List (Nat × Str) → List Cell → Option (List (Nat × Str))
  | [], [] => some []
  | [], _ :: _ => none
  | (k + 1, t) :: ps, cs => (fillRow ps cs).map ((k + 1, t) :: ·)
  | (0, _) :: _, [] => none
  | (0, _) :: ps, c :: cs =>
    if c.rows = 0 then none
    else
      match c.cols with
      | 0 => none
      | 1 => (fillRow ps cs).map ((c.rows, c.text) :: ·)
      | n + 2 =>
        match ps with
        | (0, _) :: _ => (fillRow ps (⟨n + 1, c.rows, c.text⟩ :: cs)).map ((c.rows, c.text) :: ·)
        | _ => none

/-- What a row leaves covered in the next one. -/
def nextRow : List (Nat × Str) → List (Nat × Str)
  | [] => []
  | (k + 2, t) :: ps => (k + 1, t) :: nextRow ps
  | _ :: ps => (0, []) :: nextRow ps

/-- What stands in the slots of all rows; nothing if the cells do not make up a full rectangle. -/
def readTable : List (Nat × Str) → List (List Cell) → Option (List (List Str))
  | p, [] => if p.all (fun x => x.1 = 0) then some [] else none
  | p, r :: rs =>
    match fillRow p r with
    | none => none
    | some q => (readTable (nextRow q) rs).map (q.map Prod.snd :: ·)

/-- A table with so many columns. -/
def readColumns (n : Nat) (rows : List (List Cell)) : Option (List (List Str)) :=
  readTable (List.replicate n (0, [])) rows

/-- Offset, name and operands of an instruction, as they are shown; blank for none. -/
def shownInsn : Option Insn → Res (List Str)
  | none => .ok [[], [], []]
  | some i => do
    let name ← getOpnameByCode i.code
    let arg ← (do
      if ← hasConstArg i.code then do .ok ('#' :: (← firstArg i.args))
      else .ok (argsText i.args) : Res Str)
    .ok [natText i.off, name, arg]

/-- The line number of a side, blank when it has no instructions there. -/
def shownSideLine : MergeSide → Str
  | some (n, _ :: _) => natText n
  | _ => []

/-- The row for the `k`-th instructions of both sides at a relative line. -/
def shownRow (rel : Int) (left right : MergeSide) (k : Nat) : Res (List Str) := do
  let l ← shownInsn (sideInsns left)[k]?
  let r ← shownInsn (sideInsns right)[k]?
  .ok (intText rel :: shownSideLine left :: l ++ shownSideLine right :: r)

/-- The rows of a relative line: as many as the longer side has instructions. -/
def shownGroup (rel : Int) (left right : MergeSide) : Res (List (List Str)) :=
  (List.range (max (sideInsns left).length (sideInsns right).length)).mapM
    (shownRow rel left right)

end Javatools
