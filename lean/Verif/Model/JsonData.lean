import Verif.Model.ClassDiff
import Verif.Model.Attrs
/-
Model of the data of a change in a JSON report (`old_data` and `new_data`, javatools/change.py:364-382)
for the two changes of classdiff whose `check_impl` makes no use of it: `CodeConstantsChange` and
`CodeBodyChange`. The other changes of classdiff have the data in their messages.
-/
namespace Javatools

/-- javatools/change.py:373-382: what `simplify` puts into the dictionary. -/
def sideData {α : Type} (left right : Res (Option α)) : Res (Option α × Option α) :=
  match left with
  | .error e => .error e
  | .ok x =>
    match right with
    | .error e => .error e
    | .ok y => .ok (x, y)

/-! ### Code constants -/

/-- A row of the data: offset, mnemonic and the constant. -/
abbrev ConstRow := Nat × Str × PVal

section
variable (fmt repr : PVal → Str) (pool : Pool) (lim : Nat)

/-- javatools/classdiff.py:419-421: the row of one instruction. -/
def constRow (i : Insn) : Res ConstRow :=
  match getOpnameByCode i.code with
  | .error e => .error e
  | .ok name =>
    match i.args with
    | .ints (a :: _) =>
      match prettyDerefConst fmt repr pool lim a.toNat with
      | .error e => .error e
      | .ok data => .ok (i.off, name, data)
    | _ => .error .indexError

/-- javatools/classdiff.py:417-421: the loop over what `disassemble` yields. -/
def constRows (offsets : List Nat) (err : Option PyErr) : List Insn → Res (List ConstRow)
  | [] =>
    match err with
    | some e => .error e
    | none => .ok []
  | i :: is =>
    if i.off ∈ offsets then
      match hasConstArg i.code with
      | .error e => .error e
      | .ok false => constRows offsets err is
      | .ok true =>
        match constRow fmt repr pool lim i with
        | .error e => .error e
        | .ok row =>
          match constRows offsets err is with
          | .error e => .error e
          | .ok rows => .ok (row :: rows)
    else constRows offsets err is

/-- javatools/classdiff.py:411-423 `CodeConstantsChange.fn_pretty` -/
def constantsPretty (offsets : Option (List Nat)) (c : Option CodeInfo) :
    Res (Option (List ConstRow)) :=
  match offsets with
  | none => .ok none
  | some [] => .ok none
  | some offs =>
    match c with
    | none => .error .attributeError
    | some c => (constRows fmt repr pool lim offs (disassemble c.code).2 (disassemble c.code).1).map some
end

/-- javatools/classdiff.py:406-408, 426-455: the offsets that `check_impl` leaves. -/
def codeConstantsOffsets (lp rp : Pool) (lim : Nat) :
    Option CodeInfo → Option CodeInfo → Res (Option (List Nat))
  | some l, some r =>
    if l.code.length ≠ r.code.length then .ok none
    else constantsLoop lp rp lim (disassemble l.code).2 (disassemble r.code).2
      (disassemble l.code).1 (disassemble r.code).1
  | _, _ => .ok none

/-- The data of a checked `CodeConstantsChange` in a JSON report. -/
def constantsData (fmt repr : PVal → Str) (lp rp : Pool) (lim : Nat) (l r : Option CodeInfo) :
    Res (Option (List ConstRow) × Option (List ConstRow)) :=
  match codeConstantsOffsets lp rp lim l r with
  | .error e => .error e
  | .ok offsets =>
    sideData (constantsPretty fmt repr lp lim offsets l) (constantsPretty fmt repr rp lim offsets r)

/-! ### Code body -/

/-- javatools/classdiff.py:473-475: the loop. -/
def bodyRows (err : Option PyErr) : List Insn → Res (List (Nat × Str × Args))
  | [] =>
    match err with
    | some e => .error e
    | none => .ok []
  | i :: is =>
    match getOpnameByCode i.code with
    | .error e => .error e
    | .ok name =>
      match bodyRows err is with
      | .error e => .error e
      | .ok rows => .ok ((i.off, name, i.args) :: rows)

/-- javatools/classdiff.py:467-477 `CodeBodyChange.fn_pretty` -/
def bodyPretty (c : Option CodeInfo) : Res (Option (List (Nat × Str × Args))) :=
  match c with
  | none => .ok (some [])
  | some c => (bodyRows (disassemble c.code).2 (disassemble c.code).1).map some

/-- The data of a `CodeBodyChange` in a JSON report. -/
def bodyData (l r : Option CodeInfo) :
    Res (Option (List (Nat × Str × Args)) × Option (List (Nat × Str × Args))) :=
  sideData (bodyPretty l) (bodyPretty r)

end Javatools
