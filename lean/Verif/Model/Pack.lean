import Verif.Model.Base
/-
Model of javatools/pack.py: the struct formats, the two unpackers and the struct cache.

CPython facts relied on: `struct` big-endian standard sizes (B/b 1, H/h 2, I/i 4, q 8,
f 4, d 8; no padding with '>'), slicing `d[a:b]`, `file.read(n)` returning
`min(n, remaining)` bytes of an ordinary (non-socket) stream and advancing past them.
-/
namespace Javatools

/-! ### `struct` formats -/

/-- One format character of a '>' struct format used by javatools with an integer value. -/
inductive FmtCode where
  | B | b | H | h | I | i | q
  deriving DecidableEq, Repr

/-- Standard size in bytes. -/
def FmtCode.size : FmtCode → Nat
  | .B => 1 | .b => 1 | .H => 2 | .h => 2 | .I => 4 | .i => 4 | .q => 8

/-- Is the format character a signed one. -/
def FmtCode.signed : FmtCode → Bool
  | .B => false | .H => false | .I => false
  | .b => true | .h => true | .i => true | .q => true

/-- Big-endian unsigned value of some bytes. -/
def beNat (bs : Bytes) : Nat := bs.foldl (fun a b => a * 256 + b.toNat) 0

/-- Two's complement reading of an unsigned `w`-byte value. -/
def toSigned (w : Nat) (n : Nat) : Int :=
  if 2 * n < 256 ^ w then (n : Int) else (n : Int) - (256 ^ w : Nat)

/-- Value of one field. -/
def FmtCode.decode (c : FmtCode) (bs : Bytes) : Int :=
  if c.signed then toSigned c.size (beNat bs) else (beNat bs : Nat)

/-- `struct.calcsize` -/
def fmtSize (cs : List FmtCode) : Nat := (cs.map FmtCode.size).sum

/-- `Struct(fmt).unpack(buf)` for `len(buf) == size`. -/
def structUnpack : List FmtCode → Bytes → List Int
  | [], _ => []
  | c :: cs, bs => c.decode (bs.take c.size) :: structUnpack cs (bs.drop c.size)

/-! ### Decoding routines as programs -/

/-- A decoding routine: it asks an unpacker for `n` bytes (through `unpack`,
`unpack_struct` with format `fmt`, or `read` with format `None`) and continues with
them, finishes, or raises. Exceptions of the unpacker propagate (no javatools decoding
routine catches them). -/
inductive Prog (α : Type) : Type where
  | ret (a : α)
  | fail (e : PyErr)
  | read (fmt : Option String) (n : Nat) (k : Bytes → Prog α)

namespace Prog
variable {α β : Type}

def bind (p : Prog α) (f : α → Prog β) : Prog β :=
  match p with
  | ret a => f a
  | fail e => fail e
  | read fmt n k => read fmt n (fun bs => bind (k bs) f)

instance : Monad Prog where
  pure := ret
  bind := bind

/-- embed a computation that may raise but does not read -/
def lift (r : Res α) : Prog α :=
  match r with
  | .ok a => ret a
  | .error e => fail e

/-- `for _i in range(n): yield ...`, fully consumed -/
def times (n : Nat) (p : Prog α) : Prog (List α) :=
  match n with
  | 0 => ret []
  | n + 1 => bind p (fun a => bind (times n p) (fun as => ret (a :: as)))

end Prog

/-! ### BufferUnpacker -/

/-- javatools/pack.py:172-180 `BufferUnpacker`; `data = None` after `close`. -/
structure BufSt where
  data : Option Bytes
  offset : Nat
  deriving DecidableEq, Repr

/-- `avail` as computed at javatools/pack.py:194-197, 216-219, 236-239
(`if self.data` is false for `None` and for the empty string). -/
def BufSt.avail (s : BufSt) : Int :=
  match s.data with
  | none => 0
  | some [] => 0
  | some d => (d.length : Int) - s.offset

/-- javatools/pack.py:183-245 `unpack`, `unpack_struct` and `read` (the three share this
body; the struct decoding of the returned slice is done by the program). -/
def BufSt.read (fmt : Option String) (n : Nat) (s : BufSt) : Res Bytes × BufSt :=
  if s.avail < (n : Int) then (.error (.unpack fmt n s.avail), s)
  else
    match s.data with
    | none => (.error .typeError, { s with offset := s.offset + n })
    | some d => (.ok ((d.drop s.offset).take n), { s with offset := s.offset + n })

/-- javatools/pack.py:248-254 -/
def BufSt.close (_ : BufSt) : BufSt := ⟨none, 0⟩

/-- Run a decoding routine on a `BufferUnpacker`. -/
def Prog.runBuf {α : Type} : Prog α → BufSt → Res α × BufSt
  | .ret a, s => (.ok a, s)
  | .fail e, s => (.error e, s)
  | .read fmt n k, s =>
    match s.read fmt n with
    | (.ok bs, s') => (k bs).runBuf s'
    | (.error e, s') => (.error e, s')

/-! ### StreamUnpacker -/

/-- javatools/pack.py:257-268 `StreamUnpacker`: what is left of the stream, `none` after
`close`. -/
structure StrSt where
  rest : Option Bytes
  deriving DecidableEq, Repr

/-- javatools/pack.py:271-324 `unpack`, `unpack_struct`, `read`. -/
def StrSt.read (fmt : Option String) (n : Nat) (s : StrSt) : Res Bytes × StrSt :=
  match s.rest with
  | none => (.error (.unpack fmt n 0), s)
  | some r =>
    let buff := r.take n
    let s' : StrSt := ⟨some (r.drop n)⟩
    if buff.length < n then (.error (.unpack fmt n buff.length), s') else (.ok buff, s')

/-- javatools/pack.py:327-336 -/
def StrSt.close (_ : StrSt) : StrSt := ⟨none⟩

/-- Run a decoding routine on a `StreamUnpacker`. -/
def Prog.runStr {α : Type} : Prog α → StrSt → Res α × StrSt
  | .ret a, s => (.ok a, s)
  | .fail e, s => (.error e, s)
  | .read fmt n k, s =>
    match s.read fmt n with
    | (.ok bs, s') => (k bs).runStr s'
    | (.error e, s') => (.error e, s')

/-! ### `unpack(data)` -/

/-- The two kinds of argument `unpack` accepts (javatools/pack.py:339-355). -/
inductive Source where
  | bytes (d : Bytes)
  | stream (d : Bytes)

/-- `with unpack(src) as up: <program>` (javatools/pack.py:81-87, 339-355). The context
manager closes the unpacker and lets exceptions through. -/
def Prog.runOn {α : Type} (p : Prog α) : Source → Res α
  | .bytes d => (p.runBuf ⟨some d, 0⟩).1
  | .stream d => (p.runStr ⟨some d⟩).1

/-- The common case: decode from bytes. -/
def Prog.run {α : Type} (p : Prog α) (d : Bytes) : Res α := (p.runBuf ⟨some d, 0⟩).1

/-! ### Frequently used reads -/

/-- `unpack_struct(_B)` -/
def u1 : Prog Nat := .read (some ">B") 1 fun bs => .ret (beNat bs)

/-- `unpack_struct(_H)` -/
def u2 : Prog Nat := .read (some ">H") 2 fun bs => .ret (beNat bs)

/-- `unpack_struct(_HH)` -/
def u2u2 : Prog (Nat × Nat) := .read (some ">HH") 4 fun bs =>
  .ret (beNat (bs.take 2), beNat (bs.drop 2))

/-- `unpack_struct(_HHH)` -/
def u2u2u2 : Prog (Nat × Nat × Nat) := .read (some ">HHH") 6 fun bs =>
  .ret (beNat (bs.take 2), beNat ((bs.drop 2).take 2), beNat (bs.drop 4))

/-- `unpack_struct(_HHHH)` -/
def u2x4 : Prog (Nat × Nat × Nat × Nat) := .read (some ">HHHH") 8 fun bs =>
  .ret (beNat (bs.take 2), beNat ((bs.drop 2).take 2), beNat ((bs.drop 4).take 2),
    beNat (bs.drop 6))

/-- `unpack_struct(_HI)` -/
def u2u4 : Prog (Nat × Nat) := .read (some ">HI") 6 fun bs =>
  .ret (beNat (bs.take 2), beNat (bs.drop 2))

/-- `unpack_struct(_HHI)` -/
def u2u2u4 : Prog (Nat × Nat × Nat) := .read (some ">HHI") 8 fun bs =>
  .ret (beNat (bs.take 2), beNat ((bs.drop 2).take 2), beNat (bs.drop 4))

/-- `unpack_struct(_BH)` -/
def u1u2 : Prog (Nat × Nat) := .read (some ">BH") 3 fun bs =>
  .ret (beNat (bs.take 1), beNat (bs.drop 1))

/-- `unpacker.read(n)` -/
def readBytes (n : Nat) : Prog Bytes := .read none n .ret

/-- `unpacker.unpack(">%iH" % n)` -/
def u2s (n : Nat) : Prog (List Nat) :=
  .read (some (">" ++ toString n ++ "H")) (2 * n) fun bs =>
    .ret ((structUnpack (List.replicate n .H) bs).map Int.toNat)

/-- `unpack_objects` / `unpack_struct_array` / `unpack_array`
(javatools/pack.py:132-169): a u2 count, then that many items. -/
def counted {α : Type} (p : Prog α) : Prog (List α) := u2.bind fun n => Prog.times n p

/-! ### Histories of unpacker operations -/

/-- One call on an unpacker object. -/
inductive UOp where
  | read (fmt : Option String) (n : Nat)
  | close
  deriving DecidableEq, Repr

/-- One call on a `BufferUnpacker`; `close` returns nothing (empty bytes here). -/
def BufSt.step (s : BufSt) : UOp → Res Bytes × BufSt
  | .read fmt n => s.read fmt n
  | .close => (.ok [], s.close)

/-- One call on a `StreamUnpacker`. -/
def StrSt.step (s : StrSt) : UOp → Res Bytes × StrSt
  | .read fmt n => s.read fmt n
  | .close => (.ok [], s.close)

/-- A history of calls, where the caller may catch exceptions and go on. -/
def BufSt.exec (s : BufSt) : List UOp → List (Res Bytes) × BufSt
  | [] => ([], s)
  | op :: ops =>
    let (r, s') := s.step op
    let (rs, s'') := s'.exec ops
    (r :: rs, s'')

/-- A history of calls on a `StreamUnpacker`. -/
def StrSt.exec (s : StrSt) : List UOp → List (Res Bytes) × StrSt
  | [] => ([], s)
  | op :: ops =>
    let (r, s') := s.step op
    let (rs, s'') := s'.exec ops
    (r :: rs, s'')

/-! ### The struct cache -/

/-- A compiled `struct.Struct`: an object identity and its format. -/
structure StructObj where
  ident : Nat
  fmt : String
  deriving DecidableEq, Repr

/-- Interpreter state: next fresh object identity, and the caches (by cache name; the
module global `_struct_cache` is one of them). -/
structure CacheSt where
  next : Nat
  caches : String → PyDict String StructObj

/-- javatools/pack.py:55-69 `compile_struct(fmt, cache)`. `if not sfmt` can only be the
miss case because a `Struct` object is always true. -/
def compileStruct (fmt cache : String) (s : CacheSt) : StructObj × CacheSt :=
  match (s.caches cache).get? fmt with
  | some o => (o, s)
  | none =>
    let o : StructObj := ⟨s.next, fmt⟩
    (o, { next := s.next + 1,
          caches := fun c => if c = cache then (s.caches c).set fmt o else s.caches c })

/-- A history of `compile_struct` calls. -/
def compileAll (s : CacheSt) : List (String × String) → List StructObj × CacheSt
  | [] => ([], s)
  | (fmt, cache) :: calls =>
    let (o, s') := compileStruct fmt cache s
    let (os, s'') := compileAll s' calls
    (o :: os, s'')

end Javatools
