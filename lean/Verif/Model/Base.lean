/-
Base vocabulary shared by every model file: bytes, strings, Python exceptions
as values, and the (insertion ordered) Python dictionary.
-/
namespace Javatools

/-- Python 3 `bytes`. -/
abbrev Bytes := List UInt8

/-- Python 3 `str`, restricted to Unicode scalar values (every `str` the modelled
code builds comes from `bytes.decode`, which never produces surrogates). -/
abbrev Str := List Char

/-- The Python exceptions the modelled code can raise, as values. -/
inductive PyErr where
  /-- `UnpackException(fmt, wanted, present)`, javatools/pack.py:358-373 -/
  | unpack (fmt : Option String) (wanted present : Int)
  /-- `ClassUnpackException`, javatools/__init__.py:156-161 -/
  | classUnpack
  /-- `UnknownConstantPoolTagException`, javatools/__init__.py:164-169 -/
  | unknownTag
  /-- `Unimplemented`, javatools/__init__.py:146-153 -/
  | unimplemented
  | indexError
  | keyError
  | typeError
  | valueError
  | attributeError
  | assertionError
  | structError
  | recursionError
  | stopIteration
  | unicodeDecodeError
  /-- `MalformedManifest`, javatools/manifest.py -/
  | malformedManifest
  /-- `ManifestKeyException`, javatools/manifest.py -/
  | manifestKey
  /-- `UnsupportedDigest`, javatools/manifest.py -/
  | unsupportedDigest
  /-- any other exception, by class name -/
  | other (name : String)
  deriving DecidableEq, Repr

/-- Result of code that may raise. -/
abbrev Res (α : Type) := Except PyErr α

instance {ε α : Type} [DecidableEq ε] [DecidableEq α] : DecidableEq (Except ε α) := fun a b =>
  match a, b with
  | .ok x, .ok y => if h : x = y then isTrue (by rw [h]) else isFalse (by simpa using h)
  | .error x, .error y => if h : x = y then isTrue (by rw [h]) else isFalse (by simpa using h)
  | .ok _, .error _ => isFalse (by simp)
  | .error _, .ok _ => isFalse (by simp)

/-- A Python `dict` (insertion ordered, as guaranteed since Python 3.7), as the list
of its items. -/
abbrev PyDict (κ ν : Type) := List (κ × ν)

namespace PyDict
variable {κ ν : Type} [DecidableEq κ]

/-- `d.get(k)` -/
def get? (d : PyDict κ ν) (k : κ) : Option ν :=
  match d with
  | [] => none
  | (k', v) :: rest => if k' = k then some v else get? rest k

/-- `d[k] = v`: replaces in place or appends. -/
def set (d : PyDict κ ν) (k : κ) (v : ν) : PyDict κ ν :=
  match d with
  | [] => [(k, v)]
  | (k', v') :: rest => if k' = k then (k', v) :: rest else (k', v') :: set rest k v

/-- `del d[k]` / `d.pop(k, None)` (no effect when absent). -/
def del (d : PyDict κ ν) (k : κ) : PyDict κ ν :=
  match d with
  | [] => []
  | (k', v') :: rest => if k' = k then rest else (k', v') :: del rest k

/-- `list(d.keys())` -/
def keys (d : PyDict κ ν) : List κ := d.map Prod.fst

/-- A dict built by successive assignments from a sequence of pairs. -/
def ofPairs (ps : List (κ × ν)) : PyDict κ ν := ps.foldl (fun d p => set d p.1 p.2) []

end PyDict
end Javatools
