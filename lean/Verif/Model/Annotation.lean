import Verif.Model.ClassFile
/-
Model of the annotation reader and annotation equality of javatools/__init__.py (:1908-2048,
:714-730, :1266-1290).

Simplifications: the Python recursion limit is the `depth` argument (nesting of element
values) of the reader, and does not apply to the comparison; a `JavaAnnotation` is its type
index together with its dict of elements (`cpool` is an argument of every function);
dictionary keys are compared structurally (they are the texts of Utf8 constants).
-/
namespace Javatools

/-! ### Python `==` on constant values -/

/-- The integer `±m` -/
def signedNat (neg : Bool) (m : Nat) : Int := if neg then -(m : Int) else (m : Int)

/-- Python `==` of two numbers `±m·2^e` (int/int, int/float and float/float comparisons are
exact in CPython). -/
def eqScaled (n₁ : Int) (e₁ : Int) (n₂ : Int) (e₂ : Int) : Bool :=
  decide (n₁ * (2 ^ (e₁ - min e₁ e₂).toNat : Nat) = n₂ * (2 ^ (e₂ - min e₁ e₂).toNat : Nat))

/-- Python `==` of two floats -/
def pyEqFloat : PyFloat → PyFloat → Bool
  | .inf a, .inf b => a == b
  | .fin n m e, .fin n' m' e' => eqScaled (signedNat n m) e (signedNat n' m') e'
  | _, _ => false

/-- Python `==` on the values `deref_const` returns -/
def pyEq : PVal → PVal → Bool
  | .str a, .str b => decide (a = b)
  | .int a, .int b => decide (a = b)
  | .flt a, .flt b => pyEqFloat a b
  | .int a, .flt (.fin n m e) => eqScaled a 0 (signedNat n m) e
  | .flt (.fin n m e), .int a => eqScaled (signedNat n m) e a 0
  | .pair a b, .pair a' b' => pyEq a a' && pyEq b b'
  | _, _ => false

/-! ### Element values -/

/-- An element value `(tag, data)`; `anno` is a `JavaAnnotation`. -/
inductive AVal where
  | const (tag : Nat) (i : Nat)
  | enum (a b : Nat)
  | anno (typeRef : Nat) (elems : List (PVal × AVal))
  | arr (vs : List AVal)

/-- The tags `BCDFIJSZs` and `c`, javatools/__init__.py:2026, 2032 -/
def constTags : List Nat := ['B', 'C', 'D', 'F', 'I', 'J', 'S', 'Z', 's', 'c'].map Char.toNat

/-- javatools/__init__.py:1924-1931, the loop of `JavaAnnotation.unpack`: one element (the
value is read before the key is dereferenced). -/
def unpackElem (pool : Pool) (lim : Nat) (val : Prog AVal) : Prog (PVal × AVal) :=
  u2.bind fun k => val.bind fun v => (Prog.lift (deref pool lim k)).bind fun key => .ret (key, v)

/-- javatools/__init__.py:1921-1931 `JavaAnnotation.unpack` -/
def unpackAnnoWith (pool : Pool) (lim : Nat) (val : Prog AVal) : Prog AVal :=
  u2u2.bind fun h => (Prog.times h.2 (unpackElem pool lim val)).bind fun ps =>
    .ret (.anno h.1 (PyDict.ofPairs ps))

/-- javatools/__init__.py:2018-2048 `_unpack_annotation_val` -/
def unpackVal (pool : Pool) (lim : Nat) : Nat → Prog AVal
  | 0 => .fail .recursionError
  | depth + 1 => u1.bind fun t =>
    if t ∈ constTags then u2.bind fun i => .ret (.const t i)
    else if t = 'e'.toNat then u2u2.bind fun p => .ret (.enum p.1 p.2)
    else if t = '@'.toNat then unpackAnnoWith pool lim (unpackVal pool lim depth)
    else if t = '['.toNat then (counted (unpackVal pool lim depth)).bind fun vs => .ret (.arr vs)
    else .fail .unimplemented

/-- `JavaAnnotation.unpack` -/
def unpackAnno (pool : Pool) (lim depth : Nat) : Prog AVal :=
  unpackAnnoWith pool lim (unpackVal pool lim depth)

/-- `up.unpack_objects(JavaAnnotation, cpool)` -/
def unpackAnnos (pool : Pool) (lim depth : Nat) : Prog (List AVal) :=
  counted (unpackAnno pool lim depth)

/-- javatools/__init__.py:714-754, 1266-1314 `_get_annotations`, `get_annotations`,
`get_invisible_annotations` (first call; for the cache see Model/Accessors). -/
def getAnnotations (a : Attribs) (pool : Pool) (lim depth : Nat) (attr : String) :
    Res (List AVal) :=
  match getAttribute a attr with
  | none => .ok []
  | some buf => (unpackAnnos pool lim depth).run buf

/-- javatools/__init__.py:1266-1290 with `for_params=True`: one list per parameter. -/
def getParamAnnotations (a : Attribs) (pool : Pool) (lim depth : Nat) (attr : String) :
    Res (List (List AVal)) :=
  match getAttribute a attr with
  | none => .ok []
  | some buf => (u1.bind fun n => Prog.times n (unpackAnnos pool lim depth)).run buf

/-! ### Equality -/

/-- `d1.keys() != d2.keys()` is false: equal as sets (CPython: same length, and every key of
the first is in the second). -/
def sameKeys (a b : List PVal) : Bool :=
  decide (a.length = b.length) && a.all fun k => decide (k ∈ b)

/-- `lconst(i) == rconst(j)` -/
def constEq (lp rp : Pool) (lim i j : Nat) : Res Bool := do
  let x ← deref lp lim i
  let y ← deref rp lim j
  .ok (pyEq x y)

section
variable (lp rp : Pool) (lim : Nat)

mutual
/-- javatools/__init__.py:1983-2015 `_annotation_val_eq`, and for two annotations :1954-1974
`JavaAnnotation.__eq__` -/
def valEq : AVal → AVal → Res Bool
  | .const t i, .const t' j => if t ≠ t' then .ok false else constEq lp rp lim i j
  | .enum a b, .enum a' b' => do
    if ← constEq lp rp lim a a' then constEq lp rp lim b b' else .ok false
  | .anno t es, .anno t' es' => do
    if ← constEq lp rp lim t t' then
      if sameKeys (PyDict.keys es) (PyDict.keys es') then elemsEq es es' else .ok false
    else .ok false
  | .arr vs, .arr ws => if vs.length ≠ ws.length then .ok false else arrEq vs ws
  | _, _ => .ok false
/-- The loop javatools/__init__.py:1969-1973 -/
def elemsEq : List (PVal × AVal) → List (PVal × AVal) → Res Bool
  | [], _ => .ok true
  | (k, v) :: rest, other =>
    match PyDict.get? other k with
    | none => .error .keyError
    | some w => do
      if ← valEq v w then elemsEq rest other else .ok false
/-- The loop javatools/__init__.py:2009-2015 -/
def arrEq : List AVal → List AVal → Res Bool
  | v :: vs, w :: ws => do
    if ← valEq v w then arrEq vs ws else .ok false
  | _, _ => .ok true
end

end

end Javatools
