import Verif.Spec.Binary
import Verif.Spec.PoolTypes
import Verif.Model.Annotation
/-
Specification of annotations: the element_value structure and its encoding (JVMS 4.7.16), the
value the reader should produce, and what it means for two annotations to say the same thing.
-/
namespace Javatools.Spec
open Javatools

/-- `element_value` (JVMS 4.7.16.1). -/
inductive ElemValue where
  | const (tag : Nat) (i : Nat)
  | enum (typeName constName : Nat)
  | anno (type : Nat) (pairs : List (Nat × ElemValue))
  | arr (vs : List ElemValue)

/-- Tags of constant and class values (JVMS table 4.7.16.1-A): B C D F I J S Z s c. -/
def valueTags : List Nat := [66, 67, 68, 70, 73, 74, 83, 90, 115, 99]

mutual
def ElemValue.enc : ElemValue → Bytes
  | .const t i => be 1 t ++ be 2 i
  | .enum a b => be 1 101 ++ (be 2 a ++ be 2 b)
  | .anno t ps => be 1 64 ++ ((be 2 t ++ be 2 ps.length) ++ encPairs ps)
  | .arr vs => be 1 91 ++ (be 2 vs.length ++ encVals vs)
def encPairs : List (Nat × ElemValue) → Bytes
  | [] => []
  | (k, v) :: ps => (be 2 k ++ v.enc) ++ encPairs ps
def encVals : List ElemValue → Bytes
  | [] => []
  | v :: vs => v.enc ++ encVals vs
end

/-- `annotation` (JVMS 4.7.16) -/
def encAnno (type : Nat) (pairs : List (Nat × ElemValue)) : Bytes :=
  (be 2 type ++ be 2 pairs.length) ++ encPairs pairs

mutual
/-- Nesting depth. -/
def ElemValue.depth : ElemValue → Nat
  | .const _ _ => 1
  | .enum _ _ => 1
  | .anno _ ps => depthPairs ps + 1
  | .arr vs => depthVals vs + 1
def depthPairs : List (Nat × ElemValue) → Nat
  | [] => 0
  | (_, v) :: ps => max v.depth (depthPairs ps)
def depthVals : List ElemValue → Nat
  | [] => 0
  | v :: vs => max v.depth (depthVals vs)
end

mutual
/-- Numbers fit, element names are Utf8 constants, and no annotation repeats an element name. -/
def ElemValue.Valid (pool : Pool) (name : Nat → Str) : ElemValue → Prop
  | .const t i => t ∈ valueTags ∧ i < 65536
  | .enum a b => a < 65536 ∧ b < 65536
  | .anno t ps => t < 65536 ∧ ps.length < 65536 ∧ (ps.map fun p => name p.1).Nodup ∧
      ValidPairs pool name ps
  | .arr vs => vs.length < 65536 ∧ ValidVals pool name vs
def ValidPairs (pool : Pool) (name : Nat → Str) : List (Nat × ElemValue) → Prop
  | [] => True
  | (k, v) :: ps => (k < 65536 ∧ Utf8At pool k (name k) ∧ v.Valid pool name) ∧
      ValidPairs pool name ps
def ValidVals (pool : Pool) (name : Nat → Str) : List ElemValue → Prop
  | [] => True
  | v :: vs => v.Valid pool name ∧ ValidVals pool name vs
end

mutual
/-- The object the reader should produce: the same structure, elements keyed by name. -/
def ElemValue.object (name : Nat → Str) : ElemValue → AVal
  | .const t i => .const t i
  | .enum a b => .enum a b
  | .anno t ps => .anno t (objectPairs name ps)
  | .arr vs => .arr (objectVals name vs)
def objectPairs (name : Nat → Str) : List (Nat × ElemValue) → List (PVal × AVal)
  | [] => []
  | (k, v) :: ps => (.str (name k), v.object name) :: objectPairs name ps
def objectVals (name : Nat → Str) : List ElemValue → List AVal
  | [] => []
  | v :: vs => v.object name :: objectVals name vs
end

/-! ### Meaning -/

/-- An element value with every constant pool index replaced by what it stands for. -/
inductive Sem where
  | const (tag : Nat) (v : PVal)
  | enum (a b : PVal)
  | anno (type : PVal) (elems : List (PVal × Sem))
  | arr (vs : List Sem)

/-- `Means pool lim v s`: in that constant pool, `v` stands for `s`. -/
inductive Means (pool : Pool) (lim : Nat) : AVal → Sem → Prop where
  | const {t i x} : deref pool lim i = .ok x → Means pool lim (.const t i) (.const t x)
  | enum {a b x y} : deref pool lim a = .ok x → deref pool lim b = .ok y →
      Means pool lim (.enum a b) (.enum x y)
  | anno {t es x fs} : deref pool lim t = .ok x → PyDict.keys es = PyDict.keys fs →
      (PyDict.keys es).Nodup →
      (∀ (i : Nat) p q, es[i]? = some p → fs[i]? = some q → Means pool lim p.2 q.2) →
      Means pool lim (.anno t es) (.anno x fs)
  | arr {vs ss} : vs.length = ss.length →
      (∀ (i : Nat) v s, vs[i]? = some v → ss[i]? = some s → Means pool lim v s) →
      Means pool lim (.arr vs) (.arr ss)

/-- Two meanings are the same: same tags, equal constants, same element names with the same
values whatever their order, arrays element by element. -/
inductive Same : Sem → Sem → Prop where
  | const {t x y} : pyEq x y = true → Same (.const t x) (.const t y)
  | enum {a b a' b'} : pyEq a a' = true → pyEq b b' = true → Same (.enum a b) (.enum a' b')
  | anno {x y es fs} : pyEq x y = true →
      (∀ k, k ∈ PyDict.keys es ↔ k ∈ PyDict.keys fs) →
      (∀ k v w, (k, v) ∈ es → (k, w) ∈ fs → Same v w) → Same (.anno x es) (.anno y fs)
  | arr {vs ws} : vs.length = ws.length →
      (∀ (i : Nat) v w, vs[i]? = some v → ws[i]? = some w → Same v w) → Same (.arr vs) (.arr ws)

/-- No not-a-number constant in it. -/
def NoNaN : PVal → Prop
  | .flt .nan => False
  | .pair a b => NoNaN a ∧ NoNaN b
  | _ => True

inductive Sem.Ordinary : Sem → Prop where
  | const {t x} : NoNaN x → Ordinary (.const t x)
  | enum {a b} : NoNaN a → NoNaN b → Ordinary (.enum a b)
  | anno {x es} : NoNaN x → (PyDict.keys es).Nodup → (∀ p ∈ es, Ordinary p.2) →
      Ordinary (.anno x es)
  | arr {vs} : (∀ v ∈ vs, Ordinary v) → Ordinary (.arr vs)

end Javatools.Spec
