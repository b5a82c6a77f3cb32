import Verif.Props.Attrs
import Verif.Props.AnnotationExact
import Verif.Props.OpTable
import Verif.Props.Opcodes
import Verif.Props.ClassDiff
/-
C40: renumbering the constant pool is only a pool change.

The relations below say, independently of the comparison, what it means for two classes to have
the same members, code and metadata up to constant pool indices: everything is equal except that
where one class has an index `i` the other has an index `j` with `R i j`.
-/
namespace Javatools
open Spec Change

/-! ## Specification -/

/-- Two lists of the same length, related element by element. -/
inductive Paired {α β : Type} (P : α → β → Prop) : List α → List β → Prop where
  | nil : Paired P [] []
  | cons {x y xs ys} : P x y → Paired P xs ys → Paired P (x :: xs) (y :: ys)

/-- An attribute missing on both sides, or present on both with related contents. -/
def OptRel {α : Type} (P : α → α → Prop) : Option α → Option α → Prop
  | none, none => True
  | some a, some b => P a b
  | _, _ => False

section
variable (R S : Nat → Nat → Prop)

/-- Contents starting with an index (Signature, ConstantValue). -/
def IndexRel (b b' : Bytes) : Prop :=
  ∃ i j rest rest', i < 65536 ∧ j < 65536 ∧ b = be 2 i ++ rest ∧ b' = be 2 j ++ rest' ∧ R i j

/-- Contents starting with a table of indices (Exceptions). -/
def IndexTableRel (b b' : Bytes) : Prop :=
  ∃ is js rest rest', is.length < 65536 ∧ js.length < 65536 ∧ (∀ i ∈ is, i < 65536) ∧
    (∀ j ∈ js, j < 65536) ∧ b = (be 2 is.length ++ is.flatMap (be 2)) ++ rest ∧
    b' = (be 2 js.length ++ js.flatMap (be 2)) ++ rest' ∧ Paired R is js

/-- Element values differing only in indices. -/
inductive ElemRel : ElemValue → ElemValue → Prop where
  | const {t i j} : R i j → ElemRel (.const t i) (.const t j)
  | enum {a b a' b'} : R a a' → R b b' → ElemRel (.enum a b) (.enum a' b')
  | anno {t t' ps qs} : R t t' → ps.length = qs.length →
      (∀ (n : Nat) p q, ps[n]? = some p → qs[n]? = some q → R p.1 q.1) →
      (∀ (n : Nat) p q, ps[n]? = some p → qs[n]? = some q → ElemRel p.2 q.2) →
      ElemRel (.anno t ps) (.anno t' qs)
  | arr {vs ws} : vs.length = ws.length →
      (∀ (n : Nat) v w, vs[n]? = some v → ws[n]? = some w → ElemRel v w) →
      ElemRel (.arr vs) (.arr ws)

/-- Contents starting with readable annotations that differ only in indices. -/
def AnnosRel (lp rp : Pool) (lim depth : Nat) (b b' : Bytes) : Prop :=
  ∃ (as as' : List AnnoS) (rest rest' : Bytes),
    b = (be 2 as.length ++ as.flatMap fun a => encAnno a.type a.pairs) ++ rest ∧
    b' = (be 2 as'.length ++ as'.flatMap fun a => encAnno a.type a.pairs) ++ rest' ∧
    as.length < 65536 ∧
    (∀ a ∈ as, a.value.Readable lp lim ∧ a.value.depth ≤ depth + 1) ∧
    (∀ a ∈ as', a.value.Readable rp lim ∧ a.value.depth ≤ depth + 1) ∧
    Paired (fun a a' => ElemRel R a.value a'.value) as as'

/-- The first operand of the opcode is a constant pool index (JVMS chapter 6). -/
def PoolFirst (op : Nat) : Prop := ∃ o os, operands op = some (o :: os) ∧ o.isPool = true

/-- Instructions differing only in the constant pool index; `S` is what is asked of the index
of a multianewarray, `R` of all others. -/
inductive InstrRel : Instr → Instr → Prop where
  | same (i : Instr) : (∀ op args, i = .fixed op args → ¬ PoolFirst op) → InstrRel i i
  | pool {op : Nat} {i j : Nat} {rest : List Int} : PoolFirst op → op ≠ 0xc5 → R i j →
      InstrRel (.fixed op (i :: rest)) (.fixed op (j :: rest))
  | multi {i j : Nat} {rest : List Int} : S i j →
      InstrRel (.fixed 0xc5 (i :: rest)) (.fixed 0xc5 (j :: rest))

/-- Exception handlers differing only in the index of the caught class (0: any). -/
def HandlerRel (a b : ExcInfo) : Prop :=
  a.startPc = b.startPc ∧ a.endPc = b.endPc ∧ a.handlerPc = b.handlerPc ∧
  ((a.catchRef = 0 ∧ b.catchRef = 0) ∨ (a.catchRef ≠ 0 ∧ b.catchRef ≠ 0 ∧ R a.catchRef b.catchRef))

/-- Code attributes differing only in indices. -/
def CodeRel (lp rp : Pool) (lim : Nat) (b b' : Bytes) : Prop :=
  ∃ (c c' : CodeS) (rest rest' : Bytes) (is is' : List Instr),
    b = c.enc ++ rest ∧ b' = c'.enc ++ rest' ∧ c.Fits lp lim ∧ c'.Fits rp lim ∧
    c.maxStack = c'.maxStack ∧ c.maxLocals = c'.maxLocals ∧
    Paired (HandlerRel R) c.handlers c'.handlers ∧
    getAttribute (attribsAt lp lim c.attrs) "LineNumberTable" =
      getAttribute (attribsAt rp lim c'.attrs) "LineNumberTable" ∧
    c.code = encCode 0 is ∧ c'.code = encCode 0 is' ∧
    (∀ i ∈ is, i.Valid) ∧ (∀ i ∈ is', i.Valid) ∧ Paired (InstrRel R S) is is'

/-- Attributes differing only in indices. (Attributes not named here are not compared by
`JavaClassChange` and may be anything.) -/
structure AttrsRel (lp rp : Pool) (lim depth : Nat) (a b : Attribs) : Prop where
  signature : OptRel (IndexRel R) (getAttribute a "Signature") (getAttribute b "Signature")
  constant : OptRel (IndexRel R) (getAttribute a "ConstantValue") (getAttribute b "ConstantValue")
  exceptions : OptRel (IndexTableRel R) (getAttribute a "Exceptions") (getAttribute b "Exceptions")
  visible : OptRel (AnnosRel R lp rp lim depth) (getAttribute a "RuntimeVisibleAnnotations")
    (getAttribute b "RuntimeVisibleAnnotations")
  invisible : OptRel (AnnosRel R lp rp lim depth) (getAttribute a "RuntimeInvisibleAnnotations")
    (getAttribute b "RuntimeInvisibleAnnotations")
  deprecated : getAttribute a "Deprecated" = getAttribute b "Deprecated"
  code : OptRel (CodeRel R S lp rp lim) (getAttribute a "Code") (getAttribute b "Code")

structure MemberRel (lp rp : Pool) (lim depth : Nat) (a b : Member) : Prop where
  access : a.access = b.access
  kind : a.isMethod = b.isMethod
  name : R a.nameRef b.nameRef
  desc : R a.descRef b.descRef
  attrs : AttrsRel R S lp rp lim depth a.attribs b.attribs

/-- Classes differing only in constant pool indices. -/
structure ClassRel (lim depth : Nat) (l r : ClassInfo) : Prop where
  version : l.version = r.version
  access : l.access = r.access
  this : R l.thisRef r.thisRef
  super : (l.superRef = 0 ∧ r.superRef = 0) ∨
    (l.superRef ≠ 0 ∧ r.superRef ≠ 0 ∧ R l.superRef r.superRef)
  interfaces : Paired R l.interfaces r.interfaces
  fields : Paired (MemberRel R S l.pool r.pool lim depth) l.fields r.fields
  methods : Paired (MemberRel R S l.pool r.pool lim depth) l.methods r.methods
  attrs : AttrsRel R S l.pool r.pool lim depth l.attribs r.attribs
end

/-- A constant with its indices renumbered; indices into the bootstrap method table and
reference kinds are not constant pool indices. -/
def Const.renumber (σ : Nat → Nat) : Const → Const
  | .cls n => .cls (σ n)
  | .string n => .string (σ n)
  | .fieldref a b => .fieldref (σ a) (σ b)
  | .methodref a b => .methodref (σ a) (σ b)
  | .ifaceMethodref a b => .ifaceMethodref (σ a) (σ b)
  | .nameAndType a b => .nameAndType (σ a) (σ b)
  | .moduleId a b => .moduleId (σ a) (σ b)
  | .methodHandle k i => .methodHandle k (σ i)
  | .methodType n => .methodType (σ n)
  | .dynamic a b => .dynamic a (σ b)
  | .invokeDynamic a b => .invokeDynamic a (σ b)
  | .module n => .module (σ n)
  | .package n => .package (σ n)
  | c => c

/-- The right pool is the left one with constant `i` moved to `σ i`: a permutation, or a copy
that also drops unused constants, merges equal ones or adds others. -/
def RenumbersPool (σ : Nat → Nat) (lp rp : Pool) : Prop :=
  (∀ i, i ≠ 0 → σ i ≠ 0) ∧
  ∀ i c, lp[i]? = some (some c) → rp[σ i]? = some (some (c.renumber σ))

/-- Index `i` holds a constant of the left pool that can be looked up, and `j` is its new
number. -/
def Moved (σ : Nat → Nat) (lp : Pool) (lim : Nat) (i j : Nat) : Prop :=
  j = σ i ∧ ∃ v, deref lp lim i = .ok v

/-- Both indices can be looked up and stand for the same value. -/
def SameAt (lp rp : Pool) (lim : Nat) (i j : Nat) : Prop :=
  ∃ v, deref lp lim i = .ok v ∧ deref rp lim j = .ok v

/-! ## Proofs -/

theorem deref_renumber {σ : Nat → Nat} {lp rp : Pool} (h : RenumbersPool σ lp rp) (lim : Nat)
    (i : Nat) (v : PVal) (hd : deref lp lim i = .ok v) : deref rp lim (σ i) = .ok v := by
  induction lim generalizing i v with
  | zero => simp [deref] at hd
  | succ lim ih =>
    simp only [deref] at hd ⊢
    by_cases h0 : i = 0
    · simp [h0] at hd
    · rw [if_neg h0] at hd
      rw [if_neg (h.1 i h0)]
      cases hp : lp[i]? with
      | none => simp [hp] at hd
      | some s =>
        cases s with
        | none => simp [hp] at hd
        | some c =>
          simp only [h.2 i c hp]
          simp only [hp] at hd
          have two : ∀ a b : Nat, (do
              let x ← deref lp lim a
              let y ← deref lp lim b
              Except.ok (PVal.pair x y) : Res PVal) = .ok v → (do
              let x ← deref rp lim (σ a)
              let y ← deref rp lim (σ b)
              Except.ok (PVal.pair x y) : Res PVal) = .ok v := by
            intro a b hab
            cases ha : deref lp lim a with
            | error e => simp [ha, bind, Except.bind] at hab
            | ok x =>
              cases hb : deref lp lim b with
              | error e => simp [ha, hb, bind, Except.bind] at hab
              | ok y =>
                simp only [ha, hb, bind, Except.bind] at hab
                simp only [ih a x ha, ih b y hb, bind, Except.bind]
                exact hab
          have one : ∀ a b : Nat, (do
              let y ← deref lp lim b
              Except.ok (PVal.pair (.int a) y) : Res PVal) = .ok v → (do
              let y ← deref rp lim (σ b)
              Except.ok (PVal.pair (.int a) y) : Res PVal) = .ok v := by
            intro a b hab
            cases hb : deref lp lim b with
            | error e => simp [hb, bind, Except.bind] at hab
            | ok y =>
              simp only [hb, bind, Except.bind] at hab
              simp only [ih b y hb, bind, Except.bind]
              exact hab
          cases c <;> simp only [Const.renumber] at hd ⊢ <;>
            first
              | exact hd
              | exact ih _ _ hd
              | exact two _ _ hd
              | exact one _ _ hd

theorem Moved.same {σ : Nat → Nat} {lp rp : Pool} (h : RenumbersPool σ lp rp) {lim i j : Nat}
    (hm : Moved σ lp lim i j) : SameAt lp rp lim i j := by
  obtain ⟨rfl, v, hv⟩ := hm
  exact ⟨v, hv, deref_renumber h lim i v hv⟩

theorem Paired.length {α β : Type} {P : α → β → Prop} {xs : List α} {ys : List β}
    (h : Paired P xs ys) : xs.length = ys.length := by
  induction h with
  | nil => rfl
  | cons _ _ ih => simp [ih]

theorem Paired.imp {α β : Type} {P Q : α → β → Prop} {xs : List α} {ys : List β}
    (h : Paired P xs ys) (hpq : ∀ x y, P x y → Q x y) : Paired Q xs ys := by
  induction h with
  | nil => exact .nil
  | cons h _ ih => exact .cons (hpq _ _ h) ih

theorem Paired.of_mem {α β : Type} {P : α → β → Prop} {xs : List α} {ys : List β}
    (h : Paired P xs ys) : ∀ y ∈ ys, ∃ x ∈ xs, P x y := by
  induction h with
  | nil => simp
  | cons h _ ih =>
    intro y hy
    rcases List.mem_cons.1 hy with rfl | hy
    · exact ⟨_, by simp, h⟩
    · obtain ⟨x, hx, hp⟩ := ih y hy
      exact ⟨x, by simp [hx], hp⟩

theorem Paired.mem_left {α β : Type} {P : α → β → Prop} {xs : List α} {ys : List β}
    (h : Paired P xs ys) : ∀ x ∈ xs, ∃ y ∈ ys, P x y := by
  induction h with
  | nil => simp
  | cons h _ ih =>
    intro x hx
    rcases List.mem_cons.1 hx with rfl | hx
    · exact ⟨_, by simp, h⟩
    · obtain ⟨y, hy, hp⟩ := ih x hx
      exact ⟨y, by simp [hy], hp⟩

theorem Paired.map_eq {α β γ : Type} {P : α → β → Prop} {xs : List α} {ys : List β}
    {f : α → γ} {g : β → γ} (h : Paired P xs ys) (hfg : ∀ x y, P x y → f x = g y) :
    xs.map f = ys.map g := by
  induction h with
  | nil => rfl
  | cons h _ ih => simp [hfg _ _ h, ih]

theorem leaf_calm {α : Type} {eq : α → α → Bool} {x y : Res α} {name label : String}
    {ign : IgnoreRule Opts} {l r : Res Str} {v : α} (hx : x = .ok v) (hy : y = .ok v)
    (he : eq v v = true) : Calm (genericLeaf name label ign (differs eq x y) l r) :=
  genericLeaf_calm.2 (differs_false.2 ⟨v, v, hx, hy, he⟩)

section
variable {lp rp : Pool} {lim : Nat}

theorem constEq_same (hp : NaNFree lp) {i j : Nat} (h : SameAt lp rp lim i j) :
    constEq lp rp lim i j = .ok true := by
  obtain ⟨v, h1, h2⟩ := h
  simp [constEq, h1, h2, bind, Except.bind, pyEq_refl v (deref_noNaN hp h1)]

/-! ### Annotations -/

theorem ofPairs_rel {κ α β : Type} [DecidableEq κ] {P : α → β → Prop} (ps : List (κ × α))
    (qs : List (κ × β)) (h : Paired (fun p q => p.1 = q.1 ∧ P p.2 q.2) ps qs) :
    ∀ (d : PyDict κ α) (d' : PyDict κ β), d.keys = d'.keys →
      (∀ k x, d.get? k = some x → ∃ y, d'.get? k = some y ∧ P x y) →
      let e := ps.foldl (fun d p => PyDict.set d p.1 p.2) d
      let e' := qs.foldl (fun d p => PyDict.set d p.1 p.2) d'
      e.keys = e'.keys ∧ ∀ k x, e.get? k = some x → ∃ y, e'.get? k = some y ∧ P x y := by
  induction h with
  | nil => exact fun d d' h1 h2 => ⟨h1, h2⟩
  | @cons p q ps qs hpq _ ih =>
    intro d d' h1 h2
    refine ih _ _ ?_ ?_
    · rw [PyDict.keys_set, PyDict.keys_set, h1, hpq.1]
    · intro k x hx
      rw [PyDict.get?_set] at hx ⊢
      rw [← hpq.1]
      by_cases hk : p.1 = k
      · simp only [hk, if_true, Option.some.injEq] at hx ⊢
        exact ⟨_, rfl, hx ▸ hpq.2⟩
      · simp only [hk, if_false] at hx ⊢
        exact h2 k x hx

theorem elemsEq_true (es : List (PVal × AVal)) (fs : List (PVal × AVal))
    (h : ∀ p ∈ es, ∃ w, PyDict.get? fs p.1 = some w ∧ valEq lp rp lim p.2 w = .ok true) :
    elemsEq lp rp lim es fs = .ok true := by
  induction es with
  | nil => simp [elemsEq]
  | cons p es ih =>
    obtain ⟨k, v⟩ := p
    obtain ⟨w, h1, h2⟩ := h (k, v) (by simp)
    simp only at h1 h2
    simp [elemsEq, h1, h2, bind, Except.bind, ih fun q hq => h q (by simp [hq])]

theorem arrEq_true (vs ws : List AVal) (h : Paired (fun v w => valEq lp rp lim v w = .ok true) vs ws) :
    arrEq lp rp lim vs ws = .ok true := by
  induction h with
  | nil => simp [arrEq]
  | cons h _ ih => simp [arrEq, h, ih, bind, Except.bind]

theorem Paired.of_index {α β : Type} {P : α → β → Prop} : ∀ {xs : List α} {ys : List β},
    xs.length = ys.length → (∀ (n : Nat) x y, xs[n]? = some x → ys[n]? = some y → P x y) →
    Paired P xs ys
  | [], [], _, _ => .nil
  | x :: xs, y :: ys, hl, h =>
    .cons (h 0 x y rfl rfl) (Paired.of_index (by simpa using hl) fun n a b ha hb =>
      h (n + 1) a b (by simpa using ha) (by simpa using hb))
  | [], _ :: _, hl, _ => by simp at hl
  | _ :: _, [], hl, _ => by simp at hl

theorem Paired.map {α β γ δ : Type} {P : α → β → Prop} {Q : γ → δ → Prop} {f : α → γ} {g : β → δ}
    {xs : List α} {ys : List β} (h : Paired P xs ys) (hpq : ∀ x y, P x y → Q (f x) (g y)) :
    Paired Q (xs.map f) (ys.map g) := by
  induction h with
  | nil => exact .nil
  | cons h _ ih => exact .cons (hpq _ _ h) ih

theorem valEq_rel (hp : NaNFree lp) {v w : ElemValue} (h : ElemRel (SameAt lp rp lim) v w) :
    valEq lp rp lim (v.read lp lim) (w.read rp lim) = .ok true := by
  induction h with
  | const h => simp [ElemValue.read, valEq, constEq_same hp h]
  | enum h1 h2 =>
    simp [ElemValue.read, valEq, constEq_same hp h1, constEq_same hp h2, bind, Except.bind]
  | @anno t t' ps qs h1 hl hk _ ih =>
    have hpair : Paired (fun p q : PVal × AVal => p.1 = q.1 ∧ valEq lp rp lim p.2 q.2 = .ok true)
        (readPairs lp lim ps) (readPairs rp lim qs) := by
      rw [readPairs_eq, readPairs_eq]
      have hi : Paired (fun p q : Nat × ElemValue => SameAt lp rp lim p.1 q.1 ∧
          valEq lp rp lim (p.2.read lp lim) (q.2.read rp lim) = .ok true) ps qs :=
        Paired.of_index hl fun n p q ha hb => ⟨hk n p q ha hb, ih n p q ha hb⟩
      refine hi.map fun p q hpq => ⟨?_, hpq.2⟩
      obtain ⟨x, e1, e2⟩ := hpq.1
      simp only [keyAt_of e1, keyAt_of e2]
    obtain ⟨hkeys, hget⟩ := ofPairs_rel (P := fun x y => valEq lp rp lim x y = .ok true)
      _ _ hpair [] [] rfl (by simp [PyDict.get?])
    have hs : sameKeys (PyDict.keys (PyDict.ofPairs (readPairs lp lim ps)))
        (PyDict.keys (PyDict.ofPairs (readPairs rp lim qs))) = true := by
      have : PyDict.keys (PyDict.ofPairs (readPairs lp lim ps)) =
        PyDict.keys (PyDict.ofPairs (readPairs rp lim qs)) := hkeys
      rw [this]
      simp [sameKeys]
    have he : elemsEq lp rp lim (PyDict.ofPairs (readPairs lp lim ps))
        (PyDict.ofPairs (readPairs rp lim qs)) = .ok true := by
      refine elemsEq_true _ _ fun p hpm => ?_
      exact hget p.1 p.2 (PyDict.get?_of_mem_nodup (PyDict.nodup_keys_ofPairs _) hpm)
    simp [ElemValue.read, valEq, constEq_same hp h1, bind, Except.bind, hs, he]
  | @arr vs ws hl _ ih =>
    have : arrEq lp rp lim (readVals lp lim vs) (readVals rp lim ws) = .ok true := by
      refine arrEq_true _ _ ?_
      rw [readVals_eq, readVals_eq]
      exact (Paired.of_index hl fun n v w ha hb => ih n v w ha hb).map fun _ _ h => h
    simp [ElemValue.read, valEq, readVals_eq, hl] at this ⊢
    exact this

theorem annos_calm {name label : String} {ign : IgnoreRule Opts} {l r : Res Str}
    (hp : NaNFree lp) {a b : Attribs} {depth : Nat} {attr : String}
    (h : OptRel (AnnosRel (SameAt lp rp lim) lp rp lim depth) (getAttribute a attr)
      (getAttribute b attr)) :
    Calm (genericLeaf name label ign (annosDiffer lp rp lim (getAnnotations a lp lim depth attr)
      (getAnnotations b rp lim depth attr)) l r) := by
  refine genericLeaf_calm.2 ?_
  cases ha : getAttribute a attr with
  | none =>
    cases hb : getAttribute b attr with
    | none => simp [getAnnotations, ha, hb, annosDiffer, arrEq, Except.map]
    | some y => simp [OptRel, ha, hb] at h
  | some x =>
    cases hb : getAttribute b attr with
    | none => simp [OptRel, ha, hb] at h
    | some y =>
      simp only [OptRel, ha, hb] at h
      obtain ⟨as, as', rest, rest', rfl, rfl, hl, h1, h2, hpair⟩ := h
      have e1 := (C17_annotations_exactly a lp lim depth attr _).2 (.inr ⟨as, rest, ha, hl, h1, rfl⟩)
      have e2 := (C17_annotations_exactly b rp lim depth attr _).2
        (.inr ⟨as', rest', hb, by rw [← hpair.length]; exact hl, h2, rfl⟩)
      have h3 : arrEq lp rp lim (as.map fun a => a.value.read lp lim)
          (as'.map fun a => a.value.read rp lim) = .ok true :=
        arrEq_true _ _ (hpair.map fun _ _ h => valEq_rel hp h)
      simp only [annosDiffer, e1, e2, List.length_map, hpair.length, ne_eq, not_true_eq_false,
        if_false, h3, Except.map, Bool.not_true]

/-! ### Single indices and tables -/

theorem derefAttr_rel {a b : Attribs} {name : String}
    (h : OptRel (IndexRel (SameAt lp rp lim)) (getAttribute a name) (getAttribute b name)) :
    ∃ v, derefAttr a lp lim name = .ok v ∧ derefAttr b rp lim name = .ok v := by
  unfold derefAttr
  cases ha : getAttribute a name with
  | none =>
    cases hb : getAttribute b name with
    | none => exact ⟨none, rfl, rfl⟩
    | some y => simp [OptRel, ha, hb] at h
  | some x =>
    cases hb : getAttribute b name with
    | none => simp [OptRel, ha, hb] at h
    | some y =>
      simp only [OptRel, ha, hb] at h
      obtain ⟨i, j, rest, rest', hi, hj, rfl, rfl, v, e1, e2⟩ := h
      refine ⟨some v, ?_, ?_⟩
      · simp [(u2_run_iff _ i).2 ⟨rest, hi, rfl⟩, e1, bind, Except.bind]
      · simp [(u2_run_iff _ j).2 ⟨rest', hj, rfl⟩, e2, bind, Except.bind]

theorem constant_rel {a b : Member} (h : OptRel (IndexRel (SameAt lp rp lim))
      (getAttribute a.attribs "ConstantValue") (getAttribute b.attribs "ConstantValue")) :
    ∃ v, a.derefConstantvalue lp lim = .ok v ∧ b.derefConstantvalue rp lim = .ok v := by
  unfold Member.derefConstantvalue Member.getConstantvalue
  cases ha : getAttribute a.attribs "ConstantValue" with
  | none =>
    cases hb : getAttribute b.attribs "ConstantValue" with
    | none => exact ⟨none, rfl, rfl⟩
    | some y => simp [OptRel, ha, hb] at h
  | some x =>
    cases hb : getAttribute b.attribs "ConstantValue" with
    | none => simp [OptRel, ha, hb] at h
    | some y =>
      simp only [OptRel, ha, hb] at h
      obtain ⟨i, j, rest, rest', hi, hj, rfl, rfl, v, e1, e2⟩ := h
      refine ⟨some v, ?_, ?_⟩
      · simp [(u2_run_iff _ i).2 ⟨rest, hi, rfl⟩, e1, bind, Except.bind, Except.map]
      · simp [(u2_run_iff _ j).2 ⟨rest', hj, rfl⟩, e2, bind, Except.bind, Except.map]

theorem exceptions_rel {a b : Member} (h : OptRel (IndexTableRel (SameAt lp rp lim))
      (getAttribute a.attribs "Exceptions") (getAttribute b.attribs "Exceptions")) :
    ∃ v, a.getExceptions lp lim = .ok v ∧ b.getExceptions rp lim = .ok v := by
  cases ha : getAttribute a.attribs "Exceptions" with
  | none =>
    cases hb : getAttribute b.attribs "Exceptions" with
    | none => exact ⟨[], by simp [Member.getExceptions, ha], by simp [Member.getExceptions, hb]⟩
    | some y => simp [OptRel, ha, hb] at h
  | some x =>
    cases hb : getAttribute b.attribs "Exceptions" with
    | none => simp [OptRel, ha, hb] at h
    | some y =>
      simp only [OptRel, ha, hb] at h
      obtain ⟨is, js, rest, rest', h1, h2, h3, h4, rfl, rfl, hpair⟩ := h
      refine ⟨is.map (keyAt lp lim), ?_, ?_⟩
      · refine (C80_exceptions a lp lim _).2 (.inr ⟨is, rest, ha, h1, fun i hi => ?_, rfl⟩)
        obtain ⟨j, _, v, e, _⟩ := hpair.mem_left i hi
        exact ⟨h3 i hi, v, e⟩
      · refine (C80_exceptions b rp lim _).2 (.inr ⟨js, rest', hb, h2, fun j hj => ?_, ?_⟩)
        · obtain ⟨i, _, v, _, e⟩ := hpair.of_mem j hj
          exact ⟨h4 j hj, v, e⟩
        · refine hpair.map_eq fun i j hij => ?_
          obtain ⟨v, e1, e2⟩ := hij
          rw [keyAt_of e1, keyAt_of e2]

/-! ### Code -/

theorem InstrRel.opcode {R S : Nat → Nat → Prop} {i j : Instr} (h : InstrRel R S i j) :
    i.opcode = j.opcode := by
  cases h <;> rfl

theorem encArgs_length_cons (os : List Operand) (a b : Int) (rest : List Int) :
    (encArgs os (a :: rest)).length = (encArgs os (b :: rest)).length := by
  cases os with
  | nil => rfl
  | cons o os => simp [encArgs, beInt_length]

theorem InstrRel.enc_length {R S : Nat → Nat → Prop} {i j : Instr} (h : InstrRel R S i j)
    (pos : Nat) : (i.enc pos).length = (j.enc pos).length := by
  cases h with
  | same => rfl
  | pool => simp only [Instr.enc, List.length_cons, encArgs_length_cons _ _ _ _]; rw [encArgs_length_cons]
  | multi => simp only [Instr.enc, List.length_cons]; rw [encArgs_length_cons]

theorem positions_rel {R S : Nat → Nat → Prop} {is js : List Instr} (h : Paired (InstrRel R S) is js)
    (pos : Nat) : positions pos is = positions pos js ∧
      (encCode pos is).length = (encCode pos js).length := by
  induction h generalizing pos with
  | nil => exact ⟨rfl, rfl⟩
  | @cons i j is js h _ ih =>
    simp only [positions, encCode, List.length_append, h.enc_length pos]
    exact ⟨by rw [(ih _).1], by rw [(ih _).2]⟩

theorem operandsEq_rel (hp : NaNFree lp) {S : Nat → Nat → Prop} (hS : ∀ i j, S i j → i = j)
    {i j : Instr} (hi : i.Valid) (h : InstrRel (SameAt lp rp lim) S i j) (p : Nat) :
    operandsEq lp rp lim ⟨p, i.opcode, reportedArgs i⟩ ⟨p, j.opcode, reportedArgs j⟩ = .ok true := by
  have hfix : ∀ (i : Instr), (hasConstArg i.opcode = .ok false) →
      operandsEq lp rp lim ⟨p, i.opcode, reportedArgs i⟩ ⟨p, i.opcode, reportedArgs i⟩ = .ok true := by
    intro i hc
    simp [operandsEq, hc]
  cases h with
  | same _ hn =>
    refine hfix i ?_
    cases i with
    | fixed op args =>
      obtain ⟨os, ho, _⟩ := hi
      have hne : op ≠ 0xc5 := by
        rintro rfl
        exact hn _ _ rfl ⟨.pool2, [.byte], by decide, rfl⟩
      have := C29_const_partial op os ho hne
      simp only [Instr.opcode]
      rw [this]
      cases hb : os.any Operand.isPool with
      | false => rfl
      | true => rw [hb] at this; exact absurd (C29_const_first op this) (hn _ _ rfl)
    | tableswitch d l h js => exact C29_const_variable.1
    | lookupswitch d ps => exact C29_const_variable.2.1
    | wide op i => exact C29_const_variable.2.2
    | wideIinc i v => exact C29_const_variable.2.2
  | @pool op a b rest hpf hne hr =>
    obtain ⟨o, os, ho, hop⟩ := hpf
    have hc := C29_const_partial op _ ho hne
    simp only [List.any_cons, hop, Bool.true_or] at hc
    have h10 : op ≠ 0x10 := by
      rintro rfl
      have : operands 0x10 = some [.imm1] := by decide
      rw [this] at ho
      simp only [Option.some.injEq, List.cons.injEq] at ho
      rw [← ho.1] at hop
      simp [Operand.isPool] at hop
    obtain ⟨v, e1, e2⟩ := hr
    simp [operandsEq, Instr.opcode, reportedArgs, hc, h10, e1, e2, pyEq_refl v (deref_noNaN hp e1)]
  | @multi a b rest hs =>
    obtain rfl := hS _ _ hs
    exact hfix _ C29_const_multianewarray

theorem loops_rel (hp : NaNFree lp) {S : Nat → Nat → Prop} (hS : ∀ i j, S i j → i = j)
    {is js : List Instr} (h : Paired (InstrRel (SameAt lp rp lim) S) is js)
    (hv : ∀ i ∈ is, i.Valid) (ps : List Nat) :
    constantsLoop lp rp lim none none
        (List.zipWith (fun p i => ⟨p, Instr.opcode i, reportedArgs i⟩) ps is)
        (List.zipWith (fun p i => ⟨p, Instr.opcode i, reportedArgs i⟩) ps js) = .ok (some []) ∧
    bodyLoop none none
        (List.zipWith (fun p i => ⟨p, Instr.opcode i, reportedArgs i⟩) ps is)
        (List.zipWith (fun p i => ⟨p, Instr.opcode i, reportedArgs i⟩) ps js) = .ok false := by
  induction h generalizing ps with
  | nil => simp [constantsLoop, bodyLoop]
  | @cons i j is js h _ ih =>
    cases ps with
    | nil => simp [constantsLoop, bodyLoop]
    | cons p ps =>
      have := ih (fun x hx => hv x (by simp [hx])) ps
      simp only [List.zipWith_cons_cons, constantsLoop, bodyLoop, h.opcode, and_self,
        not_true_eq_false, if_false, this.1, this.2, and_true]
      have ho := operandsEq_rel hp hS (hv i (by simp)) h p
      rw [h.opcode] at ho
      simp [ho]

theorem excsEq_rel (hp : NaNFree lp) {es fs : List ExcInfo}
    (h : Paired (HandlerRel (SameAt lp rp lim)) es fs) : excsEq lp rp lim es fs = .ok true := by
  induction h with
  | nil => rfl
  | @cons e f es fs h _ ih =>
    obtain ⟨h1, h2, h3, h4⟩ := h
    have : excEq lp rp lim e f = .ok true := by
      unfold excEq ExcInfo.catchType
      rcases h4 with ⟨h4, h5⟩ | ⟨h4, h5, v, e1, e2⟩
      · simp [h1, h2, h3, h4, h5, optEq]
      · simp [h1, h2, h3, h4, h5, optEq, e1, e2, Except.map, pyEq_refl v (deref_noNaN hp e1)]
    simp only [excsEq, this, ih]

theorem code_rel_calm (T : Texts) (hp : NaNFree lp) {S : Nat → Nat → Prop}
    (hS : ∀ i j, S i j → i = j) {b b' : Bytes}
    (h : CodeRel (SameAt lp rp lim) S lp rp lim b b') :
    ∃ c c', (unpackCode lp lim).run b = .ok c ∧ (unpackCode rp lim).run b' = .ok c' ∧
      ((∃ t, c.getLinenumbertable = .ok t) →
        ∀ x ∈ codeChildren T lim lp rp (some c) (some c'), Calm x) := by
  obtain ⟨c, c', rest, rest', is, is', rfl, rfl, hf, hf', hst, hlo, hh, hln, hc, hc', hv, hv', hpair⟩ := h
  refine ⟨c.object lp lim, c'.object rp lim, (Decodes.rawCode c hf).run rest,
    (Decodes.rawCode c' hf').run rest', ?_⟩
  rintro ⟨t, ht⟩
  have ht' : (c'.object rp lim).getLinenumbertable = .ok t := by
    rw [← ht]
    simp only [CodeInfo.getLinenumbertable, CodeS.object, hln]
  have hlen : (c.object lp lim).code.length = (c'.object rp lim).code.length := by
    simp only [CodeS.object, hc, hc', (positions_rel hpair 0).2]
  have hd : disassemble (c.object lp lim).code =
      (List.zipWith (fun p i => ⟨p, i.opcode, reportedArgs i⟩) (positions 0 is) is, none) := by
    simp only [CodeS.object, hc]; exact C27_disassemble_assemble is hv
  have hd' : disassemble (c'.object rp lim).code =
      (List.zipWith (fun p i => ⟨p, i.opcode, reportedArgs i⟩) (positions 0 is) is', none) := by
    simp only [CodeS.object, hc', (positions_rel hpair 0).1]; exact C27_disassemble_assemble is' hv'
  obtain ⟨l1, l2⟩ := loops_rel hp hS hpair hv (positions 0 is)
  intro x hx
  simp only [codeChildren, List.mem_cons, List.not_mem_nil, or_false] at hx
  rcases hx with rfl | rfl | rfl | rfl | rfl | rfl | rfl
  · exact leaf_calm ht ht' (by simp)
  · exact leaf_calm (v := relativeTable t) (by simp only [codeData, ht, Except.map])
      (by simp only [codeData, ht', Except.map]) (by simp)
  · exact leaf_calm (v := c.maxStack) rfl (by simp only [codeData, CodeS.object, hst]) (by simp)
  · exact leaf_calm (v := c.maxLocals) rfl (by simp only [codeData, CodeS.object, hlo]) (by simp)
  · refine genericLeaf_calm.2 ?_
    simp only [Option.map_some, Option.getD_some, CodeS.object, hh.length, ne_eq,
      not_true_eq_false, if_false, excsEq_rel hp hh, Except.map, Bool.not_true]
  · refine (Calm.leaf_iff rfl).2 ⟨none, ?_⟩
    simp only [codeConstantsCheck, hlen, ne_eq, not_true_eq_false, if_false, hd, hd', l1,
      List.isEmpty_nil, Bool.not_true]
  · refine (Calm.leaf_iff rfl).2 ⟨none, ?_⟩
    simp only [codeBodyCheck, hlen, ne_eq, not_true_eq_false, if_false, hd, hd', l2, Except.map]

/-! ### Members -/

section
variable {S : Nat → Nat → Prop} {depth : Nat} {a b : Member}

theorem MemberRel.getName (h : MemberRel (SameAt lp rp lim) S lp rp lim depth a b) :
    ∃ v, a.getName lp lim = .ok v ∧ b.getName rp lim = .ok v := h.name

theorem MemberRel.getDescriptor (h : MemberRel (SameAt lp rp lim) S lp rp lim depth a b) :
    ∃ v, a.getDescriptor lp lim = .ok v ∧ b.getDescriptor rp lim = .ok v := h.desc

theorem MemberRel.name_eq (h : MemberRel (SameAt lp rp lim) S lp rp lim depth a b) :
    a.name lp lim = b.name rp lim := by
  obtain ⟨v, h1, h2⟩ := h.getName
  simp only [Member.name, h1, h2]

theorem MemberRel.descriptor_eq (h : MemberRel (SameAt lp rp lim) S lp rp lim depth a b) :
    a.descriptor lp lim = b.descriptor rp lim := by
  obtain ⟨v, h1, h2⟩ := h.getDescriptor
  simp only [Member.descriptor, h1, h2]

theorem MemberRel.typeDescriptor_eq (h : MemberRel (SameAt lp rp lim) S lp rp lim depth a b) :
    a.typeDescriptor lp lim = b.typeDescriptor rp lim := by
  simp only [Member.typeDescriptor, h.descriptor_eq]

theorem MemberRel.args_eq (h : MemberRel (SameAt lp rp lim) S lp rp lim depth a b) :
    a.argTypeDescriptors lp lim = b.argTypeDescriptors rp lim := by
  simp only [Member.argTypeDescriptors, h.kind, h.descriptor_eq]

theorem MemberRel.identifier_eq (h : MemberRel (SameAt lp rp lim) S lp rp lim depth a b) :
    a.identifier lp lim = b.identifier rp lim := by
  have hb : a.isBridge = b.isBridge := by simp [Member.isBridge, h.access]
  simp only [Member.identifier, h.kind, h.descriptor_eq, h.name_eq, h.args_eq, hb]

theorem MemberRel.deprecated_eq (h : MemberRel (SameAt lp rp lim) S lp rp lim depth a b) :
    isDeprecated a.attribs = isDeprecated b.attribs := by
  simp only [isDeprecated, truthyAttr, h.attrs.deprecated]

theorem field_calm (T : Texts) (hp : NaNFree lp)
    (h : MemberRel (SameAt lp rp lim) S lp rp lim depth a b) :
    ∀ x ∈ fieldChildren T lim depth lp rp a b, Calm x := by
  obtain ⟨n, n1, n2⟩ := h.getName
  obtain ⟨d, d1, d2⟩ := h.getDescriptor
  obtain ⟨s, s1, s2⟩ := derefAttr_rel h.attrs.signature
  obtain ⟨c, c1, c2⟩ := constant_rel h.attrs.constant
  intro x hx
  simp only [fieldChildren, List.mem_cons, List.not_mem_nil, or_false] at hx
  rcases hx with rfl | rfl | rfl | rfl | rfl | rfl | rfl | rfl
  · exact leaf_calm n1 n2 (pyEq_refl n (deref_noNaN hp n1))
  · exact leaf_calm d1 d2 (pyEq_refl d (deref_noNaN hp d1))
  · exact leaf_calm s1 s2 (optEq_self (derefAttr_noNaN hp s1))
  · exact annos_calm hp h.attrs.visible
  · exact annos_calm hp h.attrs.invisible
  · exact genericLeaf_calm.2 (by simp [h.access])
  · exact leaf_calm c1 c2 (optEq_self (derefConstantvalue_noNaN hp c1))
  · exact genericLeaf_calm.2 (by simp [h.deprecated_eq])

theorem method_calm (T : Texts) (hp : NaNFree lp) (hS : ∀ i j, S i j → i = j)
    (hm : a.isMethod = true) (hr : ReadableMember lim depth lp a)
    (h : MemberRel (SameAt lp rp lim) S lp rp lim depth a b) :
    ∀ x ∈ methodChildren T lim depth lp rp a b, Calm x := by
  obtain ⟨n, n1, n2⟩ := h.getName
  obtain ⟨s, s1, s2⟩ := derefAttr_rel h.attrs.signature
  obtain ⟨e, e1, e2⟩ := exceptions_rel h.attrs.exceptions
  obtain ⟨t, ht⟩ := hr.type hm
  obtain ⟨g, hg⟩ := member_args_ok hr.ident
  have hcode : ∃ lc rc, a.getCode lp lim = .ok lc ∧ b.getCode rp lim = .ok rc ∧
      lc.isNone = rc.isNone ∧ Calm (methodCodeChange T lim lp rp lc rc) := by
    have hc := h.attrs.code
    cases ha : getAttribute a.attribs "Code" with
    | none =>
      cases hb : getAttribute b.attribs "Code" with
      | none =>
        exact ⟨none, none, by simp [Member.getCode, ha], by simp [Member.getCode, hb], rfl,
          .short rfl⟩
      | some y => simp [OptRel, ha, hb] at hc
    | some x =>
      cases hb : getAttribute b.attribs "Code" with
      | none => simp [OptRel, ha, hb] at hc
      | some y =>
        simp only [OptRel, ha, hb] at hc
        obtain ⟨c, c', r1, r2, hcalm⟩ := code_rel_calm T hp hS hc
        have g1 : a.getCode lp lim = .ok (some c) := by simp only [Member.getCode, ha, r1, Except.map]
        have g2 : b.getCode rp lim = .ok (some c') := by simp only [Member.getCode, hb, r2, Except.map]
        refine ⟨some c, some c', g1, g2, rfl, (Calm.super_iff rfl).2 (hcalm ?_)⟩
        obtain ⟨c0, h0, hrc⟩ := hr.code
        rw [g1] at h0
        exact (hrc c (Except.ok.inj h0).symm).lines
  obtain ⟨lc, rc, g1, g2, g3, g4⟩ := hcode
  unfold methodChildren
  simp only [g1, g2]
  intro x hx
  simp only [List.mem_cons, List.not_mem_nil, or_false] at hx
  rcases hx with rfl | rfl | rfl | rfl | rfl | rfl | rfl | rfl | rfl | rfl | rfl
  · exact leaf_calm n1 n2 (pyEq_refl n (deref_noNaN hp n1))
  · exact leaf_calm ht (h.typeDescriptor_eq ▸ ht) (by simp)
  · exact leaf_calm s1 s2 (optEq_self (derefAttr_noNaN hp s1))
  · exact annos_calm hp h.attrs.visible
  · exact annos_calm hp h.attrs.invisible
  · exact leaf_calm hg (h.args_eq ▸ hg) (by simp)
  · exact genericLeaf_calm.2 (by simp [h.access])
  · exact leaf_calm e1 e2 (listEq_self (getExceptions_noNaN hp e1))
  · exact genericLeaf_calm.2 (by simp [g3])
  · exact genericLeaf_calm.2 (by simp [h.deprecated_eq])
  · exact g4
end

theorem members_calm (T : Texts) (name label what : String)
    (children : Member → Member → List (Change Opts)) {P : Member → Member → Prop}
    {ls rs : List Member} (hpair : Paired P ls rs)
    (hid : ∀ a b, P a b → a.identifier lp lim = b.identifier rp lim)
    (hd : DistinctIds lim lp ls) (hi : ∀ m ∈ ls, ∃ k, m.identifier lp lim = .ok k)
    (hc : ∀ a ∈ ls, ∀ b, P a b → ∀ x ∈ children a b, Calm x) :
    Calm (membersChange T lim name label what children lp rp ls rs) := by
  let f : Member → Str := fun m => match m.identifier lp lim with
    | .ok k => k
    | .error _ => []
  let g : Member → Str := fun m => match m.identifier rp lim with
    | .ok k => k
    | .error _ => []
  have hf : ∀ m ∈ ls, m.identifier lp lim = .ok (f m) := by
    intro m hm
    obtain ⟨k, hk⟩ := hi m hm
    simp only [f, hk]
  have hfg : ∀ a b, P a b → f a = g b := by
    intro a b hab
    simp only [f, g, hid a b hab]
  have hg : ∀ m ∈ rs, m.identifier rp lim = .ok (g m) := by
    intro m hm
    obtain ⟨a, ha, hab⟩ := hpair.of_mem m hm
    rw [← hid a m hab, hf a ha, hfg a m hab]
  have hn : (ls.map f).Nodup := by
    rw [List.nodup_iff_pairwise_ne, List.pairwise_map]
    refine List.Pairwise.imp_of_mem ?_ hd
    intro a b ha hb hab e
    exact hab (f a) (hf a ha) (by rw [e]; exact hf b hb)
  have heq : ls.map f = rs.map g := hpair.map_eq hfg
  have hinj : ∀ a ∈ ls, ∀ b ∈ ls, f a = f b → a = b := by
    intro a ha b hb hab
    have h1 := PyDict.get?_of_mem_nodup (d := ls.map fun m => (f m, m)) (by
      simpa [PyDict.keys, Function.comp_def] using hn) (List.mem_map.2 ⟨a, ha, rfl⟩)
    have h2 := PyDict.get?_of_mem_nodup (d := ls.map fun m => (f m, m)) (by
      simpa [PyDict.keys, Function.comp_def] using hn) (List.mem_map.2 ⟨b, hb, rfl⟩)
    rw [hab, h2] at h1
    exact (Option.some.inj h1).symm
  refine (Calm.super_iff rfl).2 ?_
  rw [C41_exact _ _ f g ls rs hf hg hn (heq ▸ hn)]
  have e1 : (rs.filter fun r => decide (g r ∉ ls.map f)) = [] := by
    rw [List.filter_eq_nil_iff]
    intro m hm
    simp only [decide_eq_true_eq, Classical.not_not, heq]
    exact List.mem_map_of_mem hm
  have e2 : (ls.filter fun l => decide (f l ∉ rs.map g)) = [] := by
    rw [List.filter_eq_nil_iff]
    intro m hm
    simp only [decide_eq_true_eq, Classical.not_not, ← heq]
    exact List.mem_map_of_mem hm
  simp only [e1, e2, List.map_nil, List.nil_append]
  intro x hx
  simp only [List.mem_map, List.mem_filterMap, Option.map_eq_some_iff] at hx
  obtain ⟨d, ⟨r, hr, l, hl, rfl⟩, rfl⟩ := hx
  refine (Calm.super_iff rfl).2 ?_
  obtain ⟨a, ha, hab⟩ := hpair.of_mem r hr
  have hlm := List.mem_of_find?_eq_some hl
  have hlf : f l = g r := by simpa using List.find?_some hl
  have : l = a := hinj l hlm a ha (by rw [hlf, hfg a r hab])
  subst this
  exact hc l ha r hab

end

/-! ## The theorems -/

/-- Everything but the constant pool leaf is calm. -/
theorem class_rel_calm (T : Texts) (lim depth : Nat) (l r : ClassInfo) {S : Nat → Nat → Prop}
    (hS : ∀ i j, S i j → i = j) (hp : NaNFree l.pool)
    (hf : DistinctIds lim l.pool l.fields) (hm : DistinctIds lim l.pool l.methods)
    (hr : ReadableClass lim depth l)
    (h : ClassRel (SameAt l.pool r.pool lim) S lim depth l r) :
    ∀ x ∈ classChildren T lim depth l r, x = poolChange T l r ∨ Calm x := by
  intro x hx
  simp only [classChildren, List.mem_cons, List.not_mem_nil, or_false] at hx
  rcases hx with rfl | rfl | rfl | rfl | rfl | rfl
  · right
    refine (Calm.super_iff rfl).2 ?_
    obtain ⟨t, t1, t2⟩ := h.this
    obtain ⟨s, s1, s2⟩ := derefAttr_rel h.attrs.signature
    obtain ⟨is, i1⟩ := hr.interfaces
    have i2 : r.getInterfaces lim = .ok is := by
      rw [← i1]
      unfold ClassInfo.getInterfaces
      have := h.interfaces
      generalize l.interfaces = as at *
      generalize r.interfaces = bs at *
      clear i1
      induction this with
      | nil => rfl
      | cons hab _ ih =>
        obtain ⟨v, e1, e2⟩ := hab
        simp only [List.mapM_cons, e1, e2, ih]
    obtain ⟨u, u1, u2⟩ : ∃ u, l.getSuper lim = .ok u ∧ r.getSuper lim = .ok u := by
      unfold ClassInfo.getSuper
      rcases h.super with ⟨h1, h2⟩ | ⟨h1, h2, u, e1, e2⟩
      · exact ⟨.str [], by simp [h1], by simp [h2]⟩
      · exact ⟨u, by simp [h1, e1], by simp [h2, e2]⟩
    intro x hx
    simp only [List.mem_cons, List.not_mem_nil, or_false] at hx
    rcases hx with rfl | rfl | rfl | rfl | rfl | rfl | rfl | rfl
    · exact leaf_calm t1 t2 (pyEq_refl t (deref_noNaN hp t1))
    · exact genericLeaf_calm.2 (by simp [h.version])
    · exact genericLeaf_calm.2 (by simp [h.version])
    · refine leaf_calm u1 u2 (pyEq_refl u ?_)
      unfold ClassInfo.getSuper at u1
      split at u1
      · simp only [Except.ok.injEq] at u1; subst u1; trivial
      · exact deref_noNaN hp u1
    · refine leaf_calm i1 i2 (setEq_self fun y hy => ?_)
      obtain ⟨i, _, hi⟩ := mapM_ok_mem i1 y hy
      exact deref_noNaN hp hi
    · exact genericLeaf_calm.2 (by simp [h.access])
    · exact genericLeaf_calm.2 (by simp [isDeprecated, truthyAttr, h.attrs.deprecated])
    · exact leaf_calm s1 s2 (optEq_self (derefAttr_noNaN hp s1))
  · exact .inr (annos_calm hp h.attrs.visible)
  · exact .inr (annos_calm hp h.attrs.invisible)
  · exact .inl rfl
  · exact .inr (members_calm T _ _ _ _ h.fields (fun _ _ h => h.identifier_eq) hf
      (fun m hm => (hr.fields m hm).ident) fun a _ b hab => field_calm T hp hab)
  · exact .inr (members_calm T _ _ _ _ h.methods (fun _ _ h => h.identifier_eq) hm
      (fun m hm => (hr.methods m hm).2.ident) fun a ha b hab =>
        method_calm T hp hS (hr.methods a ha).1 (hr.methods a ha).2 hab)

theorem Paired.refl_of {α : Type} {P : α → α → Prop} (h : ∀ x, P x x) : ∀ xs : List α, Paired P xs xs
  | [] => .nil
  | x :: xs => .cons (h x) (Paired.refl_of h xs)

section
variable {O : Type}

theorem checkAll_one (p p' : Change O) (hp : p.check = .ok p') (cs : List (Change O))
    (h : ∀ x ∈ cs, x = p ∨ Calm x) (b : Bool) :
    ∃ cs', checkAll cs b = .ok (cs', b || cs'.any isChange) ∧
      (∀ x ∈ cs', x = p' ∨ x.isChange = false) ∧ (p ∈ cs → p' ∈ cs') := by
  induction cs generalizing b with
  | nil => exact ⟨[], by simp [checkAll], by simp, by simp⟩
  | cons c cs ih =>
    have key : ∃ c', c.check = .ok c' ∧ (c' = p' ∨ c'.isChange = false) ∧ (c = p → c' = p') := by
      rcases h c (by simp) with rfl | ⟨c', h1, h2⟩
      · exact ⟨p', hp, .inl rfl, fun _ => rfl⟩
      · refine ⟨c', h1, .inr h2, ?_⟩
        rintro rfl
        rw [hp] at h1
        exact (Except.ok.inj h1).symm
    obtain ⟨c', h1, h2, h3⟩ := key
    obtain ⟨cs', h4, h5, h6⟩ := ih (fun x hx => h x (by simp [hx])) (b || c'.isChange)
    refine ⟨c' :: cs', ?_, ?_, ?_⟩
    · simp only [checkAll, h1, h4, List.any_cons, Bool.or_assoc]
    · intro x hx
      rcases List.mem_cons.1 hx with rfl | hx
      · exact h2
      · exact h5 x hx
    · intro hm
      rcases List.mem_cons.1 hm with rfl | hm
      · rw [h3 rfl]; simp
      · exact List.mem_cons_of_mem _ (h6 hm)

/-- The status of a composite all of whose children but one are calm. -/
theorem status_one (p p' : Change O) (hp : p.check = .ok p') (cs : List (Change O))
    (hm : p ∈ cs) (h : ∀ x ∈ cs, x = p ∨ Calm x) (hd : Hdr O) (hk : hd.kind = .plain)
    (hi : hd.ign = .inherit) (o : O) :
    ((Change.super hd none false none cs).check.map (exitStatus o)) =
      .ok (exitStatus o p') := by
  obtain ⟨cs', h1, h2, h3⟩ := checkAll_one p p' hp cs h false
  have hm' := h3 hm
  simp only [check, h1, Except.map, Except.ok.injEq, Bool.false_or]
  have hany : cs'.any isChange = p'.isChange := by
    cases hc : p'.isChange with
    | true => rw [List.any_eq_true]; exact ⟨p', hm', hc⟩
    | false =>
      rw [List.any_eq_false]
      intro x hx
      rcases h2 x hx with rfl | h
      · simp [hc]
      · simp [h]
  have hall : allIgnored o cs' = true ↔ (p'.isChange = true → isIgnored o p' = true) := by
    rw [allIgnored_iff]
    constructor
    · intro hx; exact hx p' hm'
    · intro hx c hc hcc
      rcases h2 c hc with rfl | h
      · exact hx hcc
      · rw [h] at hcc; simp at hcc
  have hne : cs'.isEmpty = false := by
    cases cs' with
    | nil => simp at hm'
    | cons => rfl
  have hs : ∀ q, (Change.super hd none q none cs').isChange = q := by
    intro q; simp [isChange, hk]
  have hs' : ∀ q, isIgnored o (Change.super hd none q none cs') =
      if ¬ (q = true) then false else allIgnored o cs' := by
    intro q; simp [isIgnored, hi, hs, hne]
  unfold exitStatus
  rw [hs, hs', hany]
  cases hc : p'.isChange with
  | false => simp
  | true =>
    cases hg : isIgnored o p' with
    | true => simp [hall.2 fun _ => hg]
    | false =>
      have : allIgnored o cs' = false := by
        cases ha : allIgnored o cs' with
        | false => rfl
        | true => rw [hall.1 ha hc] at hg; simp at hg
      simp [this]

theorem checkAll_error (p : Change O) (e : PyErr) (hp : p.check = .error e) (cs : List (Change O))
    (hm : p ∈ cs) (h : ∀ x ∈ cs, x = p ∨ Calm x) (b : Bool) : checkAll cs b = .error e := by
  induction cs generalizing b with
  | nil => simp at hm
  | cons c cs ih =>
    rcases h c (by simp) with rfl | ⟨c', h1, h2⟩
    · simp only [checkAll, hp]
    · rcases List.mem_cons.1 hm with rfl | hm
      · rw [hp] at h1; simp at h1
      · simp only [checkAll, h1, ih hm (fun x hx => h x (by simp [hx]))]
end

/-- The result of comparing two constant pools: raised when the pools differ and one of them
holds a constant that cannot be shown. -/
def poolOutcome (l r : ClassInfo) (o : Opts) : Res Nat :=
  if poolEq l.pool r.pool = true then .ok 0
  else
    match prettyConstants l.pool, prettyConstants r.pool with
    | .error e, _ => .error e
    | .ok _, .error e => .error e
    | .ok _, .ok _ => .ok (if o.attr "ignore_pool" then 0 else 1)

theorem leaf_status {α : Type} (h : Hdr Opts) (hk : h.kind = .plain) (f : Opts → Bool)
    (hi : h.ign = .only f) (label : Str) (b : Bool) (x y : Res α) (t : α → Str) (o : Opts) :
    (Change.leaf h (some (checkImpl label (.ok (!b)) (x.map t) (y.map t))) false none).check.map
        (exitStatus o) =
      if b = true then .ok 0
      else
        match x, y with
        | .error e, _ => .error e
        | .ok _, .error e => .error e
        | .ok _, .ok _ => .ok (if f o then 0 else 1) := by
  cases b with
  | true => simp [checkImpl, check, Except.map, exitStatus, isChange, hk]
  | false =>
    cases x with
    | error e => simp [checkImpl, check, Except.map]
    | ok u =>
      cases y with
      | error e => simp [checkImpl, check, Except.map]
      | ok v => simp [checkImpl, check, Except.map, exitStatus, isChange, hk, isIgnored, hi]

theorem pool_status (T : Texts) (l r : ClassInfo) (o : Opts) :
    (poolChange T l r).check.map (exitStatus o) = poolOutcome l r o := by
  unfold poolChange poolOutcome
  refine (leaf_status _ ?_ (fun o => o.attr "ignore_pool") ?_ _ _ _ _ T.consts o).trans ?_
  · rfl
  · rfl
  · cases prettyConstants l.pool <;> cases prettyConstants r.pool <;> rfl

theorem status_of_pool (T : Texts) (lim depth : Nat) (l r : ClassInfo) (o : Opts)
    (h : ∀ x ∈ classChildren T lim depth l r, x = poolChange T l r ∨ Calm x) :
    classDiffStatus T lim depth o l r = poolOutcome l r o := by
  have hm : poolChange T l r ∈ classChildren T lim depth l r := by simp [classChildren]
  rw [← pool_status]
  unfold classDiffStatus javaClassChange
  cases hp : (poolChange T l r).check with
  | error e =>
    simp only [check, checkAll_error _ e hp _ hm h, Except.map]
  | ok p' => exact status_one _ p' hp _ hm h _ rfl rfl o

/-- C40. Two classes equal up to constant pool indices, corresponding indices standing for the
same constants and the indices of multianewarray instructions being equal: nothing but the
constant pool is reported, so the exit status is that of the pool comparison alone. -/
theorem C40_same_constants_partial (T : Texts) (lim depth : Nat) (l r : ClassInfo)
    (hp : NaNFree l.pool) (hf : DistinctIds lim l.pool l.fields)
    (hm : DistinctIds lim l.pool l.methods) (hr : ReadableClass lim depth l)
    (h : ClassRel (SameAt l.pool r.pool lim) (· = ·) lim depth l r) :
    (∀ x ∈ classChildren T lim depth l r, x = poolChange T l r ∨ Calm x) ∧
    ∀ o, classDiffStatus T lim depth o l r = poolOutcome l r o := by
  have hc := class_rel_calm T lim depth l r (fun _ _ h => h) hp hf hm hr h
  exact ⟨hc, fun o => status_of_pool T lim depth l r o hc⟩

section
variable {R R' S : Nat → Nat → Prop} (hR : ∀ i j, R i j → R' i j)

omit hR in
theorem OptRel.imp {α : Type} {P Q : α → α → Prop} (h : ∀ a b, P a b → Q a b) {x y : Option α}
    (hp : OptRel P x y) : OptRel Q x y := by
  cases x <;> cases y <;> simp only [OptRel] at hp ⊢
  exact h _ _ hp

include hR

theorem IndexRel.imp {b b' : Bytes} (h : IndexRel R b b') : IndexRel R' b b' := by
  obtain ⟨i, j, r, r', h1, h2, h3, h4, h5⟩ := h
  exact ⟨i, j, r, r', h1, h2, h3, h4, hR _ _ h5⟩

theorem IndexTableRel.imp {b b' : Bytes} (h : IndexTableRel R b b') : IndexTableRel R' b b' := by
  obtain ⟨i, j, r, r', h1, h2, h3, h4, h5, h6, h7⟩ := h
  exact ⟨i, j, r, r', h1, h2, h3, h4, h5, h6, h7.imp hR⟩

theorem ElemRel.imp {v w : ElemValue} (h : ElemRel R v w) : ElemRel R' v w := by
  induction h with
  | const h => exact .const (hR _ _ h)
  | enum h1 h2 => exact .enum (hR _ _ h1) (hR _ _ h2)
  | anno h1 h2 h3 _ ih => exact .anno (hR _ _ h1) h2 (fun n p q a b => hR _ _ (h3 n p q a b)) ih
  | arr h1 _ ih => exact .arr h1 ih

theorem AnnosRel.imp {lp rp : Pool} {lim depth : Nat} {b b' : Bytes}
    (h : AnnosRel R lp rp lim depth b b') : AnnosRel R' lp rp lim depth b b' := by
  obtain ⟨as, as', r, r', h1, h2, h3, h4, h5, h6⟩ := h
  exact ⟨as, as', r, r', h1, h2, h3, h4, h5, h6.imp fun _ _ h => h.imp hR⟩

theorem CodeRel.imp {lp rp : Pool} {lim : Nat} {b b' : Bytes}
    (h : CodeRel R S lp rp lim b b') : CodeRel R' S lp rp lim b b' := by
  obtain ⟨c, c', r, r', is, is', h1, h2, h3, h4, h5, h6, h7, h8, h9, h10, h11, h12, h13⟩ := h
  refine ⟨c, c', r, r', is, is', h1, h2, h3, h4, h5, h6, h7.imp fun a b hab => ?_, h8, h9, h10, h11,
    h12, h13.imp fun a b hab => ?_⟩
  · exact ⟨hab.1, hab.2.1, hab.2.2.1, hab.2.2.2.imp id fun h => ⟨h.1, h.2.1, hR _ _ h.2.2⟩⟩
  · cases hab with
    | same _ h => exact .same _ h
    | pool h1 h2 h3 => exact .pool h1 h2 (hR _ _ h3)
    | multi h => exact .multi h

theorem AttrsRel.imp {lp rp : Pool} {lim depth : Nat} {a b : Attribs}
    (h : AttrsRel R S lp rp lim depth a b) : AttrsRel R' S lp rp lim depth a b :=
  ⟨OptRel.imp (fun _ _ h => h.imp hR) h.signature, OptRel.imp (fun _ _ h => h.imp hR) h.constant,
    OptRel.imp (fun _ _ h => h.imp hR) h.exceptions, OptRel.imp (fun _ _ h => h.imp hR) h.visible,
    OptRel.imp (fun _ _ h => h.imp hR) h.invisible, h.deprecated,
    OptRel.imp (fun _ _ h => h.imp hR) h.code⟩

theorem MemberRel.imp {lp rp : Pool} {lim depth : Nat} {a b : Member}
    (h : MemberRel R S lp rp lim depth a b) : MemberRel R' S lp rp lim depth a b :=
  ⟨h.access, h.kind, hR _ _ h.name, hR _ _ h.desc, h.attrs.imp hR⟩

theorem ClassRel.imp {lim depth : Nat} {l r : ClassInfo}
    (h : ClassRel R S lim depth l r) : ClassRel R' S lim depth l r :=
  ⟨h.version, h.access, hR _ _ h.this, h.super.imp id fun h => ⟨h.1, h.2.1, hR _ _ h.2.2⟩,
    h.interfaces.imp hR, h.fields.imp fun _ _ h => h.imp hR, h.methods.imp fun _ _ h => h.imp hR,
    h.attrs.imp hR⟩
end

/-- C40 as stated: for every renumbering, ignoring the pool leaves nothing to report. -/
def C40_full : Prop := ∀ (T : Texts) (lim depth : Nat) (l r : ClassInfo) (σ : Nat → Nat) (o : Opts),
  NaNFree l.pool → DistinctIds lim l.pool l.fields → DistinctIds lim l.pool l.methods →
  ReadableClass lim depth l → RenumbersPool σ l.pool r.pool →
  ClassRel (Moved σ l.pool lim) (Moved σ l.pool lim) lim depth l r →
  o.attr "ignore_pool" = true → classDiffStatus T lim depth o l r = .ok 0

/-- C40 for every renumbering that leaves the operands of multianewarray instructions in place:
everything but the pool is unchanged; the exit status is that of the pool comparison, hence 0
with `--ignore-pool` and 0 or 1 without, unless a pool holds a constant that cannot be shown. -/
theorem C40_renumbering_partial (T : Texts) (lim depth : Nat) (l r : ClassInfo) (σ : Nat → Nat)
    (hp : NaNFree l.pool) (hf : DistinctIds lim l.pool l.fields)
    (hm : DistinctIds lim l.pool l.methods) (hr : ReadableClass lim depth l)
    (hσ : RenumbersPool σ l.pool r.pool)
    (h : ClassRel (Moved σ l.pool lim) (· = ·) lim depth l r) :
    (∀ x ∈ classChildren T lim depth l r, x = poolChange T l r ∨ Calm x) ∧
    (∀ o, classDiffStatus T lim depth o l r = poolOutcome l r o) ∧
    ((∃ x, prettyConstants l.pool = .ok x) → (∃ y, prettyConstants r.pool = .ok y) →
      ∀ o, o.attr "ignore_pool" = true → classDiffStatus T lim depth o l r = .ok 0) := by
  obtain ⟨h1, h2⟩ := C40_same_constants_partial T lim depth l r hp hf hm hr
    (h.imp fun _ _ hm => hm.same hσ)
  refine ⟨h1, h2, ?_⟩
  rintro ⟨x, hx⟩ ⟨y, hy⟩ o ho
  rw [h2, poolOutcome, hx, hy]
  simp [ho]

/-! ### Witnesses -/

def renPool : Pool := [none, some (.utf8 "A".toList), some (.cls 1), some (.utf8 "f".toList),
  some (.utf8 "()V".toList), some (.utf8 "Code".toList), some (.utf8 "hi".toList), some (.string 6)]

/-- The same with entries 2 and 7 exchanged. -/
def renPool' : Pool := [none, some (.utf8 "A".toList), some (.string 6), some (.utf8 "f".toList),
  some (.utf8 "()V".toList), some (.utf8 "Code".toList), some (.utf8 "hi".toList), some (.cls 1)]

def swap27 (i : Nat) : Nat := if i = 2 then 7 else if i = 7 then 2 else i

def renMethod (code : Bytes) : Member :=
  ⟨1, 3, 4, [(.str "Code".toList, (CodeS.mk 1 1 code [] []).enc)], true⟩

/-- A class with one method of the given code. -/
def renClass (pool : Pool) (this : Nat) (code : Bytes) : ClassInfo where
  version := (52, 0)
  pool := pool
  access := 1
  thisRef := this
  superRef := 0
  interfaces := []
  fields := []
  methods := [renMethod code]
  attribs := []

theorem renPool_swap : RenumbersPool swap27 renPool renPool' := by
  refine ⟨fun i hi => ?_, ?_⟩
  · unfold swap27; split
    · simp
    · split
      · simp
      · exact hi
  · intro i c h
    have hi : i < 8 := by
      rcases List.getElem?_eq_some_iff.1 h with ⟨h, _⟩
      simpa [renPool] using h
    have hall : ∀ i < 8, ∀ c, renPool[i]? = some (some c) →
        renPool'[swap27 i]? = some (some (c.renumber swap27)) := by
      intro i hi
      have : ∀ n < 8, (renPool[n]?.all fun s => s.all fun c =>
          decide (renPool'[swap27 n]? = some (some (c.renumber swap27)))) = true := by decide +kernel
      intro c hc
      have := this i hi
      rw [hc] at this
      simpa using this
    exact hall i hi c h

theorem renPool_nanFree : NaNFree renPool := by
  intro i c h
  have h1 : some c ∈ renPool := List.mem_of_getElem? h
  simp only [renPool, List.mem_cons, List.not_mem_nil, or_false, reduceCtorEq, false_or,
    Option.some.injEq] at h1
  rcases h1 with rfl | rfl | rfl | rfl | rfl | rfl | rfl <;> simp

theorem ren_codeRel (R S : Nat → Nat → Prop) (is js : List Instr)
    (hi : ∀ i ∈ is, i.Valid) (hj : ∀ j ∈ js, j.Valid) (h1 : (encCode 0 is).length < 2 ^ 32)
    (h2 : (encCode 0 js).length < 2 ^ 32) (h : Paired (InstrRel R S) is js) :
    CodeRel R S renPool renPool' 9 (CodeS.mk 1 1 (encCode 0 is) [] []).enc
      (CodeS.mk 1 1 (encCode 0 js) [] []).enc := by
  have hf : ∀ (pool : Pool) (c : Bytes), c.length < 2 ^ 32 → (CodeS.mk 1 1 c [] []).Fits pool 9 := by
    intro pool c hc
    exact ⟨⟨by simp, by simp, hc⟩, ⟨by simp, by simp⟩, by simp, by simp⟩
  exact ⟨_, _, [], [], is, js, by simp, by simp, hf _ _ h1, hf _ _ h2, rfl, rfl, .nil, rfl, rfl, rfl,
    hi, hj, h⟩

theorem ren_classRel (S : Nat → Nat → Prop) (is js : List Instr)
    (hi : ∀ i ∈ is, i.Valid) (hj : ∀ j ∈ js, j.Valid) (h1 : (encCode 0 is).length < 2 ^ 32)
    (h2 : (encCode 0 js).length < 2 ^ 32)
    (h : Paired (InstrRel (Moved swap27 renPool 9) S) is js) :
    ClassRel (Moved swap27 renPool 9) S 9 9 (renClass renPool 2 (encCode 0 is))
      (renClass renPool' 7 (encCode 0 js)) := by
  have hmv : ∀ i j, (decide (j = swap27 i) && isOk (deref renPool 9 i)) = true →
      Moved swap27 renPool 9 i j := by
    intro i j h
    simp only [Bool.and_eq_true, decide_eq_true_eq] at h
    exact ⟨h.1, of_isOk h.2⟩
  have hnone : ∀ (a : Bytes) (n : String), n.toList ≠ "Code".toList →
      getAttribute [(PVal.str "Code".toList, a)] n = none := by
    intro a n hn
    have hn' : ¬ (PVal.str "Code".toList = PVal.str n.toList) := by
      intro e; exact hn (PVal.str.inj e).symm
    simp only [getAttribute, PyDict.get?, if_neg hn']
  have hcode : ∀ a : Bytes, getAttribute [(PVal.str "Code".toList, a)] "Code" = some a := by
    intro a
    simp only [getAttribute, PyDict.get?, if_true]
  refine ⟨rfl, rfl, hmv 2 7 (by decide +kernel), .inl ⟨rfl, rfl⟩, .nil, .nil, .cons ?_ .nil, ?_⟩
  · refine ⟨rfl, rfl, hmv 3 3 (by decide +kernel), hmv 4 4 (by decide +kernel), ?_⟩
    simp only [renMethod]
    constructor
    · rw [hnone _ _ (by decide), hnone _ _ (by decide)]; trivial
    · rw [hnone _ _ (by decide), hnone _ _ (by decide)]; trivial
    · rw [hnone _ _ (by decide), hnone _ _ (by decide)]; trivial
    · rw [hnone _ _ (by decide), hnone _ _ (by decide)]; trivial
    · rw [hnone _ _ (by decide), hnone _ _ (by decide)]; trivial
    · rw [hnone _ _ (by decide), hnone _ _ (by decide)]
    · rw [hcode, hcode]
      exact ren_codeRel _ _ is js hi hj h1 h2 h
  · have : ∀ n : String, getAttribute [] n = none := fun n => rfl
    constructor <;> simp only [renClass, this] <;> trivial

/-- `ldc "hi"; pop; return` and `multianewarray A, 1; pop; return` -/
def ldcBody (i : Nat) : List Instr := [.fixed 0x12 [i], .fixed 0x57 [], .fixed 0xb1 []]
def multiCode (i : Nat) : List Instr := [.fixed 0xc5 [i, 1], .fixed 0x57 [], .fixed 0xb1 []]

theorem ren_valid (op : Nat) (os : List Operand) (args : List Int) (h : operands op = some os)
    (hl : os.length = args.length) (hr : ∀ p ∈ os.zip args, p.1.InRange p.2) :
    (Instr.fixed op args).Valid := ⟨os, h, hl, hr⟩

theorem ldcBody_valid (i : Nat) (hi : i < 256) : ∀ x ∈ ldcBody i, x.Valid := by
  intro x hx
  simp only [ldcBody, List.mem_cons, List.not_mem_nil, or_false] at hx
  rcases hx with rfl | rfl | rfl
  · refine ren_valid _ [.pool1] _ (by decide) rfl ?_
    intro p hp
    simp only [List.zip_cons_cons, List.zip_nil_left, List.mem_singleton] at hp
    subst hp
    simp [Operand.InRange, Operand.signed, URange, Operand.width]
    omega
  · exact ren_valid _ [] _ (by decide) rfl (by simp)
  · exact ren_valid _ [] _ (by decide) rfl (by simp)

theorem multiCode_valid (i : Nat) (hi : i < 65536) : ∀ x ∈ multiCode i, x.Valid := by
  intro x hx
  simp only [multiCode, List.mem_cons, List.not_mem_nil, or_false] at hx
  rcases hx with rfl | rfl | rfl
  · refine ren_valid _ [.pool2, .byte] _ (by decide) rfl ?_
    intro p hp
    simp only [List.zip_cons_cons, List.zip_nil_left, List.mem_cons, List.not_mem_nil, or_false] at hp
    rcases hp with rfl | rfl
    · simp [Operand.InRange, Operand.signed, URange, Operand.width]; omega
    · simp [Operand.InRange, Operand.signed, URange, Operand.width]
  · exact ren_valid _ [] _ (by decide) rfl (by simp)
  · exact ren_valid _ [] _ (by decide) rfl (by simp)

theorem not_poolFirst {op : Nat} (h : operands op = some []) : ¬ PoolFirst op := by
  rintro ⟨o, os, h', _⟩
  rw [h] at h'
  simp at h'

theorem same_fixed {R S : Nat → Nat → Prop} {op : Nat} (h : operands op = some []) :
    InstrRel R S (.fixed op []) (.fixed op []) :=
  .same _ fun op' args e => by
    simp only [Instr.fixed.injEq] at e
    rw [← e.1]
    exact not_poolFirst h

theorem ren_distinct (code : Bytes) :
    DistinctIds 9 renPool (renClass renPool 2 code).fields ∧
    DistinctIds 9 renPool (renClass renPool 2 code).methods :=
  ⟨.nil, List.pairwise_singleton _ _⟩

theorem ldc_readable : ReadableClass 9 9 (renClass renPool 2 (encCode 0 (ldcBody 7))) := by
  constructor
  · exact of_isOk (by decide +kernel)
  · exact of_isOk (by decide +kernel)
  · exact of_isOk (by decide +kernel)
  · exact of_isOk (by decide +kernel)
  · exact annos_absent (by decide +kernel)
  · exact annos_absent (by decide +kernel)
  · intro m hm; simp [renClass] at hm
  · intro m hm
    simp only [renClass, List.mem_singleton] at hm
    subst hm
    refine ⟨rfl, ?_⟩
    constructor
    · exact of_isOk (by decide +kernel)
    · exact of_isOk (by decide +kernel)
    · exact of_isOk (by decide +kernel)
    · intro _; exact of_isOk (by decide +kernel)
    · exact of_isOk (by decide +kernel)
    · exact annos_absent (by decide +kernel)
    · exact annos_absent (by decide +kernel)
    · exact of_isOk (by decide +kernel)
    · exact of_isOk (by decide +kernel)
    · refine ⟨some ⟨1, 1, [0x12, 7, 0x57, 0xb1], [], []⟩, by decide +kernel, ?_⟩
      intro x hx
      simp only [Option.some.injEq] at hx
      subst hx
      constructor
      · exact of_isOk (by decide +kernel)
      · simp
      · decide +kernel
      · intro i hi
        have : (disassemble [0x12, 7, 0x57, 0xb1]).1 =
          [⟨0, 0x12, .ints [7]⟩, ⟨2, 0x57, .ints []⟩, ⟨3, 0xb1, .ints []⟩] := by decide +kernel
        simp only [this, List.mem_cons, List.not_mem_nil, or_false] at hi
        rcases hi with rfl | rfl | rfl
        · exact ⟨true, by decide +kernel, fun _ => ⟨7, [], .str "hi".toList, rfl, by decide +kernel⟩⟩
        · exact ⟨false, by decide +kernel, by simp⟩
        · exact ⟨false, by decide +kernel, by simp⟩

theorem multi_readable : ReadableClass 9 9 (renClass renPool 2 (encCode 0 (multiCode 2))) := by
  constructor
  · exact of_isOk (by decide +kernel)
  · exact of_isOk (by decide +kernel)
  · exact of_isOk (by decide +kernel)
  · exact of_isOk (by decide +kernel)
  · exact annos_absent (by decide +kernel)
  · exact annos_absent (by decide +kernel)
  · intro m hm; simp [renClass] at hm
  · intro m hm
    simp only [renClass, List.mem_singleton] at hm
    subst hm
    refine ⟨rfl, ?_⟩
    constructor
    · exact of_isOk (by decide +kernel)
    · exact of_isOk (by decide +kernel)
    · exact of_isOk (by decide +kernel)
    · intro _; exact of_isOk (by decide +kernel)
    · exact of_isOk (by decide +kernel)
    · exact annos_absent (by decide +kernel)
    · exact annos_absent (by decide +kernel)
    · exact of_isOk (by decide +kernel)
    · exact of_isOk (by decide +kernel)
    · refine ⟨some ⟨1, 1, [0xc5, 0, 2, 1, 0x57, 0xb1], [], []⟩, by decide +kernel, ?_⟩
      intro x hx
      simp only [Option.some.injEq] at hx
      subst hx
      constructor
      · exact of_isOk (by decide +kernel)
      · simp
      · decide +kernel
      · intro i hi
        have : (disassemble [0xc5, 0, 2, 1, 0x57, 0xb1]).1 =
          [⟨0, 0xc5, .ints [2, 1]⟩, ⟨4, 0x57, .ints []⟩, ⟨5, 0xb1, .ints []⟩] := by decide +kernel
        simp only [this, List.mem_cons, List.not_mem_nil, or_false] at hi
        rcases hi with rfl | rfl | rfl
        · exact ⟨false, by decide +kernel, by simp⟩
        · exact ⟨false, by decide +kernel, by simp⟩
        · exact ⟨false, by decide +kernel, by simp⟩

/-- Non-vacuity of C40: a class loading the string at index 7, and the same class with the
string at index 2. -/
example : ∀ o, classDiffStatus noTexts 9 9 o (renClass renPool 2 (encCode 0 (ldcBody 7)))
      (renClass renPool' 7 (encCode 0 (ldcBody 2))) = .ok (if o.attr "ignore_pool" then 0 else 1) := by
  intro o
  have h := C40_renumbering_partial noTexts 9 9 (renClass renPool 2 (encCode 0 (ldcBody 7)))
    (renClass renPool' 7 (encCode 0 (ldcBody 2))) swap27 renPool_nanFree (ren_distinct _).1
    (ren_distinct _).2 ldc_readable renPool_swap
    (ren_classRel _ _ _ (ldcBody_valid 7 (by decide)) (ldcBody_valid 2 (by decide)) (by decide +kernel)
      (by decide +kernel)
      (.cons (.pool ⟨.pool1, [], by decide, rfl⟩ (by decide) ⟨rfl, of_isOk (by decide +kernel)⟩)
        (.cons (same_fixed (by decide)) (.cons (same_fixed (by decide)) .nil))))
  rw [h.2.1]
  have h1 : poolEq renPool renPool' = false := by decide +kernel
  obtain ⟨x, hx⟩ := of_isOk (x := prettyConstants renPool) (by decide +kernel)
  obtain ⟨y, hy⟩ := of_isOk (x := prettyConstants renPool') (by decide +kernel)
  simp only [poolOutcome, renClass, h1, hx, hy, Bool.false_eq_true, if_false]

/-- Renumbering the class of a multianewarray is reported although the pool is ignored. -/
theorem C40_multianewarray_reported :
    classDiffStatus noTexts 9 9 [("ignore_pool".toList, true)]
      (renClass renPool 2 (encCode 0 (multiCode 2))) (renClass renPool' 7 (encCode 0 (multiCode 7))) =
      .ok 1 := by decide +kernel

theorem C40_full_fails : ¬ C40_full := by
  intro h
  have := h noTexts 9 9 (renClass renPool 2 (encCode 0 (multiCode 2)))
    (renClass renPool' 7 (encCode 0 (multiCode 7))) swap27 [("ignore_pool".toList, true)]
    renPool_nanFree (ren_distinct _).1 (ren_distinct _).2 multi_readable renPool_swap
    (ren_classRel _ _ _ (multiCode_valid 2 (by decide)) (multiCode_valid 7 (by decide))
      (by decide +kernel) (by decide +kernel)
      (.cons (.multi ⟨rfl, of_isOk (by decide +kernel)⟩)
        (.cons (same_fixed (by decide)) (.cons (same_fixed (by decide)) .nil)))) (by decide +kernel)
  rw [C40_multianewarray_reported] at this
  simp at this

/-- A constant of tag 17 (Dynamic) anywhere in two different pools makes the comparison raise
`UnknownConstantPoolTag` when it builds the message, whatever is ignored. -/
theorem C40_dynamic_raises (T : Texts) (lim depth : Nat) (l r : ClassInfo) (o : Opts) (i a b : Nat)
    (hp : NaNFree l.pool) (hf : DistinctIds lim l.pool l.fields)
    (hm : DistinctIds lim l.pool l.methods) (hr : ReadableClass lim depth l)
    (h : ClassRel (SameAt l.pool r.pool lim) (· = ·) lim depth l r)
    (hi : i ≠ 0) (hd : l.pool[i]? = some (some (.dynamic a b)))
    (hne : poolEq l.pool r.pool = false) :
    classDiffStatus T lim depth o l r = .error .unknownTag := by
  rw [(C40_same_constants_partial T lim depth l r hp hf hm hr h).2 o, poolOutcome, hne]
  have hp : prettyConstants l.pool = .error .unknownTag := by
    have key : ∀ (cs : Pool) (k n : Nat), cs[k]? = some (some (.dynamic a b)) →
        prettyConstantsFrom n cs = .error .unknownTag := by
      intro cs
      induction cs with
      | nil => intro k n h; simp at h
      | cons c cs ih =>
        intro k n hk
        cases k with
        | zero =>
          simp only [List.getElem?_cons_zero, Option.some.injEq] at hk
          subst hk
          simp [prettyConstantsFrom, prettyConstTypeVal, bind, Except.bind]
        | succ k =>
          simp only [List.getElem?_cons_succ] at hk
          have := ih k (n + 1) hk
          cases c with
          | none => simp [prettyConstantsFrom, this]
          | some c =>
            cases c <;> simp [prettyConstantsFrom, prettyConstTypeVal, this, bind, Except.bind]
    unfold prettyConstants
    refine key _ (i - 1) 1 ?_
    rw [List.getElem?_drop, show 1 + (i - 1) = i by omega]
    exact hd
  simp [hp]

end Javatools
