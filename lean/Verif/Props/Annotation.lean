import Verif.Proofs.Annotation
/-
C17, C18: annotations.
-/
namespace Javatools
open Spec

/-! ## C17 -/

/-- C17. Reading the encoding of any element value whose nesting is within the recursion limit
yields that value and consumes exactly its bytes. -/
theorem C17_element_value (pool : Pool) (h0 : pool[0]? = some none) (name : Nat → Str)
    (lim depth : Nat) (v : ElemValue) (hv : v.Valid pool name) (hd : v.depth ≤ depth)
    (rest : Bytes) :
    (unpackVal pool (lim + 1) depth).runBuf ⟨some (v.enc ++ rest), 0⟩ =
      (.ok (v.object name), ⟨some (v.enc ++ rest), v.enc.length⟩) := by
  have := Decodes.val h0 (name := name) lim v depth hd hv
  simpa using this [] rest

/-- An annotation of the specification. -/
structure AnnoS where
  type : Nat
  pairs : List (Nat × ElemValue)

def AnnoS.value (a : AnnoS) : ElemValue := .anno a.type a.pairs

/-- C17. The annotation accessors of a class or member whose attribute holds the encoding of any
list of annotations return exactly these annotations. -/
theorem C17_annotations (attribs : Attribs) (pool : Pool) (h0 : pool[0]? = some none)
    (name : Nat → Str) (lim depth : Nat) (attr : String) (as : List AnnoS)
    (hl : as.length < 65536) (hv : ∀ a ∈ as, a.value.Valid pool name)
    (hd : ∀ a ∈ as, a.value.depth ≤ depth + 1)
    (ha : getAttribute attribs attr =
      some (be 2 as.length ++ as.flatMap fun a => encAnno a.type a.pairs)) :
    getAnnotations attribs pool (lim + 1) depth attr =
      .ok (as.map fun a => a.value.object name) := by
  have one : ∀ a ∈ as, Decodes (unpackAnno pool (lim + 1) depth) (encAnno a.type a.pairs)
      (a.value.object name) := by
    intro a ham
    have hva := hv a ham
    have hda := hd a ham
    simp only [AnnoS.value, ElemValue.Valid, ElemValue.depth] at hva hda
    have ho : a.value.object name = .anno a.type (objectPairs name a.pairs) := by
      rw [AnnoS.value, ElemValue.object]
    rw [ho]
    refine Decodes.annoWith h0 lim hva.1 hva.2.1 hva.2.2.1 ?_ ?_
    · intro p hp
      have := validPairs_mem hva.2.2.2 hp
      exact ⟨this.1, this.2.1⟩
    · intro p hp
      have := depth_le_pairs hp
      exact Decodes.val h0 lim p.2 depth (by omega) (validPairs_mem hva.2.2.2 hp).2.2
  have hdec : Decodes (unpackAnnos pool (lim + 1) depth)
      (be 2 as.length ++ as.flatMap fun a => encAnno a.type a.pairs)
      (as.map fun a => a.value.object name) := by
    unfold unpackAnnos
    have h := Decodes.counted (p := unpackAnno pool (lim + 1) depth)
      (fun a : AnnoS => encAnno a.type a.pairs) (fun a : AnnoS => a.value.object name) as hl
    exact h one
  have h := hdec.run []
  rw [List.append_nil] at h
  unfold getAnnotations
  rw [ha]
  exact h

/-- C17. The same for parameter annotations: one list per parameter, in order. -/
theorem C17_parameter_annotations (attribs : Attribs) (pool : Pool) (h0 : pool[0]? = some none)
    (name : Nat → Str) (lim depth : Nat) (attr : String) (params : List (List AnnoS))
    (hp : params.length < 256) (hl : ∀ as ∈ params, as.length < 65536)
    (hv : ∀ as ∈ params, ∀ a ∈ as, a.value.Valid pool name)
    (hd : ∀ as ∈ params, ∀ a ∈ as, a.value.depth ≤ depth + 1)
    (ha : getAttribute attribs attr = some (be 1 params.length ++ params.flatMap fun as =>
      be 2 as.length ++ as.flatMap fun a => encAnno a.type a.pairs)) :
    getParamAnnotations attribs pool (lim + 1) depth attr =
      .ok (params.map fun as => as.map fun a => a.value.object name) := by
  have one : ∀ as ∈ params, ∀ a ∈ as, Decodes (unpackAnno pool (lim + 1) depth)
      (encAnno a.type a.pairs) (a.value.object name) := by
    intro as has a ham
    have hva := hv as has a ham
    have hda := hd as has a ham
    simp only [AnnoS.value, ElemValue.Valid, ElemValue.depth] at hva hda
    have ho : a.value.object name = .anno a.type (objectPairs name a.pairs) := by
      rw [AnnoS.value, ElemValue.object]
    rw [ho]
    refine Decodes.annoWith h0 lim hva.1 hva.2.1 hva.2.2.1 ?_ ?_
    · intro p hp
      have := validPairs_mem hva.2.2.2 hp
      exact ⟨this.1, this.2.1⟩
    · intro p hp
      have := depth_le_pairs hp
      exact Decodes.val h0 lim p.2 depth (by omega) (validPairs_mem hva.2.2.2 hp).2.2
  have lists : ∀ as ∈ params, Decodes (unpackAnnos pool (lim + 1) depth)
      (be 2 as.length ++ as.flatMap fun a => encAnno a.type a.pairs)
      (as.map fun a => a.value.object name) := by
    intro as has
    unfold unpackAnnos
    have h := Decodes.counted (p := unpackAnno pool (lim + 1) depth)
      (fun a : AnnoS => encAnno a.type a.pairs) (fun a : AnnoS => a.value.object name) as (hl as has)
    exact h (one as has)
  have hdec := Decodes.bind (f := fun n => Prog.times n (unpackAnnos pool (lim + 1) depth))
    (Decodes.u1 hp) (Decodes.times _ _ params lists)
  have h := hdec.run []
  rw [List.append_nil] at h
  unfold getParamAnnotations
  rw [ha]
  exact h

/-- A nested example: `@T(x = {@U(y = 'c'), 5})`. -/
def demoAnno : AnnoS := ⟨1, [(2, .arr [.anno 1 [(2, .const 67 4), (3, .enum 1 2)], .const 73 5])]⟩

def demoAnnoPool : Pool := [none, some (.utf8 "LT;".toList), some (.utf8 "x".toList),
  some (.utf8 "y".toList), some (.integer 99), some (.integer 5)]

def demoName : Nat → Str
  | 2 => "x".toList
  | _ => "y".toList

example : demoAnno.value.Valid demoAnnoPool demoName ∧ demoAnno.value.depth = 4 := by
  refine ⟨?_, by decide⟩
  simp only [AnnoS.value, demoAnno, ElemValue.Valid, ValidPairs, ValidVals]
  refine ⟨by decide, by decide, by decide, ⟨by decide, rfl, by decide, ⟨by decide, by decide, ?_, ?_⟩,
    by decide, trivial⟩, trivial⟩
  · decide
  · exact ⟨⟨by decide, rfl, by decide, by decide⟩, ⟨by decide, rfl, by decide, by decide⟩, trivial⟩

/-! ## C18 -/

/-- C18. Comparing two element values (in particular two annotations) over any two constant pools
succeeds and says "equal" exactly when they mean the same. -/
theorem C18_equal_iff_same_meaning (lp rp : Pool) (lim : Nat) (v w : AVal) (s s' : Sem)
    (hv : Means lp lim v s) (hw : Means rp lim w s') :
    (valEq lp rp lim v w = .ok true ↔ Same s s') ∧
    (valEq lp rp lim v w = .ok false ↔ ¬ Same s s') := by
  obtain ⟨b, h1, h2⟩ := valEq_same hv hw
  rw [h1, ← h2]
  cases b <;> simp

/-- C18. The result does not depend on the numbering of the pools: whatever other pools and
indices express the same two meanings, the comparison gives the same answer. -/
theorem C18_renumbering (lp rp lp' rp' : Pool) (lim lim' : Nat) (v w v' w' : AVal) (s s' : Sem)
    (hv : Means lp lim v s) (hw : Means rp lim w s')
    (hv' : Means lp' lim' v' s) (hw' : Means rp' lim' w' s') :
    valEq lp rp lim v w = valEq lp' rp' lim' v' w' := by
  obtain ⟨b, h1, h2⟩ := valEq_same hv hw
  obtain ⟨b', h3, h4⟩ := valEq_same hv' hw'
  rw [h1, h3]
  congr 1
  rw [Bool.eq_iff_iff, h2, h4]

/-- C18. Symmetry. -/
theorem C18_symmetric (lp rp : Pool) (lim : Nat) (v w : AVal) (s s' : Sem)
    (hv : Means lp lim v s) (hw : Means rp lim w s') :
    valEq lp rp lim v w = valEq rp lp lim w v := by
  obtain ⟨b, h1, h2⟩ := valEq_same hv hw
  obtain ⟨b', h3, h4⟩ := valEq_same hw hv
  rw [h1, h3]
  congr 1
  rw [Bool.eq_iff_iff, h2, h4]
  exact ⟨Spec.Same.symm, Spec.Same.symm⟩

/-- The reflexivity part of C18, for every annotation. -/
def C18_reflexive_full : Prop :=
  ∀ (pool : Pool) (lim : Nat) (v : AVal) (s : Sem), Means pool lim v s →
    valEq pool pool lim v v = .ok true

/-- It is false: an annotation holding a NaN differs from itself. -/
theorem C18_reflexive_full_fails : ¬ C18_reflexive_full := by
  intro h
  have h1 := h [none, some (.utf8 []), some (.float 0x7FC00000)] 5
    (.anno 1 [(.str [], .const 70 2)]) (.anno (.str []) [(.str [], .const 70 (.flt .nan))])
    (.anno (by decide) rfl (by decide) (by
      intro i p q hp hq
      match i with
      | 0 =>
        simp only [List.getElem?_cons_zero, Option.some.injEq] at hp hq
        subst hp; subst hq
        exact .const (by decide)
      | i + 1 => simp at hp))
  have h2 : valEq [none, some (.utf8 []), some (.float 0x7FC00000)]
      [none, some (.utf8 []), some (.float 0x7FC00000)] 5
      (.anno 1 [(.str [], .const 70 2)]) (.anno 1 [(.str [], .const 70 2)]) = .ok false := by
    simp [valEq, elemsEq, constEq, deref, sameKeys, PyDict.keys, PyDict.get?, pyEq, bind,
      Except.bind, pyEqFloat, float32]
  rw [h2] at h1
  simp at h1

/-- C18. Reflexivity (missing: annotations with a NaN), also across pools: two annotations that
mean the same thing compare equal. -/
theorem C18_reflexive_partial (lp rp : Pool) (lim : Nat) (v w : AVal) (s : Sem)
    (hs : s.Ordinary) (hv : Means lp lim v s) (hw : Means rp lim w s) :
    valEq lp rp lim v w = .ok true :=
  (C18_equal_iff_same_meaning lp rp lim v w s s hv hw).1.2 (.refl hs)

/-- What "equal constants" means for finite numbers: they denote the same number (so `0.0` and
`-0.0` are equal, and `1` and `1.0`). -/
theorem C18_float_equality (n n' : Bool) (m m' : Nat) (e e' : Int) (k : Nat)
    (hk : 0 ≤ e + k) (hk' : 0 ≤ e' + k) :
    pyEq (.flt (.fin n m e)) (.flt (.fin n' m' e')) = true ↔
      signedNat n m * 2 ^ (e + k).toNat = signedNat n' m' * 2 ^ (e' + k).toNat := by
  simp only [pyEq, pyEqFloat, eqScaled, decide_eq_true_eq]
  have key : ∀ a b : Int, a * 2 ^ (e + k).toNat = b * 2 ^ (e' + k).toNat ↔
      a * ((2 ^ (e - min e e').toNat : Nat) : Int) = b * ((2 ^ (e' - min e e').toNat : Nat) : Int) := by
    intro a b
    have h1 : (e + k).toNat = (e - min e e').toNat + (min e e' + k).toNat := by omega
    have h2 : (e' + k).toNat = (e' - min e e').toNat + (min e e' + k).toNat := by omega
    rw [h1, h2, Int.pow_add, Int.pow_add, ← Int.mul_assoc, ← Int.mul_assoc]
    have hp : (2 : Int) ^ (min e e' + k).toNat ≠ 0 := by
      have := Int.pow_pos (n := 2) (m := (min e e' + k).toNat) (by decide)
      omega
    rw [Int.mul_eq_mul_right_iff hp]
    simp
  rw [key]

example : pyEq (.flt (float64 0)) (.flt (float64 0x8000000000000000)) = true ∧
    pyEq (.int 1) (.flt (float32 0x3F800000)) = true := by decide

/-- Two differently numbered pools and element orders, equal annotations. -/
example :
    valEq [none, some (.utf8 "T".toList), some (.integer 7)]
      [none, some (.integer 7), some (.utf8 "T".toList)] 5
      (.anno 1 [(.str "a".toList, .const 73 2), (.str "b".toList, .arr [.const 115 1])])
      (.anno 2 [(.str "b".toList, .arr [.const 115 2]), (.str "a".toList, .const 73 1)]) =
        .ok true := by
  simp [valEq, arrEq, elemsEq, constEq, deref, sameKeys, PyDict.keys, PyDict.get?, pyEq, bind,
      Except.bind]

end Javatools
