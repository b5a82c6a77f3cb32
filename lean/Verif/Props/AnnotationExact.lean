import Verif.Props.Annotation
import Verif.Props.ClassExact
/-
C17, converse: the annotation reader accepts only encodings of element values.
-/
namespace Javatools
open Spec

namespace Spec

mutual
/-- Numbers fit and the element names can be looked up (in whatever constant they are). -/
def ElemValue.Readable (pool : Pool) (lim : Nat) : ElemValue → Prop
  | .const t i => t ∈ valueTags ∧ i < 65536
  | .enum a b => a < 65536 ∧ b < 65536
  | .anno t ps => t < 65536 ∧ ps.length < 65536 ∧ ReadablePairs pool lim ps
  | .arr vs => vs.length < 65536 ∧ ReadableVals pool lim vs
def ReadablePairs (pool : Pool) (lim : Nat) : List (Nat × ElemValue) → Prop
  | [] => True
  | (k, v) :: ps => (k < 65536 ∧ (∃ x, deref pool lim k = .ok x) ∧ v.Readable pool lim) ∧
      ReadablePairs pool lim ps
def ReadableVals (pool : Pool) (lim : Nat) : List ElemValue → Prop
  | [] => True
  | v :: vs => v.Readable pool lim ∧ ReadableVals pool lim vs
end

mutual
/-- The object: elements keyed by the constant their name index stands for; of several elements
with the same name the last value, in the place of the first. -/
def ElemValue.read (pool : Pool) (lim : Nat) : ElemValue → AVal
  | .const t i => .const t i
  | .enum a b => .enum a b
  | .anno t ps => .anno t (PyDict.ofPairs (readPairs pool lim ps))
  | .arr vs => .arr (readVals pool lim vs)
def readPairs (pool : Pool) (lim : Nat) : List (Nat × ElemValue) → List (PVal × AVal)
  | [] => []
  | (k, v) :: ps => (keyAt pool lim k, v.read pool lim) :: readPairs pool lim ps
def readVals (pool : Pool) (lim : Nat) : List ElemValue → List AVal
  | [] => []
  | v :: vs => v.read pool lim :: readVals pool lim vs
end

end Spec

theorem readPairs_eq (pool : Pool) (lim : Nat) (ps : List (Nat × ElemValue)) :
    readPairs pool lim ps = ps.map fun p => (keyAt pool lim p.1, p.2.read pool lim) := by
  induction ps with
  | nil => rfl
  | cons p ps ih => obtain ⟨k, v⟩ := p; simp [readPairs, ih]

theorem readVals_eq (pool : Pool) (lim : Nat) (vs : List ElemValue) :
    readVals pool lim vs = vs.map fun v => v.read pool lim := by
  induction vs with
  | nil => rfl
  | cons v vs ih => simp [readVals, ih]

theorem readablePairs_iff (pool : Pool) (lim : Nat) (ps : List (Nat × ElemValue)) :
    ReadablePairs pool lim ps ↔ ∀ p ∈ ps, p.1 < 65536 ∧ (∃ x, deref pool lim p.1 = .ok x) ∧
      p.2.Readable pool lim := by
  induction ps with
  | nil => simp [ReadablePairs]
  | cons p ps ih => obtain ⟨k, v⟩ := p; simp only [ReadablePairs, ih, List.mem_cons, forall_eq_or_imp]

theorem readableVals_iff (pool : Pool) (lim : Nat) (vs : List ElemValue) :
    ReadableVals pool lim vs ↔ ∀ v ∈ vs, v.Readable pool lim := by
  induction vs with
  | nil => simp [ReadableVals]
  | cons v vs ih => simp only [ReadableVals, ih, List.mem_cons, forall_eq_or_imp]

theorem depthPairs_le (ps : List (Nat × ElemValue)) (n : Nat) :
    depthPairs ps ≤ n ↔ ∀ p ∈ ps, p.2.depth ≤ n := by
  induction ps with
  | nil => simp [depthPairs]
  | cons p ps ih =>
    obtain ⟨k, v⟩ := p
    simp only [depthPairs, List.mem_cons, forall_eq_or_imp, ← ih]; omega

theorem depthVals_le (vs : List ElemValue) (n : Nat) :
    depthVals vs ≤ n ↔ ∀ v ∈ vs, v.depth ≤ n := by
  induction vs with
  | nil => simp [depthVals]
  | cons v vs ih => simp only [depthVals, List.mem_cons, forall_eq_or_imp, ← ih]; omega

/-- Conditions on one element. -/
def PairOk (pool : Pool) (lim : Nat) (Q : ElemValue → Prop) (p : Nat × ElemValue) : Prop :=
  p.1 < 65536 ∧ (∃ x, deref pool lim p.1 = .ok x) ∧ Q p.2

theorem Decodes.elem {pool : Pool} {lim : Nat} {val : Prog AVal} {Q : ElemValue → Prop}
    (hv : ∀ v, Q v → Decodes val v.enc (v.read pool lim)) (p : Nat × ElemValue)
    (hp : PairOk pool lim Q p) :
    Decodes (unpackElem pool lim val) (be 2 p.1 ++ p.2.enc) (keyAt pool lim p.1, p.2.read pool lim) := by
  obtain ⟨h1, ⟨x, h2⟩, h3⟩ := hp
  unfold unpackElem
  refine Decodes.bind (Decodes.u2 h1) ?_
  have := Decodes.bind (f := fun v => (Prog.lift (deref pool lim p.1)).bind
    fun key => Prog.ret (key, v)) (hv p.2 h3)
    (Decodes.bind_ret (f := fun key => (key, p.2.read pool lim)) (Decodes.lift h2))
  rw [keyAt_of h2]
  simpa using this

theorem sound_elem {pool : Pool} {lim : Nat} {val : Prog AVal} {Q : ElemValue → Prop}
    (hv : Sound val (fun bs a => ∃ v, Q v ∧ bs = ElemValue.enc v ∧ a = v.read pool lim)) :
    Sound (unpackElem pool lim val) (fun bs a => ∃ p : Nat × ElemValue, PairOk pool lim Q p ∧
      bs = be 2 p.1 ++ p.2.enc ∧ a = (keyAt pool lim p.1, p.2.read pool lim)) := by
  refine (Sound.bind Sound.u2 (fun k => Sound.bind hv (fun v => Sound.bind_ret
    (fun key => (key, v)) (Sound.lift (deref pool lim k))))).mono ?_
  rintro bs a ⟨b1, b2, k, rfl, ⟨hk, rfl⟩, b3, b4, w, rfl, ⟨v, hq, rfl, rfl⟩, key, ⟨rfl, hd⟩, rfl⟩
  exact ⟨(k, v), ⟨hk, ⟨key, hd⟩, hq⟩, by simp, by rw [keyAt_of hd]⟩

/-- The annotations whose values satisfy `Q`. -/
def AnnoOk (pool : Pool) (lim : Nat) (Q : ElemValue → Prop) (a : AnnoS) : Prop :=
  a.type < 65536 ∧ a.pairs.length < 65536 ∧ ∀ p ∈ a.pairs, PairOk pool lim Q p

theorem Decodes.anno {pool : Pool} {lim : Nat} {val : Prog AVal} {Q : ElemValue → Prop}
    (hv : ∀ v, Q v → Decodes val v.enc (v.read pool lim)) (a : AnnoS) (h : AnnoOk pool lim Q a) :
    Decodes (unpackAnnoWith pool lim val) (encAnno a.type a.pairs) (a.value.read pool lim) := by
  unfold unpackAnnoWith encAnno
  refine Decodes.bind (Decodes.u2u2 h.1 h.2.1) ?_
  rw [encPairs_eq, AnnoS.value, ElemValue.read, readPairs_eq]
  exact Decodes.bind_ret (f := fun es => AVal.anno a.type (PyDict.ofPairs es))
    (Decodes.times (p := unpackElem pool lim val) (fun p : Nat × ElemValue => be 2 p.1 ++ p.2.enc)
      (fun p => (keyAt pool lim p.1, p.2.read pool lim)) a.pairs
      (fun p hp => Decodes.elem hv p (h.2.2 p hp)))

theorem sound_anno {pool : Pool} {lim : Nat} {val : Prog AVal} {Q : ElemValue → Prop}
    (hv : Sound val (fun bs a => ∃ v, Q v ∧ bs = ElemValue.enc v ∧ a = v.read pool lim)) :
    Sound (unpackAnnoWith pool lim val) (fun bs a => ∃ x : AnnoS, AnnoOk pool lim Q x ∧
      bs = encAnno x.type x.pairs ∧ a = x.value.read pool lim) := by
  unfold unpackAnnoWith
  refine (Sound.bind Sound.u2u2 (fun h => Sound.bind_ret
    (fun ps => AVal.anno h.1 (PyDict.ofPairs ps)) (Sound.times (sound_elem hv) h.2))).mono ?_
  rintro bs a ⟨b1, b2, ⟨t, n⟩, rfl, ⟨⟨h1, h2⟩, rfl⟩, ps', ⟨ps, h3, h4, rfl, rfl⟩, rfl⟩
  simp only at h1 h2 h3
  subst h3
  refine ⟨⟨t, ps⟩, ⟨h1, h2, h4⟩, ?_, ?_⟩
  · simp only [encAnno, encPairs_eq]
  · simp only [AnnoS.value, ElemValue.read, readPairs_eq]

theorem pairs_ok_iff (pool : Pool) (lim d : Nat) (ps : List (Nat × ElemValue)) :
    (∀ p ∈ ps, PairOk pool lim (fun v => v.Readable pool lim ∧ v.depth ≤ d) p) ↔
    ReadablePairs pool lim ps ∧ depthPairs ps ≤ d := by
  rw [readablePairs_iff, depthPairs_le]
  constructor
  · intro h
    exact ⟨fun p hp => ⟨(h p hp).1, (h p hp).2.1, (h p hp).2.2.1⟩, fun p hp => (h p hp).2.2.2⟩
  · rintro ⟨h1, h2⟩ p hp
    exact ⟨(h1 p hp).1, (h1 p hp).2.1, (h1 p hp).2.2, h2 p hp⟩

theorem Decodes.readVal (pool : Pool) (lim : Nat) (d : Nat) : ∀ v : ElemValue,
    (v.Readable pool lim ∧ v.depth ≤ d) → Decodes (unpackVal pool lim d) v.enc (v.read pool lim) := by
  induction d with
  | zero =>
    rintro v ⟨_, hd⟩
    cases v <;> simp [ElemValue.depth] at hd
  | succ d ih =>
    rintro v ⟨hv, hd⟩
    cases v with
    | const t i =>
      simp only [ElemValue.Readable] at hv
      have ht : t ∈ constTags := hv.1
      have ht' : t < 256 := by
        have : ∀ x ∈ valueTags, x < 256 := by decide
        exact this t hv.1
      simp only [unpackVal, ElemValue.enc, ElemValue.read]
      refine Decodes.bind (Decodes.u1 ht') ?_
      rw [if_pos ht]
      exact Decodes.bind_ret (f := fun i => AVal.const t i) (Decodes.u2 hv.2)
    | enum a b =>
      simp only [ElemValue.Readable] at hv
      simp only [unpackVal, ElemValue.enc, ElemValue.read]
      refine Decodes.bind (Decodes.u1 (by decide)) ?_
      rw [if_neg (by decide), if_pos (by decide)]
      exact Decodes.bind_ret (f := fun p : Nat × Nat => AVal.enum p.1 p.2) (Decodes.u2u2 hv.1 hv.2)
    | anno t ps =>
      simp only [ElemValue.Readable] at hv
      simp only [ElemValue.depth, Nat.add_le_add_iff_right] at hd
      simp only [unpackVal, ElemValue.enc]
      refine Decodes.bind (Decodes.u1 (by decide)) ?_
      rw [if_neg (by decide), if_neg (by decide), if_pos (by decide)]
      exact Decodes.anno ih ⟨t, ps⟩ ⟨hv.1, hv.2.1, (pairs_ok_iff pool lim d ps).2 ⟨hv.2.2, hd⟩⟩
    | arr vs =>
      simp only [ElemValue.Readable, readableVals_iff] at hv
      simp only [ElemValue.depth, Nat.add_le_add_iff_right, depthVals_le] at hd
      simp only [unpackVal, ElemValue.enc, ElemValue.read]
      refine Decodes.bind (Decodes.u1 (by decide)) ?_
      rw [if_neg (by decide), if_neg (by decide), if_neg (by decide), if_pos (by decide),
        encVals_eq, readVals_eq]
      exact Decodes.bind_ret (f := fun vs => AVal.arr vs)
        (Decodes.counted ElemValue.enc (fun v => v.read pool lim) vs hv.1
          (fun v hm => ih v ⟨hv.2 v hm, hd v hm⟩))

theorem sound_readVal (pool : Pool) (lim d : Nat) :
    Sound (unpackVal pool lim d) (fun bs a => ∃ v : ElemValue,
      (v.Readable pool lim ∧ v.depth ≤ d) ∧ bs = v.enc ∧ a = v.read pool lim) := by
  induction d with
  | zero => exact (Sound.fail _).mono (fun _ _ h => h.elim)
  | succ d ih =>
    simp only [unpackVal]
    have key : ∀ t, Sound (if t ∈ constTags then u2.bind fun i => .ret (.const t i)
        else if t = 'e'.toNat then u2u2.bind fun p => .ret (.enum p.1 p.2)
        else if t = '@'.toNat then unpackAnnoWith pool lim (unpackVal pool lim d)
        else if t = '['.toNat then (counted (unpackVal pool lim d)).bind fun vs => .ret (.arr vs)
        else .fail .unimplemented : Prog AVal)
        (fun bs a => ∃ v : ElemValue, (v.Readable pool lim ∧ v.depth ≤ d + 1) ∧
          be 1 t ++ bs = v.enc ∧ a = v.read pool lim) := by
      intro t
      by_cases h1 : t ∈ constTags
      · rw [if_pos h1]
        refine (Sound.bind_ret (fun i => AVal.const t i) Sound.u2).mono ?_
        rintro bs a ⟨i, ⟨hi, rfl⟩, rfl⟩
        exact ⟨.const t i, ⟨⟨h1, hi⟩, by simp [ElemValue.depth]⟩, by simp [ElemValue.enc],
          by simp [ElemValue.read]⟩
      rw [if_neg h1]
      by_cases h2 : t = 'e'.toNat
      · rw [if_pos h2]
        refine (Sound.bind_ret (fun p : Nat × Nat => AVal.enum p.1 p.2) Sound.u2u2).mono ?_
        rintro bs a ⟨p, ⟨hp, rfl⟩, rfl⟩
        subst h2
        exact ⟨.enum p.1 p.2, ⟨hp, by simp [ElemValue.depth]⟩, by simp [ElemValue.enc],
          by simp [ElemValue.read]⟩
      rw [if_neg h2]
      by_cases h3 : t = '@'.toNat
      · rw [if_pos h3]
        refine (sound_anno ih).mono ?_
        rintro bs a ⟨x, hx, rfl, rfl⟩
        subst h3
        have hp := (pairs_ok_iff pool lim d x.pairs).1 hx.2.2
        refine ⟨x.value, ⟨?_, ?_⟩, ?_, rfl⟩
        · simp only [AnnoS.value, ElemValue.Readable]; exact ⟨hx.1, hx.2.1, hp.1⟩
        · simp only [AnnoS.value, ElemValue.depth]; omega
        · simp only [AnnoS.value, ElemValue.enc, encAnno]; rfl
      rw [if_neg h3]
      by_cases h4 : t = '['.toNat
      · rw [if_pos h4]
        refine (Sound.bind_ret (fun vs => AVal.arr vs) (Sound.counted ih)).mono ?_
        rintro bs a ⟨as, ⟨vs, hl, hv, rfl, rfl⟩, rfl⟩
        subst h4
        refine ⟨.arr vs, ⟨?_, ?_⟩, ?_, ?_⟩
        · simp only [ElemValue.Readable, readableVals_iff]; exact ⟨hl, fun v hm => (hv v hm).1⟩
        · simp only [ElemValue.depth, Nat.add_le_add_iff_right, depthVals_le]
          exact fun v hm => (hv v hm).2
        · simp only [ElemValue.enc, encVals_eq]; rfl
        · simp only [ElemValue.read, readVals_eq]
      rw [if_neg h4]
      exact (Sound.fail _).mono (fun _ _ h => h.elim)
    refine (Sound.bind Sound.u1 key).mono ?_
    rintro bs a ⟨b1, b2, t, rfl, ⟨ht, rfl⟩, v, h1, h2, h3⟩
    exact ⟨v, h1, h2, h3⟩

/-- C17, both directions: the reader of element values succeeds exactly on data starting with
the encoding of an element value within the nesting limit, and returns it. Unknown tags,
truncated values and unresolvable element names are refused. -/
theorem C17_accepts_exactly (pool : Pool) (lim depth : Nat) (d : Bytes) (a : AVal) :
    (unpackVal pool lim depth).run d = .ok a ↔ ∃ (v : ElemValue) (rest : Bytes),
      (v.Readable pool lim ∧ v.depth ≤ depth) ∧ d = v.enc ++ rest ∧ a = v.read pool lim := by
  constructor
  · intro h
    obtain ⟨bs, rest, rfl, v, hv, rfl, rfl⟩ := (sound_readVal pool lim depth).run h
    exact ⟨v, rest, hv, rfl, rfl⟩
  · rintro ⟨v, rest, hv, rfl, rfl⟩
    exact (Decodes.readVal pool lim depth v hv).run rest

/-- C17, both directions for the accessors: the annotations returned are those the attribute
starts with; without the attribute, none; anything else raises. -/
theorem C17_annotations_exactly (attribs : Attribs) (pool : Pool) (lim depth : Nat) (attr : String)
    (out : List AVal) :
    getAnnotations attribs pool lim depth attr = .ok out ↔
      (getAttribute attribs attr = none ∧ out = []) ∨
      ∃ (as : List AnnoS) (rest : Bytes), getAttribute attribs attr =
          some ((be 2 as.length ++ as.flatMap fun a => encAnno a.type a.pairs) ++ rest) ∧
        as.length < 65536 ∧
        (∀ a ∈ as, a.value.Readable pool lim ∧ a.value.depth ≤ depth + 1) ∧
        out = as.map fun a => a.value.read pool lim := by
  have hiff : ∀ x : AnnoS, AnnoOk pool lim (fun v => v.Readable pool lim ∧ v.depth ≤ depth) x ↔
      (x.value.Readable pool lim ∧ x.value.depth ≤ depth + 1) := by
    intro x
    simp only [AnnoOk, pairs_ok_iff, AnnoS.value, ElemValue.Readable, ElemValue.depth,
      Nat.add_le_add_iff_right]
    constructor
    · rintro ⟨h1, h2, h3, h4⟩; exact ⟨⟨h1, h2, h3⟩, h4⟩
    · rintro ⟨⟨h1, h2, h3⟩, h4⟩; exact ⟨h1, h2, h3, h4⟩
  unfold getAnnotations
  cases ha : getAttribute attribs attr with
  | none => simp [eq_comm]
  | some buf =>
    simp only [reduceCtorEq, false_and, false_or]
    constructor
    · intro h
      obtain ⟨bs, rest, rfl, as, h1, h2, rfl, rfl⟩ :=
        (Sound.counted (sound_anno (sound_readVal pool lim depth))).run h
      exact ⟨as, rest, rfl, h1, fun a ham => (hiff a).1 (h2 a ham), rfl⟩
    · rintro ⟨as, rest, hb, h1, h2, rfl⟩
      rw [Option.some.inj hb]
      exact (Decodes.counted (p := unpackAnno pool lim depth)
        (fun a : AnnoS => encAnno a.type a.pairs) (fun a : AnnoS => a.value.read pool lim) as h1
        (fun a ham => Decodes.anno (Decodes.readVal pool lim depth) a ((hiff a).2 (h2 a ham)))).run rest

/-- A repeated element name: the last value wins. -/
example : (ElemValue.anno 1 [(1, .const 73 2), (1, .const 73 3)]).read
      [none, some (.utf8 "x".toList)] 5 = .anno 1 [(.str "x".toList, .const 73 3)] := by
  simp [ElemValue.read, readPairs, PyDict.ofPairs, PyDict.set, keyAt, deref]

example (pool : Pool) (lim : Nat) : ∃ e, (unpackVal pool lim 5).run [0x5A, 0] = .error e ∧
    (unpackVal pool lim 5).run [0x51, 0, 0] = .error .unimplemented :=
  ⟨_, rfl, rfl⟩

end Javatools
