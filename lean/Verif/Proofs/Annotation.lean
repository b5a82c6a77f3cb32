import Verif.Spec.Annotation
import Verif.Proofs.ClassFile
import Verif.Proofs.Pool
/-
Lemmas about the annotation reader and annotation equality.
-/
namespace Javatools
open Spec

/-! ### Lists -/

theorem nodup_subset_length {α : Type} [DecidableEq α] {a b : List α} (ha : a.Nodup)
    (h : ∀ x ∈ a, x ∈ b) : a.length ≤ b.length := by
  induction a generalizing b with
  | nil => simp
  | cons x a ih =>
    have hx := h x (by simp)
    have := ih (b := b.erase x) (List.nodup_cons.1 ha).2 (by
      intro y hy
      have hne : y ≠ x := by
        intro e; subst e; exact (List.nodup_cons.1 ha).1 hy
      exact (List.mem_erase_of_ne hne).2 (h y (by simp [hy])))
    rw [List.length_erase_of_mem hx] at this
    have : 0 < b.length := List.length_pos_of_mem hx
    simp only [List.length_cons]; omega

theorem sameKeys_iff {a b : List PVal} (ha : a.Nodup) (hb : b.Nodup) :
    sameKeys a b = true ↔ ∀ k, k ∈ a ↔ k ∈ b := by
  unfold sameKeys
  simp only [Bool.and_eq_true, decide_eq_true_eq, List.all_eq_true]
  constructor
  · rintro ⟨hl, hs⟩ k
    refine ⟨hs k, ?_⟩
    intro hk
    by_cases hka : k ∈ a
    · exact hka
    · have := nodup_subset_length (a := k :: a) (b := b) (List.nodup_cons.2 ⟨hka, ha⟩) (by
        intro x hx
        rcases List.mem_cons.1 hx with rfl | hx
        · exact hk
        · exact hs x hx)
      simp only [List.length_cons] at this
      omega
  · intro h
    refine ⟨?_, fun x hx => (h x).1 hx⟩
    have h1 := nodup_subset_length ha (fun x hx => (h x).1 hx)
    have h2 := nodup_subset_length hb (fun x hx => (h x).2 hx)
    omega

/-! ### Encoding -/

theorem ElemValue.ind {P : ElemValue → Prop} (hc : ∀ t i, P (.const t i)) (he : ∀ a b, P (.enum a b))
    (ha : ∀ t ps, (∀ p ∈ ps, P p.2) → P (.anno t ps))
    (hr : ∀ vs, (∀ v ∈ vs, P v) → P (.arr vs)) : ∀ v, P v := by
  intro v
  refine ElemValue.rec (motive_1 := P) (motive_2 := fun ps => ∀ p ∈ ps, P p.2)
    (motive_3 := fun vs => ∀ v ∈ vs, P v) (motive_4 := fun p => P p.2)
    hc he ha hr (by simp) ?_ (by simp) ?_ (fun _ _ h => h) v
  · intro p ps hp hps q hq
    rcases List.mem_cons.1 hq with rfl | hq
    · exact hp
    · exact hps q hq
  · intro v vs hv hvs w hw
    rcases List.mem_cons.1 hw with rfl | hw
    · exact hv
    · exact hvs w hw

theorem encPairs_eq (ps : List (Nat × ElemValue)) :
    encPairs ps = ps.flatMap fun p => be 2 p.1 ++ p.2.enc := by
  induction ps with
  | nil => rfl
  | cons p ps ih => obtain ⟨k, v⟩ := p; simp [encPairs, ih]

theorem encVals_eq (vs : List ElemValue) : encVals vs = vs.flatMap ElemValue.enc := by
  induction vs with
  | nil => rfl
  | cons v vs ih => simp [encVals, ih]

theorem objectPairs_eq (name : Nat → Str) (ps : List (Nat × ElemValue)) :
    objectPairs name ps = ps.map fun p => (PVal.str (name p.1), p.2.object name) := by
  induction ps with
  | nil => rfl
  | cons p ps ih => obtain ⟨k, v⟩ := p; simp [objectPairs, ih]

theorem objectVals_eq (name : Nat → Str) (vs : List ElemValue) :
    objectVals name vs = vs.map fun v => v.object name := by
  induction vs with
  | nil => rfl
  | cons v vs ih => simp [objectVals, ih]

theorem depth_le_pairs {ps : List (Nat × ElemValue)} {p : Nat × ElemValue} (h : p ∈ ps) :
    p.2.depth ≤ depthPairs ps := by
  induction ps with
  | nil => simp at h
  | cons q ps ih =>
    obtain ⟨k, v⟩ := q
    simp only [depthPairs]
    rcases List.mem_cons.1 h with rfl | h
    · exact Nat.le_max_left _ _
    · exact Nat.le_trans (ih h) (Nat.le_max_right _ _)

theorem depth_le_vals {vs : List ElemValue} {v : ElemValue} (h : v ∈ vs) :
    v.depth ≤ depthVals vs := by
  induction vs with
  | nil => simp at h
  | cons w vs ih =>
    simp only [depthVals]
    rcases List.mem_cons.1 h with rfl | h
    · exact Nat.le_max_left _ _
    · exact Nat.le_trans (ih h) (Nat.le_max_right _ _)

theorem validPairs_mem {pool : Pool} {name : Nat → Str} {ps : List (Nat × ElemValue)}
    (h : ValidPairs pool name ps) {p : Nat × ElemValue} (hp : p ∈ ps) :
    p.1 < 65536 ∧ Utf8At pool p.1 (name p.1) ∧ p.2.Valid pool name := by
  induction ps with
  | nil => simp at hp
  | cons q ps ih =>
    obtain ⟨k, v⟩ := q
    simp only [ValidPairs] at h
    rcases List.mem_cons.1 hp with rfl | hp
    · exact h.1
    · exact ih h.2 hp

theorem validVals_mem {pool : Pool} {name : Nat → Str} {vs : List ElemValue}
    (h : ValidVals pool name vs) {v : ElemValue} (hv : v ∈ vs) : v.Valid pool name := by
  induction vs with
  | nil => simp at hv
  | cons w vs ih =>
    simp only [ValidVals] at h
    rcases List.mem_cons.1 hv with rfl | hv
    · exact h.1
    · exact ih h.2 hv

theorem deref_utf8 {pool : Pool} (h0 : pool[0]? = some none) {i : Nat} {s : Str}
    (h : Utf8At pool i s) (lim : Nat) : deref pool (lim + 1) i = .ok (.str s) := by
  have hi : i ≠ 0 := by intro e; subst e; rw [Utf8At, h0] at h; simp at h
  unfold Utf8At at h
  simp only [deref, hi, if_false, h]

theorem Decodes.annoWith {pool : Pool} (h0 : pool[0]? = some none) {name : Nat → Str}
    {val : Prog AVal} {t : Nat} {ps : List (Nat × ElemValue)} (lim : Nat)
    (ht : t < 65536) (hl : ps.length < 65536) (hn : (ps.map fun p => name p.1).Nodup)
    (hk : ∀ p ∈ ps, p.1 < 65536 ∧ Utf8At pool p.1 (name p.1))
    (hv : ∀ p ∈ ps, Decodes val p.2.enc (p.2.object name)) :
    Decodes (unpackAnnoWith pool (lim + 1) val) (encAnno t ps)
      (.anno t (objectPairs name ps)) := by
  unfold unpackAnnoWith encAnno
  refine Decodes.bind (Decodes.u2u2 ht hl) ?_
  simp only
  have hd : PyDict.ofPairs (objectPairs name ps) = objectPairs name ps := by
    refine PyDict.ofPairs_of_nodup _ ?_
    rw [objectPairs_eq, List.map_map]
    have : (Prod.fst ∘ fun p : Nat × ElemValue => (PVal.str (name p.1), p.2.object name)) =
        PVal.str ∘ fun p => name p.1 := rfl
    rw [this, ← List.map_map]
    exact List.Pairwise.map _ (fun a b hab e => hab (PVal.str.inj e)) hn
  rw [encPairs_eq]
  have := Decodes.bind_ret (f := fun es => AVal.anno t (PyDict.ofPairs es))
    (Decodes.times (p := unpackElem pool (lim + 1) val) (fun p : Nat × ElemValue => be 2 p.1 ++ p.2.enc)
      (fun p => (PVal.str (name p.1), p.2.object name)) ps (by
        intro p hp
        unfold unpackElem
        refine Decodes.bind (Decodes.u2 (hk p hp).1) ?_
        have h2 := Decodes.bind (f := fun v => (Prog.lift (deref pool (lim + 1) p.1)).bind
          fun key => Prog.ret (key, v)) (hv p hp)
          (Decodes.bind_ret (f := fun key => (key, p.2.object name))
            (Decodes.lift (deref_utf8 h0 (hk p hp).2 lim)))
        simpa using h2))
  rw [← objectPairs_eq, hd] at this
  exact this

theorem Decodes.val {pool : Pool} (h0 : pool[0]? = some none) {name : Nat → Str} (lim : Nat)
    (v : ElemValue) : ∀ d, v.depth ≤ d → v.Valid pool name →
    Decodes (unpackVal pool (lim + 1) d) v.enc (v.object name) := by
  induction v using ElemValue.ind with
  | hc t i =>
    intro d hd hv
    simp only [ElemValue.depth] at hd
    simp only [ElemValue.Valid] at hv
    cases d with
    | zero => omega
    | succ d =>
      have ht : t ∈ constTags := hv.1
      have ht' : t < 256 := by
        have : ∀ x ∈ valueTags, x < 256 := by decide
        exact this t hv.1
      simp only [unpackVal, ElemValue.enc, ElemValue.object]
      refine Decodes.bind (Decodes.u1 ht') ?_
      rw [if_pos ht]
      exact Decodes.bind_ret (f := fun i => AVal.const t i) (Decodes.u2 hv.2)
  | he a b =>
    intro d hd hv
    simp only [ElemValue.depth] at hd
    simp only [ElemValue.Valid] at hv
    cases d with
    | zero => omega
    | succ d =>
      simp only [unpackVal, ElemValue.enc, ElemValue.object]
      refine Decodes.bind (Decodes.u1 (by decide)) ?_
      rw [if_neg (by decide), if_pos (by decide)]
      exact Decodes.bind_ret (f := fun p : Nat × Nat => AVal.enum p.1 p.2) (Decodes.u2u2 hv.1 hv.2)
  | ha t ps ih =>
    intro d hd hv
    simp only [ElemValue.depth] at hd
    simp only [ElemValue.Valid] at hv
    cases d with
    | zero => omega
    | succ d =>
      simp only [unpackVal, ElemValue.enc, ElemValue.object]
      refine Decodes.bind (Decodes.u1 (by decide)) ?_
      rw [if_neg (by decide), if_neg (by decide), if_pos (by decide)]
      refine Decodes.annoWith h0 lim hv.1 hv.2.1 hv.2.2.1 ?_ ?_
      · intro p hp
        have := validPairs_mem hv.2.2.2 hp
        exact ⟨this.1, this.2.1⟩
      · intro p hp
        have := depth_le_pairs hp
        exact ih p hp d (by omega) (validPairs_mem hv.2.2.2 hp).2.2
  | hr vs ih =>
    intro d hd hv
    simp only [ElemValue.depth] at hd
    simp only [ElemValue.Valid] at hv
    cases d with
    | zero => omega
    | succ d =>
      simp only [unpackVal, ElemValue.enc, ElemValue.object]
      refine Decodes.bind (Decodes.u1 (by decide)) ?_
      rw [if_neg (by decide), if_neg (by decide), if_neg (by decide), if_pos (by decide),
        encVals_eq, objectVals_eq]
      exact Decodes.bind_ret (f := fun vs => AVal.arr vs)
        (Decodes.counted ElemValue.enc (fun v => v.object name) vs hv.1 (by
          intro v hvm
          have := depth_le_vals hvm
          exact ih v hvm d (by omega) (validVals_mem hv.2 hvm)))

/-! ### Equality -/

theorem eqScaled_symm (a e b f : Int) : eqScaled a e b f = eqScaled b f a e := by
  unfold eqScaled
  rw [Int.min_comm f e]
  exact decide_eq_decide.2 eq_comm

theorem pyEqFloat_symm (a b : PyFloat) : pyEqFloat a b = pyEqFloat b a := by
  cases a <;> cases b <;> simp only [pyEqFloat]
  · rename_i a b; cases a <;> cases b <;> rfl
  · exact eqScaled_symm _ _ _ _

theorem pyEq_symm (a b : PVal) : pyEq a b = pyEq b a := by
  induction a generalizing b with
  | str s => cases b <;> simp only [pyEq]; exact decide_eq_decide.2 eq_comm
  | int i =>
    cases b with
    | int j => simp only [pyEq]; exact decide_eq_decide.2 eq_comm
    | flt f => cases f <;> simp only [pyEq]; exact eqScaled_symm _ _ _ _
    | _ => rfl
  | flt f =>
    cases b with
    | int j => cases f <;> simp only [pyEq]; exact eqScaled_symm _ _ _ _
    | flt g => simp only [pyEq]; exact pyEqFloat_symm f g
    | _ => rw [pyEq.eq_def, pyEq.eq_def]
  | pair x y ih1 ih2 =>
    cases b with
    | pair u v => simp only [pyEq]; rw [ih1, ih2]
    | _ => first | rfl | (rename_i g; cases g <;> rfl)

theorem eqScaled_refl (a e : Int) : eqScaled a e a e = true := by simp [eqScaled]

theorem pyEq_refl (a : PVal) (h : NoNaN a) : pyEq a a = true := by
  induction a with
  | str s => simp [pyEq]
  | int i => simp [pyEq]
  | flt f =>
    cases f with
    | nan => exact absurd h (by simp [NoNaN])
    | inf b => simp [pyEq, pyEqFloat]
    | fin n m e => simp [pyEq, pyEqFloat, eqScaled_refl]
  | pair x y ih1 ih2 => simp [pyEq, ih1 h.1, ih2 h.2]

theorem Spec.Same.symm {s s' : Sem} (h : Same s s') : Same s' s := by
  induction h with
  | const h => exact .const (by rw [pyEq_symm]; exact h)
  | enum h1 h2 => exact .enum (by rw [pyEq_symm]; exact h1) (by rw [pyEq_symm]; exact h2)
  | anno h1 h2 _ ih =>
    exact .anno (by rw [pyEq_symm]; exact h1) (fun k => (h2 k).symm)
      (fun k v w hv hw => ih k w v hw hv)
  | arr h1 _ ih => exact .arr h1.symm (fun i v w hv hw => ih i w v hw hv)

theorem unique_of_nodup_keys {κ ν : Type} [DecidableEq κ] {es : List (κ × ν)}
    (h : (PyDict.keys es).Nodup) {k : κ} {v w : ν} (hv : (k, v) ∈ es) (hw : (k, w) ∈ es) : v = w := by
  have h1 := PyDict.get?_of_mem_nodup h hv
  have h2 := PyDict.get?_of_mem_nodup h hw
  rw [h1] at h2; exact Option.some.inj h2

theorem Spec.Same.refl {s : Sem} (h : s.Ordinary) : Same s s := by
  induction h with
  | const h => exact .const (pyEq_refl _ h)
  | enum h1 h2 => exact .enum (pyEq_refl _ h1) (pyEq_refl _ h2)
  | anno h1 h2 _ ih =>
    refine .anno (pyEq_refl _ h1) (fun _ => Iff.rfl) ?_
    intro k v w hv hw
    have := unique_of_nodup_keys h2 hv hw
    subst this
    exact ih _ hv
  | arr _ ih =>
    refine .arr rfl ?_
    intro i v w hv hw
    rw [hv] at hw
    obtain rfl := Option.some.inj hw
    exact ih v (List.mem_of_getElem? hv)

theorem elemsEq_spec {lp rp : Pool} {lim : Nat} (other : List (PVal × AVal)) (S : PVal → Prop)
    (rest : List (PVal × AVal))
    (h : ∀ p ∈ rest, ∃ w b, PyDict.get? other p.1 = some w ∧ valEq lp rp lim p.2 w = .ok b ∧
      (b = true ↔ S p.1)) :
    ∃ b, elemsEq lp rp lim rest other = .ok b ∧ (b = true ↔ ∀ p ∈ rest, S p.1) := by
  induction rest with
  | nil => exact ⟨true, by simp [elemsEq], by simp⟩
  | cons p rest ih =>
    obtain ⟨k, v⟩ := p
    obtain ⟨w, b, h1, h2, h3⟩ := h (k, v) (by simp)
    obtain ⟨b', h4, h5⟩ := ih (fun q hq => h q (by simp [hq]))
    simp only at h1 h2 h3
    simp only [elemsEq, h1, h2, bind, Except.bind]
    cases b with
    | true =>
      refine ⟨b', h4, ?_⟩
      rw [h5]
      simp only [List.mem_cons, forall_eq_or_imp]
      exact ⟨fun h => ⟨h3.1 rfl, h⟩, fun h => h.2⟩
    | false =>
      refine ⟨false, rfl, ?_⟩
      simp only [List.mem_cons, forall_eq_or_imp, Bool.false_eq_true, false_iff]
      intro hall
      exact absurd (h3.2 hall.1) (by simp)

theorem arrEq_spec {lp rp : Pool} {lim : Nat} (vs ws : List AVal) (S : Nat → Prop)
    (hl : vs.length = ws.length)
    (h : ∀ (i : Nat) v w, vs[i]? = some v → ws[i]? = some w →
      ∃ b, valEq lp rp lim v w = .ok b ∧ (b = true ↔ S i)) :
    ∃ b, arrEq lp rp lim vs ws = .ok b ∧ (b = true ↔ ∀ i < vs.length, S i) := by
  induction vs generalizing ws S with
  | nil => exact ⟨true, by simp [arrEq], by simp⟩
  | cons v vs ih =>
    cases ws with
    | nil => simp at hl
    | cons w ws =>
      obtain ⟨b, h2, h3⟩ := h 0 v w (by simp) (by simp)
      obtain ⟨b', h4, h5⟩ := ih ws (fun i => S (i + 1)) (by simpa using hl)
        (fun i v w hv hw => h (i + 1) v w (by simpa using hv) (by simpa using hw))
      simp only [arrEq, h2, bind, Except.bind]
      cases b with
      | true =>
        refine ⟨b', h4, ?_⟩
        rw [h5]
        constructor
        · intro hall i hi
          cases i with
          | zero => exact h3.1 rfl
          | succ i => exact hall i (by simpa using hi)
        · intro hall i hi
          exact hall (i + 1) (by simpa using hi)
      | false =>
        refine ⟨false, rfl, ?_⟩
        simp only [Bool.false_eq_true, false_iff]
        intro hall
        exact absurd (h3.2 (hall 0 (by simp))) (by simp)

theorem constEq_ok {lp rp : Pool} {lim i j : Nat} {x y : PVal} (h1 : deref lp lim i = .ok x)
    (h2 : deref rp lim j = .ok y) : constEq lp rp lim i j = .ok (pyEq x y) := by
  simp [constEq, h1, h2, bind, Except.bind]

theorem mem_getElem {κ ν μ : Type} {es : List (κ × ν)} {fs : List (κ × μ)}
    (h : PyDict.keys es = PyDict.keys fs) {k : κ} {v : ν} (hm : (k, v) ∈ es) :
    ∃ (i : Nat) (s : μ), es[i]? = some (k, v) ∧ fs[i]? = some (k, s) := by
  obtain ⟨i, hi⟩ := List.mem_iff_getElem?.1 hm
  have h1 : (PyDict.keys es)[i]? = some k := by unfold PyDict.keys; rw [List.getElem?_map, hi]; rfl
  rw [h] at h1
  unfold PyDict.keys at h1
  rw [List.getElem?_map] at h1
  cases hf : fs[i]? with
  | none => rw [hf] at h1; simp at h1
  | some q =>
    rw [hf] at h1
    obtain ⟨k', s⟩ := q
    simp only [Option.map_some, Option.some.injEq] at h1
    subst h1
    exact ⟨i, s, hi, hf⟩

theorem valEq_same {lp rp : Pool} {lim : Nat} {v w : AVal} {s s' : Sem}
    (h : Means lp lim v s) (h' : Means rp lim w s') :
    ∃ b, valEq lp rp lim v w = .ok b ∧ (b = true ↔ Same s s') := by
  induction h generalizing w s' with
  | const h1 =>
    cases h' with
    | @const t j y h2 =>
      simp only [valEq]
      rename_i t' i x
      by_cases ht : t' = t
      · subst ht
        simp only [ne_eq, not_true_eq_false, if_false, constEq_ok h1 h2]
        refine ⟨_, rfl, ⟨fun h => .const h, ?_⟩⟩
        intro h; cases h; assumption
      · simp only [ne_eq, ht, not_false_eq_true, if_true]
        refine ⟨false, rfl, ⟨by simp, ?_⟩⟩
        intro h; cases h; exact absurd rfl ht
    | _ => exact ⟨false, by simp [valEq], by simp, fun h => by cases h⟩
  | enum h1 h2 =>
    cases h' with
    | enum h3 h4 =>
      simp only [valEq, constEq_ok h1 h3, constEq_ok h2 h4, bind, Except.bind]
      split
      · rename_i he
        refine ⟨_, rfl, ⟨fun h => .enum he h, ?_⟩⟩
        intro h; cases h; assumption
      · rename_i he
        refine ⟨false, rfl, ⟨by simp, ?_⟩⟩
        intro h; cases h; exact absurd (by assumption) he
    | _ => exact ⟨false, by simp [valEq], by simp, fun h => by cases h⟩
  | @anno t es x fs h1 h2 h3 h4 ih =>
    cases h' with
    | @anno t' es' y fs' h1' h2' h3' h4' =>
      simp only [valEq, constEq_ok h1 h1', bind, Except.bind]
      split
      · rename_i he
        split
        · rename_i hk
          have hkeys := (sameKeys_iff h3 h3').1 hk
          have key : ∀ p ∈ es, ∃ u b, PyDict.get? es' p.1 = some u ∧
              valEq lp rp lim p.2 u = .ok b ∧
              (b = true ↔ ∀ a c, (p.1, a) ∈ fs → (p.1, c) ∈ fs' → Same a c) := by
            intro p hp
            obtain ⟨k, v⟩ := p
            obtain ⟨i, sv, hi, hfi⟩ := mem_getElem h2 hp
            have hk' : k ∈ PyDict.keys es' := (hkeys k).1 (List.mem_map.2 ⟨_, hp, rfl⟩)
            obtain ⟨u, hu⟩ := Option.isSome_iff_exists.1 ((PyDict.get?_isSome_iff es' k).2 hk')
            obtain ⟨j, sw, hj, hfj⟩ := mem_getElem h2' (PyDict.mem_of_get? hu)
            obtain ⟨b, hb1, hb2⟩ := ih i (k, v) (k, sv) hi hfi (h4' j (k, u) (k, sw) hj hfj)
            refine ⟨u, b, hu, hb1, ?_⟩
            rw [hb2]
            have hms := List.mem_of_getElem? hfi
            have hmw := List.mem_of_getElem? hfj
            constructor
            · intro hs a c ha hc
              have e1 := unique_of_nodup_keys (h2 ▸ h3) ha hms
              have e2 := unique_of_nodup_keys (h2' ▸ h3') hc hmw
              rw [e1, e2]; exact hs
            · intro hall; exact hall sv sw hms hmw
          obtain ⟨b, hb1, hb2⟩ := elemsEq_spec (lp := lp) (rp := rp) (lim := lim) es'
            (fun k => ∀ a c, (k, a) ∈ fs → (k, c) ∈ fs' → Same a c) es key
          refine ⟨b, hb1, ?_⟩
          rw [hb2]
          constructor
          · intro hall
            refine .anno he (fun k => ?_) ?_
            · rw [← h2, ← h2']; exact hkeys k
            · intro k a c ha hc
              obtain ⟨i, u, hi, hei⟩ := mem_getElem h2.symm ha
              exact hall (k, u) (List.mem_of_getElem? hei) a c ha hc
          · intro hs p hp a c ha hc
            cases hs with
            | anno _ _ h => exact h p.1 a c ha hc
        · rename_i hk
          refine ⟨false, rfl, ⟨by simp, ?_⟩⟩
          intro h
          cases h with
          | anno _ hkk _ =>
            exact absurd ((sameKeys_iff h3 h3').2 (fun k => by rw [h2, h2']; exact hkk k)) hk
      · rename_i he
        refine ⟨false, rfl, ⟨by simp, ?_⟩⟩
        intro h; cases h; exact absurd (by assumption) he
    | _ => exact ⟨false, by simp [valEq], by simp, fun h => by cases h⟩
  | @arr vs ss h1 h2 ih =>
    cases h' with
    | @arr ws ss' h1' h2' =>
      simp only [valEq]
      by_cases hl : vs.length = ws.length
      · simp only [ne_eq, hl, not_true_eq_false, if_false]
        obtain ⟨b, hb1, hb2⟩ := arrEq_spec (lp := lp) (rp := rp) (lim := lim) vs ws
          (fun i => ∀ a c, ss[i]? = some a → ss'[i]? = some c → Same a c) hl (by
            intro i v w hv hw
            obtain ⟨iv, _⟩ := List.getElem?_eq_some_iff.1 hv
            obtain ⟨iw, _⟩ := List.getElem?_eq_some_iff.1 hw
            have hs : ss[i]? = some ss[i] := List.getElem?_eq_getElem (by omega)
            have hs' : ss'[i]? = some ss'[i] := List.getElem?_eq_getElem (by omega)
            obtain ⟨b, hb1, hb2⟩ := ih i v _ hv hs (h2' i w _ hw hs')
            refine ⟨b, hb1, ?_⟩
            rw [hb2]
            constructor
            · intro h a c ha hc
              rw [hs] at ha; rw [hs'] at hc
              rw [← Option.some.inj ha, ← Option.some.inj hc]; exact h
            · intro h; exact h _ _ hs hs')
        refine ⟨b, hb1, ?_⟩
        rw [hb2]
        constructor
        · intro hall
          refine .arr (by omega) ?_
          intro i a c ha hc
          obtain ⟨ia, _⟩ := List.getElem?_eq_some_iff.1 ha
          exact hall i (by omega) a c ha hc
        · intro hs i _ a c ha hc
          cases hs with
          | arr _ h => exact h i a c ha hc
      · simp only [ne_eq, hl, not_false_eq_true, if_true]
        refine ⟨false, rfl, ⟨by simp, ?_⟩⟩
        intro h
        cases h with
        | arr hl' _ => omega
    | _ => exact ⟨false, by simp [valEq], by simp, fun h => by cases h⟩

end Javatools
