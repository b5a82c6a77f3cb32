import Verif.Model.ClassDiff
import Verif.Proofs.Dict
import Verif.Proofs.Annotation
import Verif.Proofs.Pool
import Verif.Props.Change
/-
Lemmas about the class comparison model.
-/
namespace Javatools

namespace PyDict
variable {κ ν : Type} [DecidableEq κ]

theorem del_of_not_mem (d : PyDict κ ν) (k : κ) (h : k ∉ d.keys) : d.del k = d := by
  induction d with
  | nil => rfl
  | cons p d ih =>
    obtain ⟨a, b⟩ := p
    simp only [keys, List.map_cons, List.mem_cons, not_or] at h
    have ha : ¬ a = k := fun e => h.1 e.symm
    simp only [del, if_neg ha]
    rw [ih h.2]

theorem del_eq_filter (d : PyDict κ ν) (k : κ) (h : d.keys.Nodup) :
    d.del k = d.filter (fun p => decide (p.1 ≠ k)) := by
  induction d with
  | nil => rfl
  | cons p d ih =>
    obtain ⟨a, b⟩ := p
    simp only [keys, List.map_cons, List.nodup_cons] at h
    by_cases ha : a = k
    · subst ha
      have : d.filter (fun p => decide (p.1 ≠ a)) = d := by
        rw [List.filter_eq_self]
        intro q hq
        have : q.1 ≠ a := fun e => h.1 (e ▸ List.mem_map_of_mem hq)
        simpa using this
      simp only [del, if_true, ne_eq, not_true_eq_false, decide_false, Bool.false_eq_true,
        not_false_eq_true, List.filter_cons_of_neg]
      exact this.symm
    · simp only [del, if_neg ha]
      rw [List.filter_cons_of_pos (by simpa using ha), ih h.2]

theorem nodup_keys_filter (d : PyDict κ ν) (q : κ × ν → Bool) (h : d.keys.Nodup) :
    (PyDict.keys (d.filter q)).Nodup :=
  List.Nodup.sublist (List.filter_sublist.map Prod.fst) h

theorem get?_filter_ne (d : PyDict κ ν) (k k' : κ) (h : k' ≠ k) :
    PyDict.get? (d.filter (fun p => decide (p.1 ≠ k))) k' = d.get? k' := by
  induction d with
  | nil => rfl
  | cons p d ih =>
    obtain ⟨a, b⟩ := p
    by_cases ha : a = k
    · subst ha
      rw [List.filter_cons_of_neg (by simp), ih]
      simp [get?, Ne.symm h]
    · rw [List.filter_cons_of_pos (by simpa using ha)]
      simp only [get?, ih]

end PyDict

/-! ### Members -/

section
variable (lident rident : Member → Res Str) (lid rid : Member → Str)

theorem leftMembers_eq (ls : List Member) (h : ∀ m ∈ ls, lident m = .ok (lid m))
    (li : PyDict Str Member) :
    leftMembers lident li ls =
      .ok ((ls.map fun m => (lid m, m)).foldl (fun d p => PyDict.set d p.1 p.2) li) := by
  induction ls generalizing li with
  | nil => rfl
  | cons m ms ih =>
    simp only [leftMembers, h m (by simp), List.map_cons, List.foldl_cons]
    exact ih (fun x hx => h x (by simp [hx])) _

/-- What is yielded for a right member, given the left dictionary. -/
def rightDelta (li : PyDict Str Member) (r : Member) : MemberDelta :=
  match li.get? (rid r) with
  | some l => .changed l r
  | none => .added r

theorem rightMembers_eq (rs : List Member) (h : ∀ m ∈ rs, rident m = .ok (rid m))
    (hn : (rs.map rid).Nodup) (li : PyDict Str Member) (hl : li.keys.Nodup) :
    rightMembers rident li rs = .ok (rs.map (rightDelta rid li) ++
      (li.filter fun p => decide (p.1 ∉ rs.map rid)).map fun p => .removed p.2) := by
  induction rs generalizing li with
  | nil =>
    have : li.filter (fun p => decide (p.1 ∉ ([] : List Member).map rid)) = li := by
      rw [List.filter_eq_self]; simp
    rw [this]
    rfl
  | cons m ms ih =>
    simp only [List.map_cons, List.nodup_cons] at hn
    have ih' := ih (fun x hx => h x (by simp [hx])) hn.2
    have key : ∀ li' : PyDict Str Member, (∀ k, k ≠ rid m → li'.get? k = li.get? k) →
        ms.map (rightDelta rid li') = ms.map (rightDelta rid li) := by
      intro li' hk
      apply List.map_congr_left
      intro x hx
      have : rid x ≠ rid m := fun e => hn.1 (e ▸ List.mem_map_of_mem hx)
      simp only [rightDelta, hk _ this]
    simp only [rightMembers, h m (by simp)]
    cases hg : li.get? (rid m) with
    | some lf =>
      simp only
      rw [PyDict.del_eq_filter _ _ hl, ih' _ (PyDict.nodup_keys_filter _ _ hl),
        key _ (fun k hk => PyDict.get?_filter_ne _ _ _ hk)]
      have hd : rightDelta rid li m = .changed lf m := by simp [rightDelta, hg]
      simp only [Except.map, List.map_cons, List.cons_append, Except.ok.injEq, hd]
      rw [List.filter_filter]
      congr 4
      funext p
      rw [Bool.eq_iff_iff]
      simp only [List.mem_cons, not_or, Bool.and_eq_true, decide_eq_true_eq]
      exact and_comm
    | none =>
      simp only
      rw [ih' _ hl]
      have hd : rightDelta rid li m = .added m := by simp [rightDelta, hg]
      simp only [Except.map, List.map_cons, List.cons_append, Except.ok.injEq, hd]
      congr 3
      apply List.filter_congr
      intro p hp
      rw [Bool.eq_iff_iff]
      have hne : p.1 ≠ rid m := by
        intro e
        have := (PyDict.get?_eq_none_iff _ _).1 hg
        exact this (e ▸ List.mem_map_of_mem hp)
      simp [hne]
end

/-! ### Quiet trees -/

namespace Change
variable {O : Type}

/-- Checking the object, if it does not raise, finds nothing. -/
def Quiet (c : Change O) : Prop := ∀ c', c.check = .ok c' → c'.isChange = false

theorem Quiet.super {h : Hdr O} (hk : h.kind = .plain) {b : Bool} {d : Option Str}
    {cs : List (Change O)} (hq : ∀ x ∈ cs, Quiet x) : Quiet (.super h none b d cs) := by
  intro c' hc
  simp only [check] at hc
  cases hca : checkAll cs false with
  | error e => rw [hca] at hc; simp at hc
  | ok p =>
    obtain ⟨cs', b'⟩ := p
    rw [hca] at hc
    simp only [Except.ok.injEq] at hc
    subst hc
    obtain ⟨h1, _, h3, _⟩ := checkAll_ok _ _ _ _ hca
    simp only [isChange, hk]
    cases hb : b' with
    | false => rfl
    | true =>
      rcases h3.1 hb with h | ⟨x', hx', hxc⟩
      · simp at h
      · obtain ⟨x, hx, hxx⟩ := h1 x' hx'
        rw [hq x hx x' hxx] at hxc
        simp at hxc

theorem Quiet.short {h : Hdr O} (hk : h.kind = .plain) {b : Bool} {d : Option Str}
    {cs : List (Change O)} : Quiet (.super h (some false) b d cs) := by
  intro c' hc
  simp only [check, Except.ok.injEq] at hc
  subst hc
  simp [isChange, hk]

theorem Quiet.leaf {h : Hdr O} (hk : h.kind = .plain) {r : Res (Bool × Option Str)}
    (hr : ∀ d, r ≠ .ok (true, d)) {b : Bool} {d : Option Str} : Quiet (.leaf h (some r) b d) := by
  intro c' hc
  cases r with
  | error e => simp [check] at hc
  | ok p =>
    obtain ⟨x, y⟩ := p
    simp only [check, Except.ok.injEq] at hc
    subst hc
    simp only [isChange, hk]
    cases x with
    | false => rfl
    | true => exact absurd rfl (hr y)

theorem quiet_raises (e : PyErr) : ∀ x ∈ raises e, Quiet x := by
  intro x hx
  simp only [raises, List.mem_singleton] at hx
  subst hx
  exact .leaf rfl (by simp)

end Change
open Change Spec

theorem checkImpl_quiet {label : Str} {d : Res Bool} {l r : Res Str} (h : d ≠ .ok true) (t) :
    checkImpl label d l r ≠ .ok (true, t) := by
  unfold checkImpl
  split
  · simp
  · simp
  · exact absurd rfl h

theorem genericLeaf_quiet {name label : String} {ign : IgnoreRule Opts} {d : Res Bool}
    {l r : Res Str} (h : d ≠ .ok true) : Quiet (genericLeaf name label ign d l r) :=
  .leaf rfl (checkImpl_quiet h)

theorem differs_self {α : Type} {eq : α → α → Bool} {x : Res α}
    (h : ∀ v, x = .ok v → eq v v = true) : differs eq x x ≠ .ok true := by
  unfold differs
  cases x with
  | error e => simp
  | ok v => simp [h v rfl]

theorem map_not_ne {r : Res Bool} (h : r ≠ .ok false) : (r.map fun b => !b) ≠ .ok true := by
  cases r with
  | error e => simp [Except.map]
  | ok b =>
    cases b with
    | true => simp [Except.map]
    | false => exact absurd rfl h

/-! ### Values without not-a-number -/

/-- No constant of the pool is a not-a-number. -/
def NaNFree (pool : Pool) : Prop :=
  ∀ (i : Nat) c, pool[i]? = some (some c) →
    (∀ b, c = .float b → float32 b ≠ .nan) ∧ (∀ b, c = .double b → float64 b ≠ .nan)

theorem noNaN_flt {f : PyFloat} (h : f ≠ .nan) : NoNaN (.flt f) := by
  cases f with
  | nan => exact absurd rfl h
  | inf b => trivial
  | fin n m e => trivial

theorem deref_noNaN {pool : Pool} (hp : NaNFree pool) {lim i : Nat} {v : PVal}
    (h : deref pool lim i = .ok v) : NoNaN v := by
  induction lim generalizing i v with
  | zero => simp [deref] at h
  | succ lim ih =>
    simp only [deref] at h
    split at h
    · simp at h
    · split at h
      · simp at h
      · simp at h
      · rename_i c hc
        have hcn := hp i c hc
        have pair : ∀ a b, (do let x ← deref pool lim a; let y ← deref pool lim b
                               .ok (PVal.pair x y) : Res PVal) = .ok v → NoNaN v := by
          intro a b hab
          cases ha : deref pool lim a with
          | error e => simp [ha, bind, Except.bind] at hab
          | ok x =>
            cases hb : deref pool lim b with
            | error e => simp [ha, hb, bind, Except.bind] at hab
            | ok y =>
              simp only [ha, hb, bind, Except.bind, Except.ok.injEq] at hab
              subst hab
              exact ⟨ih ha, ih hb⟩
        have one : ∀ a b, (do let y ← deref pool lim b
                              .ok (PVal.pair (.int a) y) : Res PVal) = .ok v → NoNaN v := by
          intro a b hab
          cases hb : deref pool lim b with
          | error e => simp [hb, bind, Except.bind] at hab
          | ok y =>
            simp only [hb, bind, Except.bind, Except.ok.injEq] at hab
            subst hab
            exact ⟨trivial, ih hb⟩
        cases c with
        | utf8 s => simp only [Except.ok.injEq] at h; subst h; trivial
        | integer s => simp only [Except.ok.injEq] at h; subst h; trivial
        | long s => simp only [Except.ok.injEq] at h; subst h; trivial
        | float b => simp only [Except.ok.injEq] at h; subst h; exact noNaN_flt (hcn.1 b rfl)
        | double b => simp only [Except.ok.injEq] at h; subst h; exact noNaN_flt (hcn.2 b rfl)
        | cls n => exact ih h
        | string n => exact ih h
        | methodType n => exact ih h
        | module n => exact ih h
        | package n => exact ih h
        | fieldref a b => exact pair a b h
        | methodref a b => exact pair a b h
        | ifaceMethodref a b => exact pair a b h
        | nameAndType a b => exact pair a b h
        | moduleId a b => exact pair a b h
        | invokeDynamic a b => exact one a b h
        | dynamic a b => exact one a b h
        | methodHandle a b => exact one a b h

theorem listEq_self {xs : List PVal} (h : ∀ x ∈ xs, NoNaN x) : listEq xs xs = true := by
  induction xs with
  | nil => rfl
  | cons x xs ih =>
    simp only [listEq, pyEq_refl x (h x (by simp)), ih (fun y hy => h y (by simp [hy])),
      Bool.and_self]

theorem setEq_self {xs : List PVal} (h : ∀ x ∈ xs, NoNaN x) : setEq xs xs = true := by
  simp only [setEq, Bool.and_eq_true, List.all_eq_true, List.any_eq_true]
  exact ⟨fun x hx => ⟨x, hx, pyEq_refl x (h x hx)⟩, fun x hx => ⟨x, hx, pyEq_refl x (h x hx)⟩⟩

theorem optEq_self {x : Option PVal} (h : ∀ v, x = some v → NoNaN v) : optEq x x = true := by
  cases x with
  | none => rfl
  | some v => exact pyEq_refl v (h v rfl)

theorem constPyEq_self {c : Const} (h : (∀ b, c = .float b → float32 b ≠ .nan) ∧
    (∀ b, c = .double b → float64 b ≠ .nan)) : constPyEq c c = true := by
  have fl : ∀ f : PyFloat, f ≠ .nan → pyEqFloat f f = true := by
    intro f hf
    have := pyEq_refl (.flt f) (noNaN_flt hf)
    simpa [pyEq] using this
  cases c <;> simp only [constPyEq, decide_true]
  · exact fl _ (h.1 _ rfl)
  · exact fl _ (h.2 _ rfl)

theorem poolEq_self {pool : Pool} (h : NaNFree pool) : poolEq pool pool = true := by
  induction pool with
  | nil => rfl
  | cons c pool ih =>
    have h1 : NaNFree pool := fun i c hc => h (i + 1) c (by simpa using hc)
    simp only [poolEq, ih h1, Bool.and_true]
    cases c with
    | none => rfl
    | some c => exact constPyEq_self (h 0 c (by simp))

theorem mapM_ok_mem {α β : Type} {f : α → Res β} {xs : List α} {ys : List β}
    (h : xs.mapM f = .ok ys) : ∀ y ∈ ys, ∃ x ∈ xs, f x = .ok y := by
  induction xs generalizing ys with
  | nil => simp only [List.mapM_nil, pure, Except.pure, Except.ok.injEq] at h; subst h; simp
  | cons x xs ih =>
    simp only [List.mapM_cons, bind, Except.bind, pure, Except.pure] at h
    cases hx : f x with
    | error e => rw [hx] at h; simp at h
    | ok y =>
      rw [hx] at h
      simp only at h
      cases hxs : xs.mapM f with
      | error e => rw [hxs] at h; simp at h
      | ok ys' =>
        rw [hxs] at h
        simp only [Except.ok.injEq] at h
        subst h
        intro z hz
        rcases List.mem_cons.1 hz with rfl | hz
        · exact ⟨x, by simp, hx⟩
        · obtain ⟨w, hw, hw2⟩ := ih hxs z hz
          exact ⟨w, by simp [hw], hw2⟩

theorem Prog.Post.lift {α : Type} {P : α → Prop} {r : Res α} (h : ∀ a, r = .ok a → P a) :
    (Prog.lift r).Post P := by
  cases r with
  | error e => trivial
  | ok a => exact h a rfl

theorem Prog.Post.times {α : Type} {P : α → Prop} {p : Prog α} (h : p.Post P) (n : Nat) :
    (Prog.times n p).Post (fun xs => ∀ x ∈ xs, P x) := by
  induction n with
  | zero => simp [Prog.times, Prog.Post]
  | succ n ih =>
    refine h.bind fun a ha => ih.bind fun as has => ?_
    simp only [Prog.Post, List.mem_cons, forall_eq_or_imp]
    exact ⟨ha, has⟩

theorem Prog.Post.counted {α : Type} {P : α → Prop} {p : Prog α} (h : p.Post P) :
    (Javatools.counted p).Post (fun xs => ∀ x ∈ xs, P x) :=
  (Prog.Post.trivial u2).bind fun _ _ => h.times _

theorem getExceptions_noNaN {m : Member} {pool : Pool} (hp : NaNFree pool) {lim : Nat}
    {xs : List PVal} (h : m.getExceptions pool lim = .ok xs) : ∀ x ∈ xs, NoNaN x := by
  unfold Member.getExceptions at h
  split at h
  · simp only [Except.ok.injEq] at h; subst h; simp
  · refine Prog.Post.run (P := fun xs : List PVal => ∀ x ∈ xs, NoNaN x)
      (p := Javatools.counted (u2.bind fun i => Prog.lift (deref pool lim i))) ?_ _ xs h
    exact Prog.Post.counted ((Prog.Post.trivial u2).bind fun i _ =>
      Prog.Post.lift fun a ha => deref_noNaN hp ha)

theorem derefAttr_noNaN {a : Attribs} {pool : Pool} (hp : NaNFree pool) {lim : Nat} {name : String}
    {x : Option PVal} (h : derefAttr a pool lim name = .ok x) : ∀ v, x = some v → NoNaN v := by
  unfold derefAttr at h
  split at h
  · simp only [Except.ok.injEq] at h; subst h; simp
  · rename_i buf _
    cases hu : u2.run buf with
    | error e => simp [hu, bind, Except.bind] at h
    | ok i =>
      cases hd : deref pool lim i with
      | error e => simp [hu, hd, bind, Except.bind] at h
      | ok v =>
        simp only [hu, hd, bind, Except.bind, Except.ok.injEq] at h
        subst h
        intro w hw
        simp only [Option.some.injEq] at hw
        subst hw
        exact deref_noNaN hp hd

theorem derefConstantvalue_noNaN {m : Member} {pool : Pool} (hp : NaNFree pool) {lim : Nat}
    {x : Option PVal} (h : m.derefConstantvalue pool lim = .ok x) : ∀ v, x = some v → NoNaN v := by
  unfold Member.derefConstantvalue at h
  cases hc : m.getConstantvalue with
  | error e => simp [hc, bind, Except.bind] at h
  | ok o =>
    cases o with
    | none =>
      simp only [hc, bind, Except.bind, Except.ok.injEq] at h
      subst h
      simp
    | some i =>
      cases hd : deref pool lim i with
      | error e => simp [hc, hd, bind, Except.bind, Except.map] at h
      | ok v =>
        simp only [hc, hd, bind, Except.bind, Except.map, Except.ok.injEq] at h
        subst h
        intro w hw
        simp only [Option.some.injEq] at hw
        subst hw
        exact deref_noNaN hp hd

/-! ### Annotations -/

theorem AVal.ind {P : AVal → Prop} (hc : ∀ t i, P (.const t i)) (he : ∀ a b, P (.enum a b))
    (ha : ∀ t ps, (∀ p ∈ ps, P p.2) → P (.anno t ps))
    (hr : ∀ vs, (∀ v ∈ vs, P v) → P (.arr vs)) : ∀ v, P v := by
  intro v
  refine AVal.rec (motive_1 := P) (motive_2 := fun ps => ∀ p ∈ ps, P p.2)
    (motive_3 := fun vs => ∀ v ∈ vs, P v) (motive_4 := fun p => P p.2)
    hc he ha hr (by simp) ?_ (by simp) ?_ (fun _ _ h => h) v
  · intro p ps hp hps q hq
    rcases List.mem_cons.1 hq with rfl | hq
    · exact hp
    · exact hps q hq
  · intro v vs hv hvs w hw
    rcases List.mem_cons.1 hw with rfl | hw
    · exact hv
    · exact hvs w hw

/-- Every annotation in the value is a proper dictionary. -/
inductive DictOK : AVal → Prop where
  | const (t i) : DictOK (.const t i)
  | enum (a b) : DictOK (.enum a b)
  | anno (t es) (hn : (PyDict.keys es).Nodup) (h : ∀ p ∈ es, DictOK p.2) : DictOK (.anno t es)
  | arr (vs) (h : ∀ v ∈ vs, DictOK v) : DictOK (.arr vs)

theorem mem_set {κ ν : Type} [DecidableEq κ] {d : PyDict κ ν} {k : κ} {v : ν} {p : κ × ν}
    (h : p ∈ d.set k v) : p ∈ d ∨ p.2 = v := by
  induction d with
  | nil => simp only [PyDict.set, List.mem_singleton] at h; subst h; exact .inr rfl
  | cons q d ih =>
    obtain ⟨a, b⟩ := q
    simp only [PyDict.set] at h
    split at h
    · rcases List.mem_cons.1 h with rfl | h
      · exact .inr rfl
      · exact .inl (by simp [h])
    · rcases List.mem_cons.1 h with rfl | h
      · exact .inl (by simp)
      · rcases ih h with h | h
        · exact .inl (by simp [h])
        · exact .inr h

theorem mem_ofPairs {κ ν : Type} [DecidableEq κ] {Q : ν → Prop} (ps : List (κ × ν))
    (d : PyDict κ ν) (hd : ∀ p ∈ d, Q p.2) (h : ∀ p ∈ ps, Q p.2) :
    ∀ p ∈ ps.foldl (fun d p => PyDict.set d p.1 p.2) d, Q p.2 := by
  induction ps generalizing d with
  | nil => exact hd
  | cons q ps ih =>
    refine ih _ ?_ (fun p hp => h p (by simp [hp]))
    intro p hp
    rcases mem_set hp with hp | hp
    · exact hd p hp
    · rw [hp]; exact h q (by simp)

theorem unpackAnnoWith_post {pool : Pool} {lim : Nat} {val : Prog AVal} (h : val.Post DictOK) :
    (unpackAnnoWith pool lim val).Post DictOK := by
  refine (Prog.Post.trivial u2u2).bind fun hd _ => ?_
  refine Prog.Post.bind (P := fun ps : List (PVal × AVal) => ∀ p ∈ ps, DictOK p.2) ?_ ?_
  · refine Prog.Post.times ?_ _
    refine (Prog.Post.trivial u2).bind fun k _ => h.bind fun v hv => ?_
    exact (Prog.Post.trivial (Prog.lift (deref pool lim k))).bind fun key _ => hv
  · intro ps hps
    exact .anno _ _ (PyDict.nodup_keys_ofPairs ps) (mem_ofPairs ps [] (by simp) hps)

theorem unpackVal_post (pool : Pool) (lim depth : Nat) : (unpackVal pool lim depth).Post DictOK := by
  induction depth with
  | zero => trivial
  | succ depth ih =>
    unfold unpackVal
    refine (Prog.Post.trivial u1).bind fun t _ => ?_
    split
    · exact (Prog.Post.trivial u2).bind fun i _ => .const _ _
    · split
      · exact (Prog.Post.trivial u2u2).bind fun i _ => .enum _ _
      · split
        · exact unpackAnnoWith_post ih
        · split
          · exact (Prog.Post.counted ih).bind fun vs hvs => .arr _ hvs
          · trivial

theorem getAnnotations_dictOK {a : Attribs} {pool : Pool} {lim depth : Nat} {attr : String}
    {xs : List AVal} (h : getAnnotations a pool lim depth attr = .ok xs) : ∀ x ∈ xs, DictOK x := by
  unfold getAnnotations at h
  split at h
  · simp only [Except.ok.injEq] at h; subst h; simp
  · refine Prog.Post.run (P := fun xs : List AVal => ∀ x ∈ xs, DictOK x)
      (p := unpackAnnos pool lim depth) ?_ _ xs h
    exact Prog.Post.counted (unpackAnnoWith_post (unpackVal_post pool lim depth))

theorem constEq_self {pool : Pool} (hp : NaNFree pool) (lim i : Nat) :
    constEq pool pool lim i i ≠ .ok false := by
  unfold constEq
  cases h : deref pool lim i with
  | error e => simp [bind, Except.bind]
  | ok v => simp [bind, Except.bind, pyEq_refl v (deref_noNaN hp h)]

theorem ite_bind_ne {r s : Res Bool} (h1 : r ≠ .ok false) (h2 : s ≠ .ok false) :
    (r.bind fun b => if b = true then s else .ok false) ≠ .ok false := by
  cases r with
  | error e => simp [Except.bind]
  | ok b =>
    cases b with
    | true => simpa [Except.bind] using h2
    | false => exact absurd rfl h1

theorem elemsEq_ne {lp rp : Pool} {lim : Nat} (es other : List (PVal × AVal))
    (h : ∀ p ∈ es, ∀ w, PyDict.get? other p.1 = some w → valEq lp rp lim p.2 w ≠ .ok false) :
    elemsEq lp rp lim es other ≠ .ok false := by
  induction es with
  | nil => simp [elemsEq]
  | cons p es ih =>
    obtain ⟨k, v⟩ := p
    unfold elemsEq
    split
    · simp
    · rename_i w hw
      exact ite_bind_ne (h (k, v) (by simp) w hw) (ih fun q hq => h q (by simp [hq]))

theorem arrEq_self_ne {pool : Pool} {lim : Nat} (vs : List AVal)
    (h : ∀ v ∈ vs, valEq pool pool lim v v ≠ .ok false) : arrEq pool pool lim vs vs ≠ .ok false := by
  induction vs with
  | nil => simp [arrEq]
  | cons v vs ih =>
    unfold arrEq
    exact ite_bind_ne (h v (by simp)) (ih fun w hw => h w (by simp [hw]))

theorem valEq_self {pool : Pool} (hp : NaNFree pool) (lim : Nat) (v : AVal) (hv : DictOK v) :
    valEq pool pool lim v v ≠ .ok false := by
  induction v using AVal.ind with
  | hc t i => simpa [valEq] using constEq_self hp lim i
  | he a b =>
    unfold valEq
    exact ite_bind_ne (constEq_self hp lim a) (constEq_self hp lim b)
  | ha t es ih =>
    cases hv with
    | anno _ _ hn hes =>
      unfold valEq
      refine ite_bind_ne (constEq_self hp lim t) ?_
      rw [if_pos ((sameKeys_iff hn hn).2 (fun _ => Iff.rfl))]
      refine elemsEq_ne es es ?_
      intro p hpm w hw
      have := PyDict.get?_of_mem_nodup hn (k := p.1) (v := p.2) hpm
      rw [this] at hw
      simp only [Option.some.injEq] at hw
      subst hw
      exact ih p hpm (hes p hpm)
  | hr vs ih =>
    cases hv with
    | arr _ hvs =>
      unfold valEq
      simp only [ne_eq, not_true_eq_false, if_false]
      exact arrEq_self_ne vs fun v hv => ih v hv (hvs v hv)

theorem annosDiffer_self {a : Attribs} {pool : Pool} (hp : NaNFree pool) (lim depth : Nat)
    (attr : String) :
    annosDiffer pool pool lim (getAnnotations a pool lim depth attr)
      (getAnnotations a pool lim depth attr) ≠ .ok true := by
  unfold annosDiffer
  cases h : getAnnotations a pool lim depth attr with
  | error e => simp
  | ok xs =>
    simp only [ne_eq, not_true_eq_false, if_false]
    exact map_not_ne (arrEq_self_ne xs fun v hv =>
      valEq_self hp lim v (getAnnotations_dictOK h v hv))

/-! ### Code -/

theorem excsEq_self {pool : Pool} (hp : NaNFree pool) (lim : Nat) (es : List ExcInfo) :
    excsEq pool pool lim es es ≠ .ok false := by
  induction es with
  | nil => simp [excsEq]
  | cons e es ih =>
    simp only [excsEq, excEq]
    cases h : e.catchType pool lim with
    | error x => simp
    | ok x =>
      have hx : ∀ v, x = some v → NoNaN v := by
        intro v hv
        unfold ExcInfo.catchType at h
        split at h
        · simp only [Except.ok.injEq] at h; subst h; simp at hv
        · cases hd : deref pool lim e.catchRef with
          | error y => simp [hd, Except.map] at h
          | ok y =>
            simp only [hd, Except.map, Except.ok.injEq] at h
            subst h
            simp only [Option.some.injEq] at hv
            subst hv
            exact deref_noNaN hp hd
      simp only [decide_true, Bool.true_and, optEq_self hx]
      exact ih

theorem operandsEq_self {pool : Pool} (hp : NaNFree pool) (lim : Nat) (i : Insn) :
    operandsEq pool pool lim i i ≠ .ok false := by
  unfold operandsEq
  cases hasConstArg i.code with
  | error e => simp
  | ok b =>
    cases b with
    | false => simp
    | true =>
      simp only
      cases i.args with
      | lookup d ps => simp
      | table d l h js => simp
      | ints is =>
        cases is with
        | nil => simp
        | cons j js =>
          simp only
          cases hd : deref pool lim j.toNat with
          | error e => simp
          | ok x => simp [pyEq_refl x (deref_noNaN hp hd)]

theorem constantsLoop_self {pool : Pool} (hp : NaNFree pool) (lim : Nat) (e : Option PyErr)
    (is : List Insn) (r : Option (List Nat))
    (h : constantsLoop pool pool lim e e is is = .ok r) : r = some [] := by
  induction is generalizing r with
  | nil =>
    unfold constantsLoop at h
    split at h
    · simp at h
    · simpa using h.symm
  | cons i is ih =>
    unfold constantsLoop at h
    rw [if_neg (by simp)] at h
    cases ho : operandsEq pool pool lim i i with
    | error x => rw [ho] at h; simp at h
    | ok b =>
      have hb : b = true := by
        cases b with
        | true => rfl
        | false => exact absurd ho (operandsEq_self hp lim i)
      subst hb
      rw [ho] at h
      simp only at h
      cases hr : constantsLoop pool pool lim e e is is with
      | error x => rw [hr] at h; simp at h
      | ok r' =>
        rw [hr] at h
        have := ih r' hr
        subst this
        simpa using h.symm

theorem bodyLoop_self (e : Option PyErr) (is : List Insn) : bodyLoop e e is is ≠ .ok true := by
  induction is with
  | nil => unfold bodyLoop; split <;> simp
  | cons i is ih =>
    unfold bodyLoop
    rw [if_neg (by simp)]
    exact ih

theorem codeConstantsCheck_self {pool : Pool} (hp : NaNFree pool) (lim : Nat) (c : CodeInfo) (d) :
    codeConstantsCheck pool pool lim (some c) (some c) ≠ .ok (true, d) := by
  simp only [codeConstantsCheck, ne_eq, not_true_eq_false, if_false]
  split
  · simp
  · rename_i h
    have := constantsLoop_self hp lim _ _ _ h
    simp at this
  · rename_i o h
    have := constantsLoop_self hp lim _ _ _ h
    simp only [Option.some.injEq] at this
    subst this
    simp

theorem codeBodyCheck_self (c : CodeInfo) (d) :
    codeBodyCheck (some c) (some c) ≠ .ok (true, d) := by
  simp only [codeBodyCheck, ne_eq, not_true_eq_false, if_false]
  cases h : bodyLoop (disassemble c.code).2 (disassemble c.code).2 (disassemble c.code).1
      (disassemble c.code).1 with
  | error e => simp [Except.map]
  | ok b =>
    cases b with
    | true => exact absurd h (bodyLoop_self _ _)
    | false => simp [Except.map]

/-! ### Comparisons that complete -/

namespace Change
variable {O : Type}

/-- Checking succeeds and finds nothing. -/
def Calm (c : Change O) : Prop := ∃ c', c.check = .ok c' ∧ c'.isChange = false

theorem checkAll_calm (cs : List (Change O)) (b : Bool) :
    (∀ x ∈ cs, Calm x) ↔ ∃ cs', checkAll cs b = .ok (cs', b) ∧ ∀ x ∈ cs', x.isChange = false := by
  induction cs generalizing b with
  | nil => simp [checkAll]
  | cons c cs ih =>
    constructor
    · intro h
      obtain ⟨c', h1, h2⟩ := h c (by simp)
      obtain ⟨cs', h3, h4⟩ := (ih b).1 fun x hx => h x (by simp [hx])
      refine ⟨c' :: cs', ?_, ?_⟩
      · simp only [checkAll, h1, h2, Bool.or_false, h3]
      · intro x hx
        rcases List.mem_cons.1 hx with rfl | hx
        · exact h2
        · exact h4 x hx
    · rintro ⟨cs', h, hf⟩
      simp only [checkAll] at h
      cases hc : check c with
      | error e => rw [hc] at h; simp at h
      | ok c' =>
        rw [hc] at h
        simp only at h
        cases hr : checkAll cs (b || c'.isChange) with
        | error e => rw [hr] at h; simp at h
        | ok p =>
          obtain ⟨xs, b'⟩ := p
          rw [hr] at h
          simp only [Except.ok.injEq, Prod.mk.injEq] at h
          obtain ⟨rfl, rfl⟩ := h
          have hc' := hf c' (by simp)
          rw [hc', Bool.or_false] at hr
          intro x hx
          rcases List.mem_cons.1 hx with rfl | hx
          · exact ⟨c', hc, hc'⟩
          · exact (ih b').2 ⟨xs, hr, fun y hy => hf y (by simp [hy])⟩ x hx

theorem Calm.super_iff {h : Hdr O} (hk : h.kind = .plain) {b : Bool} {d : Option Str}
    {cs : List (Change O)} : Calm (.super h none b d cs) ↔ ∀ x ∈ cs, Calm x := by
  constructor
  · rintro ⟨c', h1, h2⟩
    simp only [check] at h1
    cases hca : checkAll cs false with
    | error e => rw [hca] at h1; simp at h1
    | ok p =>
      obtain ⟨cs', b'⟩ := p
      rw [hca] at h1
      simp only [Except.ok.injEq] at h1
      subst h1
      simp only [isChange, hk] at h2
      subst h2
      refine (checkAll_calm cs false).2 ⟨cs', hca, ?_⟩
      obtain ⟨_, _, h3, _⟩ := checkAll_ok _ _ _ _ hca
      intro x hx
      cases hxc : x.isChange with
      | false => rfl
      | true => exact absurd (h3.2 (.inr ⟨x, hx, hxc⟩)) (by simp)
  · intro hq
    obtain ⟨cs', h1, _⟩ := (checkAll_calm cs false).1 hq
    exact ⟨.super h none false none cs', by simp only [check, h1], by simp [isChange, hk]⟩

theorem Calm.short {h : Hdr O} (hk : h.kind = .plain) {b : Bool} {d : Option Str}
    {cs : List (Change O)} : Calm (.super h (some false) b d cs) :=
  ⟨.super h (some false) false none cs, rfl, by simp [isChange, hk]⟩

theorem Calm.leaf_iff {h : Hdr O} (hk : h.kind = .plain) {r : Res (Bool × Option Str)}
    {b : Bool} {d : Option Str} : Calm (.leaf h (some r) b d) ↔ ∃ t, r = .ok (false, t) := by
  constructor
  · rintro ⟨c', h1, h2⟩
    cases r with
    | error e => simp [check] at h1
    | ok p =>
      obtain ⟨x, y⟩ := p
      simp only [check, Except.ok.injEq] at h1
      subst h1
      simp only [isChange, hk] at h2
      subst h2
      exact ⟨y, rfl⟩
  · rintro ⟨t, rfl⟩
    exact ⟨.leaf h (some (.ok (false, t))) false t, rfl, by simp [isChange, hk]⟩

theorem not_calm_raises (e : PyErr) : ¬ ∀ x ∈ raises e, Calm x := by
  intro h
  obtain ⟨t, ht⟩ := (Calm.leaf_iff rfl).1 (h _ (by simp only [raises, List.mem_singleton]; rfl))
  simp at ht

/-- A calm change is reported by no option setting. -/
theorem Calm.exit {c : Change O} (h : Calm c) :
    ∃ c', c.check = .ok c' ∧ c'.isChange = false ∧ ∀ o, exitStatus o c' = 0 := by
  obtain ⟨c', h1, h2⟩ := h
  exact ⟨c', h1, h2, fun o => by simp [exitStatus, h2]⟩

end Change

theorem checkImpl_calm {label : Str} {d : Res Bool} {l r : Res Str} :
    (∃ t, checkImpl label d l r = .ok (false, t)) ↔ d = .ok false := by
  constructor
  · rintro ⟨t, h⟩
    unfold checkImpl at h
    split at h
    · simp at h
    · rfl
    · split at h
      · simp at h
      · split at h
        · simp at h
        · simp at h
  · rintro rfl
    exact ⟨none, rfl⟩

theorem genericLeaf_calm {name label : String} {ign : IgnoreRule Opts} {d : Res Bool}
    {l r : Res Str} : Calm (genericLeaf name label ign d l r) ↔ d = .ok false :=
  (Calm.leaf_iff rfl).trans checkImpl_calm

theorem differs_false {α : Type} {eq : α → α → Bool} {x y : Res α} :
    differs eq x y = .ok false ↔ ∃ v w, x = .ok v ∧ y = .ok w ∧ eq v w = true := by
  unfold differs
  cases x with
  | error e => simp
  | ok v =>
    cases y with
    | error e => simp
    | ok w => simp

theorem res_false_of {r : Res Bool} (h : r ≠ .ok true) (h2 : ∃ b, r = .ok b) : r = .ok false := by
  obtain ⟨b, hb⟩ := h2
  cases b with
  | false => exact hb
  | true => exact absurd hb h

theorem map_not_false {r : Res Bool} : (r.map fun b => !b) = .ok false ↔ r = .ok true := by
  cases r with
  | error e => simp [Except.map]
  | ok b => cases b <;> simp [Except.map]

/-! ### Changes that no option hides -/

namespace Change
variable {O : Type}

/-- If checking completes, the object is changed and not ignored. -/
def Loud (o : O) (c : Change O) : Prop :=
  ∀ c', c.check = .ok c' → c'.isChange = true ∧ c'.isIgnored o = false

theorem Loud.super {o : O} {h : Hdr O} (hk : h.kind = .plain) (hi : h.ign = .inherit) {b : Bool}
    {d : Option Str} {cs : List (Change O)} {x : Change O} (hx : x ∈ cs) (hl : Loud o x) :
    Loud o (.super h none b d cs) := by
  intro c' hc
  simp only [check] at hc
  cases hca : checkAll cs false with
  | error e => rw [hca] at hc; simp at hc
  | ok p =>
    obtain ⟨cs', b'⟩ := p
    rw [hca] at hc
    simp only [Except.ok.injEq] at hc
    subst hc
    obtain ⟨_, h2, h3, _⟩ := checkAll_ok _ _ _ _ hca
    obtain ⟨x', hx', hxx⟩ := h2 x hx
    obtain ⟨hc1, hc2⟩ := hl x' hxx
    have hb : b' = true := h3.2 (.inr ⟨x', hx', hc1⟩)
    have hch : (Change.super h none b' none cs').isChange = true := by simp [isChange, hk, hb]
    refine ⟨hch, ?_⟩
    cases hig : (Change.super h none b' none cs').isIgnored o with
    | false => rfl
    | true =>
      have := ((C35_ignored_iff o h none b' none cs' (by rw [hi]; trivial)).1 hig).2.2 x' hx' hc1
      rw [hc2] at this
      simp at this

theorem Loud.leaf {o : O} {h : Hdr O} {r : Res (Bool × Option Str)} {b : Bool} {d : Option Str}
    (hk : h.kind = .plain) (hr : ∀ p, r = .ok p → p.1 = true)
    (hi : isIgnored o (.leaf h (some r) b d) = false) : Loud o (.leaf h (some r) b d) := by
  intro c' hc
  cases r with
  | error e => simp [check] at hc
  | ok p =>
    obtain ⟨x, y⟩ := p
    simp only [check, Except.ok.injEq] at hc
    subst hc
    have := hr _ rfl
    simp only at this
    subst this
    exact ⟨by simp [isChange, hk], hi⟩

theorem Loud.status {o : O} {c c' : Change O} (h : Loud o c) (hc : c.check = .ok c') :
    exitStatus o c' = 1 := by
  obtain ⟨h1, h2⟩ := h c' hc
  simp [exitStatus, h1, h2]

end Change

end Javatools
