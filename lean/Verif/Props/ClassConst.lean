import Verif.Props.ClassDiff
import Verif.Props.Opcodes
import Verif.Props.OpTable
import Verif.Props.ClassFile
/-
C42: the comparison of the constants that instructions load.
-/
namespace Javatools
open Spec Change

/-! ### Numbers -/

theorem eqScaled_iff (a e b f : Int) : eqScaled a e b f = true ↔
    (e ≤ f ∧ a = b * (2 ^ (f - e).toNat : Nat)) ∨ (f ≤ e ∧ b = a * (2 ^ (e - f).toNat : Nat)) := by
  unfold eqScaled
  rw [decide_eq_true_eq]
  rcases Int.le_total e f with h | h
  · have hm : min e f = e := by omega
    rw [hm, Int.sub_self]
    simp only [Int.toNat_zero, Nat.pow_zero, Int.natCast_one, Int.mul_one]
    constructor
    · intro h1; exact .inl ⟨h, h1⟩
    · rintro (⟨_, h1⟩ | ⟨h2, h1⟩)
      · exact h1
      · have : e = f := by omega
        subst this
        simp only [Int.sub_self, Int.toNat_zero, Nat.pow_zero, Int.natCast_one, Int.mul_one] at h1 ⊢
        exact h1.symm
  · have hm : min e f = f := by omega
    rw [hm, Int.sub_self]
    simp only [Int.toNat_zero, Nat.pow_zero, Int.natCast_one, Int.mul_one]
    constructor
    · intro h1; exact .inr ⟨h, h1.symm⟩
    · rintro (⟨h2, h1⟩ | ⟨_, h1⟩)
      · have : e = f := by omega
        subst this
        simp only [Int.sub_self, Int.toNat_zero, Nat.pow_zero, Int.natCast_one, Int.mul_one] at h1 ⊢
        exact h1
      · exact h1.symm

/-- Numbers in normal form: `2^p ≤ m < 2^(p+1)`, or `m < 2^p` with the least exponent. -/
def NormalForm (p : Nat) (emin : Int) (m : Nat) (e : Int) : Prop :=
  emin ≤ e ∧ m < 2 ^ (p + 1) ∧ (2 ^ p ≤ m ∨ e = emin)

theorem scaled_nat_unique {p : Nat} {emin : Int} {m n : Nat} {e f : Int}
    (h1 : NormalForm p emin m e) (h2 : NormalForm p emin n f) (hle : e ≤ f)
    (h : m = n * 2 ^ (f - e).toNat) : m = n ∧ (e = f ∨ m = 0) := by
  obtain ⟨a1, a2, a3⟩ := h1
  obtain ⟨b1, b2, b3⟩ := h2
  by_cases hef : e = f
  · subst hef
    simp at h
    exact ⟨h, .inl rfl⟩
  · have hk : ∃ k, (f - e).toNat = k + 1 := ⟨(f - e).toNat - 1, by omega⟩
    obtain ⟨k, hk⟩ := hk
    rw [hk] at h
    have hf : ¬ f = emin := by omega
    have hn : 2 ^ p ≤ n := by rcases b3 with h | h; exact h; exact absurd h hf
    have h3 : 2 ^ p * 2 ≤ n * 2 ^ (k + 1) := by
      have : n * 2 ≤ n * 2 ^ (k + 1) := by
        apply Nat.mul_le_mul_left
        rw [Nat.pow_succ]
        have := Nat.pow_pos (n := k) (show 0 < 2 by decide)
        omega
      omega
    rw [Nat.pow_succ] at a2
    omega

theorem scaled_unique {p : Nat} {emin : Int} {s t : Bool} {m n : Nat} {e f : Int}
    (h1 : NormalForm p emin m e) (h2 : NormalForm p emin n f)
    (h : eqScaled (signedNat s m) e (signedNat t n) f = true) :
    m = n ∧ ((s = t ∧ e = f) ∨ m = 0) := by
  have key : ∀ {s t : Bool} {m n : Nat} {e f : Int}, NormalForm p emin m e → NormalForm p emin n f →
      e ≤ f → signedNat s m = signedNat t n * (2 ^ (f - e).toNat : Nat) →
      m = n ∧ ((s = t ∧ e = f) ∨ m = 0) := by
    intro s t m n e f h1 h2 hle h
    have hpos : 0 < 2 ^ (f - e).toNat := Nat.pow_pos (by decide)
    generalize hP : 2 ^ (f - e).toNat = P at h hpos
    have habs : m = n * P := by
      have := congrArg Int.natAbs h
      rw [Int.natAbs_mul, Int.natAbs_natCast] at this
      cases s <;> cases t <;> simpa [signedNat] using this
    rw [← hP] at habs
    obtain ⟨r1, r2⟩ := scaled_nat_unique h1 h2 hle habs
    refine ⟨r1, ?_⟩
    rcases r2 with r2 | r2
    · by_cases hm : m = 0
      · exact .inr hm
      · left
        refine ⟨?_, r2⟩
        subst r2
        simp at hP
        subst hP
        subst r1
        cases s <;> cases t <;> simp [signedNat] at h ⊢ <;> omega
    · exact .inr r2
  rcases (eqScaled_iff _ _ _ _).1 h with ⟨hle, h⟩ | ⟨hle, h⟩
  · exact key h1 h2 hle h
  · obtain ⟨r1, r2⟩ := key h2 h1 hle h
    refine ⟨r1.symm, ?_⟩
    rcases r2 with ⟨r2, r3⟩ | r2
    · exact .inl ⟨r2.symm, r3.symm⟩
    · exact .inr (by omega)

/-- The bits of a float or double zero. -/
def isZero32 (b : Nat) : Prop := b % 2 ^ 31 = 0
def isZero64 (b : Nat) : Prop := b % 2 ^ 63 = 0

/-- Python equality of two single floats: the same bits or two zeros, if neither is
not-a-number. -/
theorem float32_eq {a b : Nat} (ha : a < 2 ^ 32) (hb : b < 2 ^ 32)
    (h : pyEqFloat (float32 a) (float32 b) = true) : a = b ∨ (isZero32 a ∧ isZero32 b) := by
  unfold isZero32
  unfold float32 at h
  simp only at h
  have nf : ∀ x : Nat, x < 2 ^ 32 → ∀ (n : Bool) m e,
      (if x / 2 ^ 23 % 256 = 255 then
        (if x % 2 ^ 23 = 0 then PyFloat.inf (decide (x / 2 ^ 31 % 2 = 1)) else .nan)
      else if x / 2 ^ 23 % 256 = 0 then .fin (decide (x / 2 ^ 31 % 2 = 1)) (x % 2 ^ 23) (-149)
      else .fin (decide (x / 2 ^ 31 % 2 = 1)) (x % 2 ^ 23 + 2 ^ 23) (((x / 2 ^ 23 % 256 : Nat) : Int) - 150))
        = .fin n m e →
      n = decide (x / 2 ^ 31 % 2 = 1) ∧ NormalForm 23 (-149) m e ∧
      (m = 0 → x % 2 ^ 31 = 0) ∧
      ((x / 2 ^ 23 % 256 = 0 ∧ m = x % 2 ^ 23 ∧ e = -149) ∨
       (x / 2 ^ 23 % 256 ≠ 0 ∧ m = x % 2 ^ 23 + 2 ^ 23 ∧ e = ((x / 2 ^ 23 % 256 : Nat) : Int) - 150)) := by
    intro x hx n m e hf
    split at hf
    · split at hf <;> simp at hf
    · split at hf
      · simp only [PyFloat.fin.injEq] at hf
        obtain ⟨rfl, rfl, rfl⟩ := hf
        refine ⟨rfl, ⟨by omega, by omega, .inr rfl⟩, ?_, .inl ⟨by assumption, rfl, rfl⟩⟩
        intro h0; omega
      · simp only [PyFloat.fin.injEq] at hf
        obtain ⟨rfl, rfl, rfl⟩ := hf
        refine ⟨rfl, ⟨by omega, by omega, .inl (by omega)⟩, ?_, .inr ⟨by assumption, rfl, rfl⟩⟩
        intro h0; omega
  have ifc : ∀ x : Nat, ∀ s : Bool,
      (if x / 2 ^ 23 % 256 = 255 then
        (if x % 2 ^ 23 = 0 then PyFloat.inf (decide (x / 2 ^ 31 % 2 = 1)) else .nan)
      else if x / 2 ^ 23 % 256 = 0 then .fin (decide (x / 2 ^ 31 % 2 = 1)) (x % 2 ^ 23) (-149)
      else .fin (decide (x / 2 ^ 31 % 2 = 1)) (x % 2 ^ 23 + 2 ^ 23) (((x / 2 ^ 23 % 256 : Nat) : Int) - 150))
        = .inf s → x / 2 ^ 23 % 256 = 255 ∧ x % 2 ^ 23 = 0 ∧ s = decide (x / 2 ^ 31 % 2 = 1) := by
    intro x s hf
    split at hf
    · split at hf
      · simp only [PyFloat.inf.injEq] at hf
        exact ⟨by assumption, by assumption, hf.symm⟩
      · simp at hf
    · split at hf <;> simp at hf
  have na := nf a ha
  have nb := nf b hb
  have ia := ifc a
  have ib := ifc b
  revert h na nb ia ib
  generalize (if a / 2 ^ 23 % 256 = 255 then _ else _ : PyFloat) = x
  generalize (if b / 2 ^ 23 % 256 = 255 then _ else _ : PyFloat) = y
  intro h na nb ia ib
  cases x with
  | nan => simp [pyEqFloat] at h
  | inf s =>
    cases y with
    | nan => simp [pyEqFloat] at h
    | fin _ _ _ => simp [pyEqFloat] at h
    | inf t =>
      obtain ⟨p1, p2, p3⟩ := ia s rfl
      obtain ⟨q1, q2, q3⟩ := ib t rfl
      simp only [pyEqFloat, beq_iff_eq] at h
      rw [p3, q3, decide_eq_decide] at h
      left; omega
  | fin s m e =>
    cases y with
    | nan => simp [pyEqFloat] at h
    | inf _ => simp [pyEqFloat] at h
    | fin t n f =>
      obtain ⟨p1, p2, p3, p4⟩ := na s m e rfl
      obtain ⟨q1, q2, q3, q4⟩ := nb t n f rfl
      simp only [pyEqFloat] at h
      obtain ⟨r1, r2⟩ := scaled_unique p2 q2 h
      rcases r2 with ⟨r2, r3⟩ | r2
      · rw [p1, q1, decide_eq_decide] at r2
        left
        rcases p4 with ⟨a1, a2, a3⟩ | ⟨a1, a2, a3⟩ <;>
          rcases q4 with ⟨b1, b2, b3⟩ | ⟨b1, b2, b3⟩ <;> omega
      · exact .inr ⟨p3 r2, q3 (by omega)⟩

/-- The same for doubles. -/
theorem float64_eq {a b : Nat} (ha : a < 2 ^ 64) (hb : b < 2 ^ 64)
    (h : pyEqFloat (float64 a) (float64 b) = true) : a = b ∨ (isZero64 a ∧ isZero64 b) := by
  unfold isZero64
  unfold float64 at h
  simp only at h
  have nf : ∀ x : Nat, x < 2 ^ 64 → ∀ (n : Bool) m e,
      (if x / 2 ^ 52 % 2048 = 2047 then
        (if x % 2 ^ 52 = 0 then PyFloat.inf (decide (x / 2 ^ 63 % 2 = 1)) else .nan)
      else if x / 2 ^ 52 % 2048 = 0 then .fin (decide (x / 2 ^ 63 % 2 = 1)) (x % 2 ^ 52) (-1074)
      else .fin (decide (x / 2 ^ 63 % 2 = 1)) (x % 2 ^ 52 + 2 ^ 52) (((x / 2 ^ 52 % 2048 : Nat) : Int) - 1075))
        = .fin n m e →
      n = decide (x / 2 ^ 63 % 2 = 1) ∧ NormalForm 52 (-1074) m e ∧
      (m = 0 → x % 2 ^ 63 = 0) ∧
      ((x / 2 ^ 52 % 2048 = 0 ∧ m = x % 2 ^ 52 ∧ e = -1074) ∨
       (x / 2 ^ 52 % 2048 ≠ 0 ∧ m = x % 2 ^ 52 + 2 ^ 52 ∧ e = ((x / 2 ^ 52 % 2048 : Nat) : Int) - 1075)) := by
    intro x hx n m e hf
    split at hf
    · split at hf <;> simp at hf
    · split at hf
      · simp only [PyFloat.fin.injEq] at hf
        obtain ⟨rfl, rfl, rfl⟩ := hf
        refine ⟨rfl, ⟨by omega, by omega, .inr rfl⟩, ?_, .inl ⟨by assumption, rfl, rfl⟩⟩
        intro h0; omega
      · simp only [PyFloat.fin.injEq] at hf
        obtain ⟨rfl, rfl, rfl⟩ := hf
        refine ⟨rfl, ⟨by omega, by omega, .inl (by omega)⟩, ?_, .inr ⟨by assumption, rfl, rfl⟩⟩
        intro h0; omega
  have ifc : ∀ x : Nat, ∀ s : Bool,
      (if x / 2 ^ 52 % 2048 = 2047 then
        (if x % 2 ^ 52 = 0 then PyFloat.inf (decide (x / 2 ^ 63 % 2 = 1)) else .nan)
      else if x / 2 ^ 52 % 2048 = 0 then .fin (decide (x / 2 ^ 63 % 2 = 1)) (x % 2 ^ 52) (-1074)
      else .fin (decide (x / 2 ^ 63 % 2 = 1)) (x % 2 ^ 52 + 2 ^ 52) (((x / 2 ^ 52 % 2048 : Nat) : Int) - 1075))
        = .inf s → x / 2 ^ 52 % 2048 = 2047 ∧ x % 2 ^ 52 = 0 ∧ s = decide (x / 2 ^ 63 % 2 = 1) := by
    intro x s hf
    split at hf
    · split at hf
      · simp only [PyFloat.inf.injEq] at hf
        exact ⟨by assumption, by assumption, hf.symm⟩
      · simp at hf
    · split at hf <;> simp at hf
  have na := nf a ha
  have nb := nf b hb
  have ia := ifc a
  have ib := ifc b
  revert h na nb ia ib
  generalize (if a / 2 ^ 52 % 2048 = 2047 then _ else _ : PyFloat) = x
  generalize (if b / 2 ^ 52 % 2048 = 2047 then _ else _ : PyFloat) = y
  intro h na nb ia ib
  cases x with
  | nan => simp [pyEqFloat] at h
  | inf s =>
    cases y with
    | nan => simp [pyEqFloat] at h
    | fin _ _ _ => simp [pyEqFloat] at h
    | inf t =>
      obtain ⟨p1, p2, p3⟩ := ia s rfl
      obtain ⟨q1, q2, q3⟩ := ib t rfl
      simp only [pyEqFloat, beq_iff_eq] at h
      rw [p3, q3, decide_eq_decide] at h
      left; omega
  | fin s m e =>
    cases y with
    | nan => simp [pyEqFloat] at h
    | inf _ => simp [pyEqFloat] at h
    | fin t n f =>
      obtain ⟨p1, p2, p3, p4⟩ := na s m e rfl
      obtain ⟨q1, q2, q3, q4⟩ := nb t n f rfl
      simp only [pyEqFloat] at h
      obtain ⟨r1, r2⟩ := scaled_unique p2 q2 h
      rcases r2 with ⟨r2, r3⟩ | r2
      · rw [p1, q1, decide_eq_decide] at r2
        left
        rcases p4 with ⟨a1, a2, a3⟩ | ⟨a1, a2, a3⟩ <;>
          rcases q4 with ⟨b1, b2, b3⟩ | ⟨b1, b2, b3⟩ <;> omega
      · exact .inr ⟨p3 r2, q3 (by omega)⟩

/-! ### Typed constants -/

/-- The kind of a constant: its tag (JVMS table 4.4-A). -/
def kindOf : Const → Nat
  | .utf8 _ => 1 | .integer _ => 3 | .float _ => 4 | .long _ => 5 | .double _ => 6 | .cls _ => 7
  | .string _ => 8 | .fieldref _ _ => 9 | .methodref _ _ => 10 | .ifaceMethodref _ _ => 11
  | .nameAndType _ _ => 12 | .moduleId _ _ => 13 | .methodHandle _ _ => 15 | .methodType _ => 16
  | .dynamic _ _ => 17 | .invokeDynamic _ _ => 18 | .module _ => 19 | .package _ => 20

/-- Two entries of two pools are the same constant: the same kind, the same bits for floating
point numbers, otherwise the same denotation; a method handle also refers to the same kind of
entry. -/
def SameConst (lp rp : Pool) : Const → Const → Prop
  | .float a, .float b => a = b
  | .double a, .double b => a = b
  | .methodHandle k i, .methodHandle k' i' =>
    (∃ d d', lp[i]? = some (some d) ∧ rp[i']? = some (some d') ∧ kindOf d = kindOf d') ∧
    ∃ v, Denotes lp (.methodHandle k i) v ∧ Denotes rp (.methodHandle k' i') v
  | c, c' => kindOf c = kindOf c' ∧ ∃ v, Denotes lp c v ∧ Denotes rp c' v

/-- Constants of the same kind that the comparison cannot tell apart: zeros, and method handles
that differ in the kind of entry they refer to. -/
def Confused (lp rp : Pool) : Const → Const → Prop
  | .float a, .float b => isZero32 a ∧ isZero32 b
  | .double a, .double b => isZero64 a ∧ isZero64 b
  | .methodHandle k i, .methodHandle k' i' =>
    ∃ v, Denotes lp (.methodHandle k i) v ∧ Denotes rp (.methodHandle k' i') v
  | _, _ => False

/-- The bits of a floating point constant fit. -/
def BitsFit : Const → Prop
  | .float b => b < 2 ^ 32
  | .double b => b < 2 ^ 64
  | _ => True

def NoFloat : PVal → Prop
  | .flt _ => False
  | .pair a b => NoFloat a ∧ NoFloat b
  | _ => True

theorem pyEq_noFloat (a b : PVal) (ha : NoFloat a) (hb : NoFloat b) (h : pyEq a b = true) : a = b := by
  induction a generalizing b with
  | str s =>
    cases b with
    | str t => simpa [pyEq] using h
    | _ => simp [pyEq] at h
  | int s =>
    cases b with
    | int t => simpa [pyEq] using h
    | flt f => exact hb.elim
    | _ => simp [pyEq] at h
  | flt f => exact ha.elim
  | pair x y hx hy =>
    cases b with
    | pair x' y' =>
      simp only [pyEq, Bool.and_eq_true] at h
      rw [hx x' ha.1 hb.1 h.1, hy y' ha.2 hb.2 h.2]
    | _ => simp [pyEq] at h

theorem denotes_noFloat {pool : Pool} {c : Const} {v : PVal} (h : Denotes pool c v)
    (h1 : kindOf c ≠ 4) (h2 : kindOf c ≠ 6) : NoFloat v := by
  cases c with
  | float b => exact absurd rfl h1
  | double b => exact absurd rfl h2
  | utf8 s => simp only [Denotes] at h; subst h; trivial
  | integer s => simp only [Denotes] at h; subst h; trivial
  | long s => simp only [Denotes] at h; subst h; trivial
  | cls n => obtain ⟨s, _, rfl⟩ := h; trivial
  | string n => obtain ⟨s, _, rfl⟩ := h; trivial
  | methodType n => obtain ⟨s, _, rfl⟩ := h; trivial
  | module n => obtain ⟨s, _, rfl⟩ := h; trivial
  | package n => obtain ⟨s, _, rfl⟩ := h; trivial
  | nameAndType a b => obtain ⟨_, _, _, _, rfl⟩ := h; exact ⟨trivial, trivial⟩
  | moduleId a b => obtain ⟨_, _, _, _, rfl⟩ := h; exact ⟨trivial, trivial⟩
  | fieldref a b => obtain ⟨_, _, _, _, _, rfl⟩ := h; exact ⟨trivial, trivial, trivial⟩
  | methodref a b => obtain ⟨_, _, _, _, _, rfl⟩ := h; exact ⟨trivial, trivial, trivial⟩
  | ifaceMethodref a b => obtain ⟨_, _, _, _, _, rfl⟩ := h; exact ⟨trivial, trivial, trivial⟩
  | dynamic a b => obtain ⟨_, _, _, rfl⟩ := h; exact ⟨trivial, trivial, trivial⟩
  | invokeDynamic a b => obtain ⟨_, _, _, rfl⟩ := h; exact ⟨trivial, trivial, trivial⟩
  | methodHandle a b => obtain ⟨_, _, _, _, rfl⟩ := h; exact ⟨trivial, trivial, trivial, trivial⟩

/-- C42, constants of one kind: Python equality of the dereferenced values tells different
constants apart, up to `Confused`. -/
theorem C42_values_differ (lp rp : Pool) (c c' : Const) (v w : PVal) (hv : Denotes lp c v)
    (hw : Denotes rp c' w) (hk : kindOf c = kindOf c') (hb : BitsFit c) (hb' : BitsFit c')
    (hd : ¬ SameConst lp rp c c') (hc : ¬ Confused lp rp c c') : pyEq v w = false := by
  cases hp : pyEq v w with
  | false => rfl
  | true =>
    exfalso
    by_cases h4 : kindOf c = 4
    · cases c <;> try (simp [kindOf] at h4; done)
      rename_i a
      cases c' <;> try (simp [kindOf] at hk; done)
      rename_i b
      simp only [Denotes] at hv hw
      subst hv hw
      simp only [pyEq] at hp
      rcases float32_eq hb hb' hp with h | h
      · exact hd h
      · exact hc h
    · by_cases h6 : kindOf c = 6
      · cases c <;> try (simp [kindOf] at h6; done)
        rename_i a
        cases c' <;> try (simp [kindOf] at hk; done)
        rename_i b
        simp only [Denotes] at hv hw
        subst hv hw
        simp only [pyEq] at hp
        rcases float64_eq hb hb' hp with h | h
        · exact hd h
        · exact hc h
      · have := pyEq_noFloat v w (denotes_noFloat hv h4 h6)
          (denotes_noFloat hw (by rw [← hk]; exact h4) (by rw [← hk]; exact h6)) hp
        subst this
        cases c <;> cases c' <;> try (simp [kindOf] at hk; done)
        all_goals first
          | exact hd ⟨hk, v, hv, hw⟩
          | exact hc ⟨v, hv, hw⟩
          | exact absurd rfl h4
          | exact absurd rfl h6

/-! ### The loop -/

theorem constantsLoop_differs {lp rp : Pool} {lim : Nat} {le re : Option PyErr} (ls rs : List Insn)
    (k : Nat) (i j : Insn) (hi : ls[k]? = some i) (hj : rs[k]? = some j)
    (hd : i.off ≠ j.off ∨ i.code ≠ j.code ∨ operandsEq lp rp lim i j = .ok false) :
    ∀ r, constantsLoop lp rp lim le re ls rs = .ok r → r ≠ some [] := by
  induction k generalizing ls rs with
  | zero =>
    intro r h
    cases ls with
    | nil => simp at hi
    | cons l ls =>
      cases rs with
      | nil => simp at hj
      | cons r' rs =>
        simp only [List.getElem?_cons_zero, Option.some.injEq] at hi hj
        subst hi hj
        unfold constantsLoop at h
        split at h
        · simp only [Except.ok.injEq] at h; subst h; simp
        · rename_i hs
          have hs := Classical.not_not.1 hs
          rcases hd with hd | hd | hd
          · exact absurd hs.1 hd
          · exact absurd hs.2 hd
          · rw [hd] at h
            simp only at h
            split at h
            · simp at h
            · simp only [Except.ok.injEq] at h; subst h; simp
            · simp only [Except.ok.injEq] at h; subst h; simp
  | succ k ih =>
    intro r h
    cases ls with
    | nil => simp at hi
    | cons l ls =>
      cases rs with
      | nil => simp at hj
      | cons r' rs =>
        simp only [List.getElem?_cons_succ] at hi hj
        unfold constantsLoop at h
        split at h
        · simp only [Except.ok.injEq] at h; subst h; simp
        · split at h
          · simp at h
          · split at h
            · simp at h
            · simp only [Except.ok.injEq] at h; subst h; simp
            · rename_i offs hr
              have := ih ls rs hi hj _ hr
              simp only [Except.ok.injEq] at h
              subst h
              split
              · exact this
              · simp

/-- C42, the leaf: if at some position both disassemblies have an instruction, and these differ in
offset, opcode or (dereferenced) operands, the code constants comparison reports a change unless it
raises. -/
theorem C42_leaf (lp rp : Pool) (lim : Nat) (l r : CodeInfo) (k : Nat) (i j : Insn)
    (hi : (disassemble l.code).1[k]? = some i) (hj : (disassemble r.code).1[k]? = some j)
    (hd : i.off ≠ j.off ∨ i.code ≠ j.code ∨ operandsEq lp rp lim i j = .ok false)
    (p : Bool × Option Str) (h : codeConstantsCheck lp rp lim (some l) (some r) = .ok p) :
    p.1 = true := by
  simp only [codeConstantsCheck] at h
  split at h
  · simp only [Except.ok.injEq] at h; subst h; rfl
  · split at h
    · simp at h
    · simp only [Except.ok.injEq] at h; subst h; rfl
    · rename_i offs hr
      have := constantsLoop_differs _ _ k i j hi hj hd _ hr
      simp only [Except.ok.injEq] at h
      subst h
      cases offs with
      | nil => exact absurd rfl this
      | cons _ _ => rfl

/-- C42, the leaf exactly: for decodable code of equal length with resolvable constants, the
comparison completes, and reports a change exactly if at some common position the offsets, the
opcodes or the dereferenced operands differ. -/
theorem C42_leaf_exact (lp rp : Pool) (lim : Nat) (l r : CodeInfo)
    (hlen : l.code.length = r.code.length) (hl : (disassemble l.code).2 = none)
    (hr : (disassemble r.code).2 = none)
    (hok : ∀ (k : Nat) i j, (disassemble l.code).1[k]? = some i → (disassemble r.code).1[k]? = some j →
      i.code = j.code → ∃ b, operandsEq lp rp lim i j = .ok b) :
    ∃ b, codeConstantsCheck lp rp lim (some l) (some r) = .ok (b, none) ∧
      (b = true ↔ ∃ (k : Nat) (i j : Insn), (disassemble l.code).1[k]? = some i ∧
        (disassemble r.code).1[k]? = some j ∧
        (i.off ≠ j.off ∨ i.code ≠ j.code ∨ operandsEq lp rp lim i j = .ok false)) := by
  have key : ∀ ls rs : List Insn, (∀ (k : Nat) i j, ls[k]? = some i → rs[k]? = some j →
      i.code = j.code → ∃ b, operandsEq lp rp lim i j = .ok b) →
      ∃ x, constantsLoop lp rp lim none none ls rs = .ok x ∧ (x = some [] ∨
        ∃ (k : Nat) (i j : Insn), ls[k]? = some i ∧ rs[k]? = some j ∧
          (i.off ≠ j.off ∨ i.code ≠ j.code ∨ operandsEq lp rp lim i j = .ok false)) := by
    intro ls
    induction ls with
    | nil => intro rs _; exact ⟨some [], by simp [constantsLoop], .inl rfl⟩
    | cons a ls ih =>
      intro rs h
      cases rs with
      | nil => exact ⟨some [], by simp [constantsLoop], .inl rfl⟩
      | cons b rs =>
        unfold constantsLoop
        by_cases hs : a.off = b.off ∧ a.code = b.code
        · simp only [hs, and_self, not_true_eq_false, if_false]
          obtain ⟨s, hs2⟩ := h 0 a b rfl rfl hs.2
          obtain ⟨x, hx, hx2⟩ := ih rs fun k i j hi hj => h (k + 1) i j hi hj
          rw [hs2, hx]
          simp only
          cases x with
          | none =>
            refine ⟨none, rfl, .inr ?_⟩
            rcases hx2 with hx2 | ⟨k, i, j, h1, h2, h3⟩
            · simp at hx2
            · exact ⟨k + 1, i, j, h1, h2, h3⟩
          | some offs =>
            refine ⟨_, rfl, ?_⟩
            cases s with
            | false => exact .inr ⟨0, a, b, rfl, rfl, .inr (.inr hs2)⟩
            | true =>
              simp only [if_true]
              rcases hx2 with hx2 | ⟨k, i, j, h1, h2, h3⟩
              · exact .inl hx2
              · exact .inr ⟨k + 1, i, j, h1, h2, h3⟩
        · simp only [hs, not_false_eq_true, if_true]
          refine ⟨none, rfl, .inr ⟨0, a, b, rfl, rfl, ?_⟩⟩
          by_cases h1 : a.off = b.off
          · exact .inr (.inl fun h2 => hs ⟨h1, h2⟩)
          · exact .inl h1
  obtain ⟨x, hx, hx2⟩ := key _ _ hok
  simp only [codeConstantsCheck, hlen, ne_eq, not_true_eq_false, if_false, hl, hr, hx]
  cases x with
  | none =>
    refine ⟨true, rfl, ?_⟩
    rcases hx2 with hx2 | hx2
    · simp at hx2
    · simp only [true_iff]; exact hx2
  | some offs =>
    refine ⟨_, rfl, ?_⟩
    constructor
    · intro h
      rcases hx2 with hx2 | hx2
      · simp only [Option.some.injEq] at hx2; subst hx2; simp at h
      · exact hx2
    · rintro ⟨k, i, j, h1, h2, h3⟩
      have := constantsLoop_differs _ _ k i j h1 h2 h3 _ hx
      cases offs with
      | nil => exact absurd rfl this
      | cons _ _ => rfl

/-! ### Instructions and classes -/

/-- The instruction number `k` of the sequence is at offset `pos`, has opcode `op`, and its first
operand is the constant pool index `a`. -/
def LoadsAt (is : List Instr) (k pos op a : Nat) : Prop :=
  ∃ o os as, is[k]? = some (.fixed op ((a : Int) :: as)) ∧ operands op = some (o :: os) ∧
    o.isPool = true ∧ (positions 0 is)[k]? = some pos

theorem positions_length (is : List Instr) (p : Nat) : (positions p is).length = is.length := by
  induction is generalizing p with
  | nil => rfl
  | cons i is ih => simp [positions, ih]

theorem LoadsAt.insn {is : List Instr} {k pos op a : Nat} (h : LoadsAt is k pos op a)
    (hv : ∀ i ∈ is, i.Valid) : ∃ as, (disassemble (encCode 0 is)).1[k]? =
      some ⟨pos, op, .ints ((a : Int) :: as)⟩ := by
  obtain ⟨o, os, as, h1, h2, h3, h4⟩ := h
  rw [C27_disassemble_assemble is hv]
  have hop : op ≠ 0x10 := by
    rintro rfl
    have : operands 0x10 = some [.imm1] := by decide
    rw [this] at h2
    simp only [Option.some.injEq, List.cons.injEq] at h2
    rw [← h2.1] at h3
    simp [Operand.isPool] at h3
  refine ⟨as, ?_⟩
  rw [List.getElem?_zipWith_eq_some]
  exact ⟨pos, _, h4, h1, by simp [Instr.opcode, reportedArgs, hop]⟩

/-- The two method bodies differ in the constant loaded by the instruction at one offset. -/
structure LoadsDiffer (lp rp : Pool) (is js : List Instr) (op : Nat) (c c' : Const) : Prop where
  valid : (∀ i ∈ is, i.Valid) ∧ ∀ j ∈ js, j.Valid
  loads : ∃ k pos a b, LoadsAt is k pos op a ∧ LoadsAt js k pos op b ∧
    lp[a]? = some (some c) ∧ rp[b]? = some (some c')
  differ : ¬ SameConst lp rp c c'

/-- C42 as stated, for the code comparison. -/
def C42_full : Prop := ∀ (lp rp : Pool) (lim : Nat) (l r : CodeInfo) (is js : List Instr)
  (op : Nat) (c c' : Const), WellTyped lp → WellTyped rp → l.code = encCode 0 is →
  r.code = encCode 0 js → LoadsDiffer lp rp is js op c c' →
  ∀ p, codeConstantsCheck lp rp (lim + 4) (some l) (some r) = .ok p → p.1 = true

theorem operandsEq_deref {lp rp : Pool} {lim pos op : Nat} {a b : Nat} {as bs : List Int} {x y : PVal}
    (hc : hasConstArg op = .ok true) (hx : deref lp lim a = .ok x) (hy : deref rp lim b = .ok y) :
    operandsEq lp rp lim ⟨pos, op, .ints ((a : Int) :: as)⟩ ⟨pos, op, .ints ((b : Int) :: bs)⟩ =
      .ok (pyEq x y && decide (as = bs)) := by
  simp [operandsEq, hc, hx, hy]

/-- C42, except for multianewarray and for constants that `==` confuses: the code comparison
reports a change. -/
theorem C42_code_partial (lp rp : Pool) (lim : Nat) (l r : CodeInfo) (is js : List Instr) (op : Nat)
    (c c' : Const) (v w : PVal) (hlp : WellTyped lp) (hrp : WellTyped rp) (hl : l.code = encCode 0 is)
    (hr : r.code = encCode 0 js) (hd : LoadsDiffer lp rp is js op c c') (hop : op ≠ 0xc5)
    (hv : Denotes lp c v) (hw : Denotes rp c' w) (hne : pyEq v w = false)
    (p : Bool × Option Str)
    (h : codeConstantsCheck lp rp (lim + 4) (some l) (some r) = .ok p) : p.1 = true := by
  obtain ⟨⟨hv1, hv2⟩, ⟨k, pos, a, b, h1, h2, h3, h4⟩, _⟩ := hd
  obtain ⟨as, hi⟩ := h1.insn hv1
  obtain ⟨bs, hj⟩ := h2.insn hv2
  have hc : hasConstArg op = .ok true := by
    obtain ⟨o, os, as, _, ho, hp, _⟩ := h1
    rw [C29_const_partial op _ ho hop]
    simp [hp]
  refine C42_leaf lp rp (lim + 4) l r k _ _ (by rw [hl]; exact hi) (by rw [hr]; exact hj)
    (.inr (.inr ?_)) p h
  rw [operandsEq_deref hc (C09_denotation_unique lp hlp a c v h3 hv lim)
    (C09_denotation_unique rp hrp b c' w h4 hw lim), hne]
  rfl

/-- C42 for constants of the same kind. -/
theorem C42_same_kind_partial (lp rp : Pool) (lim : Nat) (l r : CodeInfo) (is js : List Instr)
    (op : Nat) (c c' : Const) (hlp : WellTyped lp) (hrp : WellTyped rp) (hl : l.code = encCode 0 is)
    (hr : r.code = encCode 0 js) (hd : LoadsDiffer lp rp is js op c c') (hop : op ≠ 0xc5)
    (hk : kindOf c = kindOf c') (hb : BitsFit c) (hb' : BitsFit c') (hcf : ¬ Confused lp rp c c')
    (p : Bool × Option Str)
    (h : codeConstantsCheck lp rp (lim + 4) (some l) (some r) = .ok p) : p.1 = true := by
  obtain ⟨k, pos, a, b, h1, h2, h3, h4⟩ := hd.loads
  obtain ⟨v, hv⟩ := hlp.2 a c h3
  obtain ⟨w, hw⟩ := hrp.2 b c' h4
  exact C42_code_partial lp rp lim l r is js op c c' v w hlp hrp hl hr hd hop hv hw
    (C42_values_differ lp rp c c' v w hv hw hk hb hb' hd.differ hcf) p h

/-- A code comparison that reports a change makes the class comparison exit with 1, whatever the
options: in particular with the constant pool ignored. -/
theorem C42_class_status (T : Texts) (lim depth : Nat) (o : Opts) (l r : ClassInfo)
    (lid rid : Member → Str)
    (hl : ∀ m ∈ l.methods, m.identifier l.pool lim = .ok (lid m))
    (hr : ∀ m ∈ r.methods, m.identifier r.pool lim = .ok (rid m))
    (hnl : (l.methods.map lid).Nodup) (hnr : (r.methods.map rid).Nodup)
    (m m' : Member) (hm : m ∈ l.methods) (hm' : m' ∈ r.methods) (hid : lid m = rid m')
    (c c' : CodeInfo) (hc : m.getCode l.pool lim = .ok (some c))
    (hc' : m'.getCode r.pool lim = .ok (some c'))
    (hd : ∀ p, codeConstantsCheck l.pool r.pool lim (some c) (some c') = .ok p → p.1 = true)
    (s : Nat) (hs : classDiffStatus T lim depth o l r = .ok s) : s = 1 := by
  have hloud : Loud o (javaClassChange T lim depth l r) := by
    refine Loud.super (x := membersChange T lim "ClassMethodsChange" "Methods" "Method"
      (methodChildren T lim depth l.pool r.pool) l.pool r.pool l.methods r.methods) rfl rfl
      (by simp [classChildren]) ?_
    obtain ⟨ds, h1, h2⟩ := C41_collected T lim "ClassMethodsChange" "Methods" "Method"
      (methodChildren T lim depth l.pool r.pool) l.pool r.pool l.methods r.methods lid rid hl hr hnl hnr
    obtain ⟨ds', h1', _, _, h3, _⟩ := C41_members (fun m => m.identifier l.pool lim)
      (fun m => m.identifier r.pool lim) lid rid l.methods r.methods hl hr hnl hnr
    rw [h1] at h1'
    simp only [Except.ok.injEq] at h1'
    subst h1'
    have hmem : deltaChange T "Method" (methodChildren T lim depth l.pool r.pool) l.pool r.pool
        (.changed m m') ∈ ds.map (deltaChange T "Method" (methodChildren T lim depth l.pool r.pool)
          l.pool r.pool) := List.mem_map_of_mem ((h3 m m').2 ⟨hm, hm', hid⟩)
    unfold membersChange
    rw [h1]
    refine Loud.super rfl rfl hmem ?_
    refine Loud.super (x := methodCodeChange T lim l.pool r.pool (some c) (some c')) rfl rfl ?_ ?_
    · simp [methodChildren, hc, hc']
    · refine Loud.super (x := .leaf { typeName := "CodeConstantsChange", label := "Code constants".toList }
        (some (codeConstantsCheck l.pool r.pool lim (some c) (some c'))) false none) rfl rfl ?_ ?_
      · simp [codeChildren]
      · exact Loud.leaf rfl hd rfl
  unfold classDiffStatus at hs
  cases hch : (javaClassChange T lim depth l r).check with
  | error e => rw [hch] at hs; simp [Except.map] at hs
  | ok x =>
    rw [hch] at hs
    simp only [Except.map, Except.ok.injEq] at hs
    rw [← hs]
    exact hloud.status hch

/-! ### Completion -/

/-- Constant operands of the instructions point to entries. -/
def Resolves (pool : Pool) (is : List Instr) : Prop :=
  ∀ op (a : Int) as o os, .fixed op (a :: as) ∈ is → operands op = some (o :: os) → o.isPool = true →
    ∃ c, pool[a.toNat]? = some (some c)

theorem insn_instr {is : List Instr} (hv : ∀ i ∈ is, i.Valid) {k : Nat} {x : Insn}
    (h : (disassemble (encCode 0 is)).1[k]? = some x) :
    ∃ i ∈ is, x.code = i.opcode ∧ x.args = reportedArgs i := by
  rw [C27_disassemble_assemble is hv, List.getElem?_zipWith_eq_some] at h
  obtain ⟨p, i, _, h2, rfl⟩ := h
  exact ⟨i, List.mem_of_getElem? h2, rfl, rfl⟩

theorem const_instr {pool : Pool} {is : List Instr} (hp : WellTyped pool) (hv : ∀ i ∈ is, i.Valid)
    (hr : Resolves pool is) (lim : Nat) {i : Instr} (hi : i ∈ is) (hc : hasConstArg i.opcode = .ok true) :
    ∃ a as v, reportedArgs i = .ints (a :: as) ∧ deref pool (lim + 4) a.toNat = .ok v := by
  obtain ⟨o, os, h1, h2⟩ := C29_const_first _ hc
  obtain ⟨hx1, hx2, hx3⟩ := C29_const_variable
  have hi2 := hv i hi
  cases i with
  | tableswitch d l h js => rw [show Instr.opcode (.tableswitch d l h js) = 0xaa from rfl, hx1] at hc; simp at hc
  | lookupswitch d ps => rw [show Instr.opcode (.lookupswitch d ps) = 0xab from rfl, hx2] at hc; simp at hc
  | wide op n => rw [show Instr.opcode (.wide op n) = 0xc4 from rfl, hx3] at hc; simp at hc
  | wideIinc n v => rw [show Instr.opcode (.wideIinc n v) = 0xc4 from rfl, hx3] at hc; simp at hc
  | fixed op args =>
    simp only [Instr.opcode] at h1
    obtain ⟨os', h3, h4, _⟩ := hi2
    rw [h1] at h3
    simp only [Option.some.injEq] at h3
    subst h3
    cases args with
    | nil => simp at h4
    | cons a as =>
      obtain ⟨c, hcc⟩ := hr op a as o os hi h1 h2
      obtain ⟨v, _, hv⟩ := C09_deref_denotes pool hp a.toNat c hcc lim
      have hop : op ≠ 0x10 := by
        rintro rfl
        have : operands 0x10 = some [.imm1] := by decide
        rw [this] at h1
        simp only [Option.some.injEq, List.cons.injEq] at h1
        rw [← h1.1] at h2
        simp [Operand.isPool] at h2
      exact ⟨a, as, v, by simp [reportedArgs, hop], hv⟩

/-- C42, the comparison does complete: for valid code whose constant operands point to entries of
well-typed pools no exception is raised. -/
theorem C42_completes (lp rp : Pool) (lim : Nat) (l r : CodeInfo) (is js : List Instr)
    (hlp : WellTyped lp) (hrp : WellTyped rp) (hl : l.code = encCode 0 is) (hr : r.code = encCode 0 js)
    (hvi : ∀ i ∈ is, i.Valid) (hvj : ∀ j ∈ js, j.Valid) (hri : Resolves lp is) (hrj : Resolves rp js) :
    ∃ b, codeConstantsCheck lp rp (lim + 4) (some l) (some r) = .ok (b, none) := by
  by_cases hlen : l.code.length = r.code.length
  · obtain ⟨b, hb, _⟩ := C42_leaf_exact lp rp (lim + 4) l r hlen
      (by rw [hl, C27_disassemble_assemble is hvi]) (by rw [hr, C27_disassemble_assemble js hvj]) (by
        intro k x y hx hy hxy
        rw [hl] at hx
        rw [hr] at hy
        obtain ⟨i, hi, hi1, hi2⟩ := insn_instr hvi hx
        obtain ⟨j, hj, hj1, hj2⟩ := insn_instr hvj hy
        have hlt : x.code < 202 := by
          obtain ⟨_, _, h⟩ := enc_cons i 0 (hvi i hi)
          rw [hi1]; exact h
        obtain ⟨f, hf⟩ : ∃ f, hasConstArg x.code = .ok f := by
          obtain ⟨d, hd⟩ := opDef_exists hlt
          exact ⟨d.const, by unfold hasConstArg; rw [hd]; rfl⟩
        unfold operandsEq
        rw [hf]
        cases f with
        | false => exact ⟨_, rfl⟩
        | true =>
          obtain ⟨a, as, v, h1, h2⟩ := const_instr hlp hvi hri lim hi (by rw [← hi1]; exact hf)
          obtain ⟨b, bs, w, h3, h4⟩ := const_instr hrp hvj hrj lim hj (by rw [← hj1, ← hxy]; exact hf)
          rw [hi2, hj2, h1, h3]
          simp only [h2, h4]
          exact ⟨_, rfl⟩)
    exact ⟨b, hb⟩
  · exact ⟨true, by simp [codeConstantsCheck, hlen]⟩

/-! ### What is missed -/

/-- `ldc #1` -/
def ldcCode : CodeInfo := ⟨1, 1, encCode 0 [.fixed 0x12 [1]], [], []⟩

/-- `multianewarray #1, 2` -/
def arrayCode : CodeInfo := ⟨1, 1, encCode 0 [.fixed 0xc5 [1, 2]], [], []⟩

theorem C42_full_fails : ¬ C42_full := by
  intro h
  have := h [none, some (.float 0)] [none, some (.float 0x80000000)] 5 ldcCode ldcCode
    [.fixed 0x12 [1]] [.fixed 0x12 [1]] 0x12 (.float 0) (.float 0x80000000)
    (by
      refine ⟨rfl, ?_⟩
      intro i c hc
      match i with
      | 0 => simp at hc
      | 1 =>
        simp only [List.getElem?_cons_succ, List.getElem?_cons_zero, Option.some.injEq] at hc
        subst hc
        exact ⟨_, rfl⟩
      | i + 2 => simp at hc)
    (by
      refine ⟨rfl, ?_⟩
      intro i c hc
      match i with
      | 0 => simp at hc
      | 1 =>
        simp only [List.getElem?_cons_succ, List.getElem?_cons_zero, Option.some.injEq] at hc
        subst hc
        exact ⟨_, rfl⟩
      | i + 2 => simp at hc)
    rfl rfl
    (by
      have hv : ∀ i ∈ [Instr.fixed 0x12 [1]], i.Valid := by
        intro i hi
        rw [List.mem_singleton] at hi
        subst hi
        refine ⟨[.pool1], by decide, rfl, ?_⟩
        intro p hp
        simp only [List.zip_cons_cons, List.zip_nil_right, List.mem_singleton] at hp
        subst hp
        simp [Operand.InRange, Operand.signed, Operand.width, URange]
      have hl : LoadsAt [Instr.fixed 0x12 [1]] 0 0 0x12 1 :=
        ⟨.pool1, [], [], rfl, by decide, rfl, rfl⟩
      exact ⟨⟨hv, hv⟩, ⟨0, 0, 1, 1, hl, hl, rfl, rfl⟩, by simp [SameConst]⟩)
    (false, none) (by decide +kernel)
  simp at this

/-- C42, what else the comparison misses: an int against the float of the same value, a string
against a class of that name, a different array class in multianewarray. -/
theorem C42_missed :
    codeConstantsCheck [none, some (.integer 1)] [none, some (.float 0x3f800000)] 9
      (some ldcCode) (some ldcCode) = .ok (false, none) ∧
    codeConstantsCheck [none, some (.string 2), some (.utf8 ['a'])]
      [none, some (.cls 2), some (.utf8 ['a'])] 9 (some ldcCode) (some ldcCode) = .ok (false, none) ∧
    codeConstantsCheck [none, some (.cls 2), some (.utf8 "[[I".toList)]
      [none, some (.cls 2), some (.utf8 "[[J".toList)] 9 (some arrayCode) (some arrayCode) =
      .ok (false, none) := by
  decide +kernel

/-- The method's string changed from "hi" to "ho": reported although the pool is ignored. -/
example : classDiffStatus noTexts 9 9 [("ignore_pool".toList, true)] (classOf selfClass)
    (classOf { selfClass with pool := selfClass.pool.set 8 (.utf8 [104, 111]) }) = .ok 1 := by
  decide +kernel

/-- An unused change of the pool is not reported with the pool ignored. -/
example : classDiffStatus noTexts 9 9 [("ignore_pool".toList, true)] (classOf selfClass)
    (classOf { selfClass with pool := selfClass.pool ++ [.utf8 [104, 111]] }) = .ok 0 ∧
    classDiffStatus noTexts 9 9 [] (classOf selfClass)
    (classOf { selfClass with pool := selfClass.pool ++ [.utf8 [104, 111]] }) = .ok 1 := by
  decide +kernel

end Javatools
