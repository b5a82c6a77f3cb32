import Verif.Model.Text
import Verif.Proofs.Utf8
/-
Base 64 is injective and its output is plain text.
-/
namespace Javatools

theorem b64Digit_inj : ∀ n : Fin 64, ∀ m : Fin 64, b64Digit n.1 = b64Digit m.1 → n = m := by
  decide +kernel

theorem b64Digit_ne : ∀ n : Fin 64, b64Digit n.1 ≠ '=' := by decide +kernel

theorem b64Digit_eq {n m : Nat} (hn : n < 64) (hm : m < 64) (h : b64Digit n = b64Digit m) : n = m :=
  congrArg Fin.val (b64Digit_inj ⟨n, hn⟩ ⟨m, hm⟩ h)

theorem b64Digit_pad {n : Nat} (hn : n < 64) (h : b64Digit n = '=') : False :=
  b64Digit_ne ⟨n, hn⟩ h

theorem byte_lt (b : UInt8) : b.toNat < 256 := b.toNat_lt

theorem b64encode_injective {a b : Bytes} (h : b64encode a = b64encode b) : a = b := by
  fun_induction b64encode a generalizing b with
  | case1 =>
    fun_cases b64encode b with
    | case1 => rfl
    | case2 => simp [b64encode] at h
    | case3 => simp [b64encode] at h
    | case4 => simp [b64encode] at h
  | case2 x =>
    have hx := byte_lt x
    fun_cases b64encode b with
    | case1 => simp [b64encode] at h
    | case2 y =>
      have hy := byte_lt y
      simp only [b64encode, List.cons.injEq, and_true] at h
      have h1 := b64Digit_eq (by omega) (by omega) h.1
      have h2 := b64Digit_eq (by omega) (by omega) h.2
      have : x = y := UInt8.toNat_inj.1 (by omega)
      rw [this]
    | case3 y z =>
      have hy := byte_lt y
      have hz := byte_lt z
      simp only [b64encode, List.cons.injEq] at h
      exact absurd h.2.2.1.symm (fun he => b64Digit_pad (by omega) he)
    | case4 y z w rest =>
      have hy := byte_lt y
      have hz := byte_lt z
      have hw := byte_lt w
      simp only [b64encode, List.cons.injEq] at h
      exact absurd h.2.2.1.symm (fun he => b64Digit_pad (by omega) he)
  | case3 x x' =>
    have hx := byte_lt x
    have hx' := byte_lt x'
    fun_cases b64encode b with
    | case1 => simp [b64encode] at h
    | case2 y =>
      simp only [b64encode, List.cons.injEq] at h
      exact absurd h.2.2.1 (fun he => b64Digit_pad (by omega) he)
    | case3 y z =>
      have hy := byte_lt y
      have hz := byte_lt z
      simp only [b64encode, List.cons.injEq, and_true] at h
      have h1 := b64Digit_eq (by omega) (by omega) h.1
      have h2 := b64Digit_eq (by omega) (by omega) h.2.1
      have h3 := b64Digit_eq (by omega) (by omega) h.2.2
      have e1 : x = y := UInt8.toNat_inj.1 (by omega)
      have e2 : x' = z := UInt8.toNat_inj.1 (by omega)
      rw [e1, e2]
    | case4 y z w rest =>
      have hw := byte_lt w
      simp only [b64encode, List.cons.injEq] at h
      exact absurd h.2.2.2.1.symm (fun he => b64Digit_pad (by omega) he)
  | case4 x x' x'' r ih =>
    have hx := byte_lt x
    have hx' := byte_lt x'
    have hx'' := byte_lt x''
    fun_cases b64encode b with
    | case1 => simp [b64encode] at h
    | case2 y =>
      simp only [b64encode, List.cons.injEq] at h
      exact absurd h.2.2.2.1 (fun he => b64Digit_pad (by omega) he)
    | case3 y z =>
      simp only [b64encode, List.cons.injEq] at h
      exact absurd h.2.2.2.1 (fun he => b64Digit_pad (by omega) he)
    | case4 y z w rest =>
      have hy := byte_lt y
      have hz := byte_lt z
      have hw := byte_lt w
      simp only [b64encode, List.cons.injEq] at h
      have h1 := b64Digit_eq (by omega) (by omega) h.1
      have h2 := b64Digit_eq (by omega) (by omega) h.2.1
      have h3 := b64Digit_eq (by omega) (by omega) h.2.2.1
      have h4 := b64Digit_eq (by omega) (by omega) h.2.2.2.1
      have e1 : x = y := UInt8.toNat_inj.1 (by omega)
      have e2 : x' = z := UInt8.toNat_inj.1 (by omega)
      have e3 : x'' = w := UInt8.toNat_inj.1 (by omega)
      rw [e1, e2, e3, ih h.2.2.2.2]

theorem b64Digit_ascii : ∀ n : Fin 64, 33 ≤ (b64Digit n.1).toNat ∧ (b64Digit n.1).toNat < 127 := by
  decide +kernel

/-- Base 64 text consists of printable ASCII characters. -/
theorem b64encode_ascii (b : Bytes) : ∀ c ∈ b64encode b, 33 ≤ c.toNat ∧ c.toNat < 127 := by
  have key : ∀ n, n < 64 → 33 ≤ (b64Digit n).toNat ∧ (b64Digit n).toNat < 127 :=
    fun n hn => b64Digit_ascii ⟨n, hn⟩
  have pad : 33 ≤ ('=' : Char).toNat ∧ ('=' : Char).toNat < 127 := by decide
  fun_induction b64encode b with
  | case1 => simp
  | case2 x =>
    have hx := byte_lt x
    intro c hc
    simp only [List.mem_cons, List.not_mem_nil, or_false] at hc
    rcases hc with rfl | rfl | rfl | rfl
    · exact key _ (by omega)
    · exact key _ (by omega)
    · exact pad
    · exact pad
  | case3 x y =>
    have hx := byte_lt x
    have hy := byte_lt y
    intro c hc
    simp only [List.mem_cons, List.not_mem_nil, or_false] at hc
    rcases hc with rfl | rfl | rfl | rfl
    · exact key _ (by omega)
    · exact key _ (by omega)
    · exact key _ (by omega)
    · exact pad
  | case4 x y z r ih =>
    have hx := byte_lt x
    have hy := byte_lt y
    have hz := byte_lt z
    intro c hc
    simp only [List.mem_cons] at hc
    rcases hc with rfl | rfl | rfl | rfl | hc
    · exact key _ (by omega)
    · exact key _ (by omega)
    · exact key _ (by omega)
    · exact key _ (by omega)
    · exact ih c hc

theorem b64encode_ne_nil {b : Bytes} (h : b ≠ []) : b64encode b ≠ [] := by
  fun_cases b64encode b <;> simp_all

end Javatools
