import Verif.Props.Renumber
import Verif.Props.Exact2

/-! For exactly which renumbered constant pools the exit status is 0, C40. -/

namespace Javatools

open Spec Change

/-- No slot of the pool but the first holds a constant of kind Dynamic. -/
def NoDynamic (pool : Pool) : Prop := ∀ i a b, i ≠ 0 → pool[i]? ≠ some (some (.dynamic a b))

theorem listing_iff (pool : Pool) : (∃ l, prettyConstants pool = .ok l) ↔ NoDynamic pool := by
  rw [C20_listing]
  constructor
  · intro h i a b hi he
    exact absurd (h i _ hi he) (by simp [Const.isDynamic])
  · intro h i c hi he
    cases c <;> first | rfl | exact absurd he (h i _ _ hi)

theorem poolOutcome_iff (l r : ClassInfo) (o : Opts) :
    poolOutcome l r o = .ok 0 ↔ poolEq l.pool r.pool = true ∨
      (o.attr "ignore_pool" = true ∧ NoDynamic l.pool ∧ NoDynamic r.pool) := by
  rw [← listing_iff, ← listing_iff]
  unfold poolOutcome
  cases hp : poolEq l.pool r.pool with
  | true => simp
  | false =>
    cases hl : prettyConstants l.pool <;> cases hr : prettyConstants r.pool <;>
      cases ho : o.attr "ignore_pool" <;> simp

/-- C40, for exactly which renumberings that leave the operands of multianewarray instructions in place the exit
status is 0: those of equal pools and, if the pool is ignored, those of pools without a constant of kind Dynamic. -/
theorem C40_exact (T : Texts) (lim depth : Nat) (l r : ClassInfo) (σ : Nat → Nat)
    (hp : NaNFree l.pool) (hf : DistinctIds lim l.pool l.fields)
    (hm : DistinctIds lim l.pool l.methods) (hr : ReadableClass lim depth l)
    (hσ : RenumbersPool σ l.pool r.pool)
    (h : ClassRel (Moved σ l.pool lim) (· = ·) lim depth l r) (o : Opts) :
    classDiffStatus T lim depth o l r = .ok 0 ↔ poolEq l.pool r.pool = true ∨
      (o.attr "ignore_pool" = true ∧ NoDynamic l.pool ∧ NoDynamic r.pool) := by
  rw [(C40_renumbering_partial T lim depth l r σ hp hf hm hr hσ h).2.1 o, poolOutcome_iff]

/-- A class that loads the string at index 7, and the same class with the string at index 2: the exit status is 0
just when the pool is ignored. -/
example (o : Opts) : classDiffStatus noTexts 9 9 o (renClass renPool 2 (encCode 0 (ldcBody 7)))
      (renClass renPool' 7 (encCode 0 (ldcBody 2))) = .ok 0 ↔ o.attr "ignore_pool" = true := by
  rw [C40_exact noTexts 9 9 (renClass renPool 2 (encCode 0 (ldcBody 7)))
    (renClass renPool' 7 (encCode 0 (ldcBody 2))) swap27 renPool_nanFree (ren_distinct _).1
    (ren_distinct _).2 ldc_readable renPool_swap
    (ren_classRel _ _ _ (ldcBody_valid 7 (by decide)) (ldcBody_valid 2 (by decide)) (by decide +kernel)
      (by decide +kernel)
      (.cons (.pool ⟨.pool1, [], by decide, rfl⟩ (by decide) ⟨rfl, of_isOk (by decide +kernel)⟩)
        (.cons (same_fixed (by decide)) (.cons (same_fixed (by decide)) .nil))))]
  have h1 : poolEq renPool renPool' = false := by decide +kernel
  have h2 : NoDynamic renPool := (listing_iff _).1 (of_isOk (by decide +kernel))
  have h3 : NoDynamic renPool' := (listing_iff _).1 (of_isOk (by decide +kernel))
  simp [renClass, h1, h2, h3]

end Javatools
