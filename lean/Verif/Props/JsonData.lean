import Verif.Model.JsonData
import Verif.Props.Attrs
import Verif.Props.ClassConst
import Verif.Props.CodeListing
/-
C132, C133: the data of code changes in JSON reports.
-/
namespace Javatools

open Spec

set_option synthInstance.maxSize 1000

/-! ### Disassembled instructions -/

theorem Tiles.known {pos : Nat} {is : List Insn} {bs : Bytes} (h : Tiles pos is bs) :
    ∀ i ∈ is, i.code < 202 := by
  induction h with
  | nil => simp
  | cons ho he ht ih =>
    intro i hi
    rcases List.mem_cons.1 hi with rfl | hi
    · rcases he with ⟨os, vs, h, _⟩ | ⟨h, _⟩ | ⟨h, _⟩ | ⟨h, _⟩ | ⟨h, _⟩
      · exact operands_lt h
      all_goals omega
    · exact ih i hi

theorem disassemble_known {bc : Bytes} : ∀ i ∈ (disassemble bc).1, i.code < 202 := by
  rcases C28_covers_or_raises bc with ⟨js, h1, h2⟩ | ⟨js, e, d, r, h1, _, _, _, h2⟩ <;>
    · rw [h1]; exact h2.known

theorem disassemble_sorted {bc : Bytes} :
    ((disassemble bc).1.map Insn.off).Pairwise (· < ·) := by
  rcases C28_covers_or_raises bc with ⟨js, h1, h2⟩ | ⟨js, e, d, r, h1, _, _, _, h2⟩ <;>
    · rw [h1]; exact h2.offsets.2.1

theorem opname_known {c : Nat} (h : c < 202) :
    ∃ n, getOpnameByCode c = .ok n := (C29_opcodes c).2 h

theorem constArg_known {c : Nat} (h : c < 202) : ∃ b, hasConstArg c = .ok b := by
  obtain ⟨d, hd⟩ := opDef_exists h
  exact ⟨d.const, by unfold hasConstArg; rw [hd]; rfl⟩

/-- Instructions of one disassembly at the same offset are the same. -/
theorem same_off {is : List Insn} (hs : (is.map Insn.off).Pairwise (· < ·)) {i j : Insn}
    (hi : i ∈ is) (hj : j ∈ is) (h : i.off = j.off) : i = j := by
  induction is with
  | nil => simp at hi
  | cons x xs ih =>
    rw [List.map_cons, List.pairwise_cons] at hs
    rcases List.mem_cons.1 hi with hi | hi <;> rcases List.mem_cons.1 hj with hj | hj
    · rw [hi, hj]
    · have := hs.1 j.off (List.mem_map_of_mem hj)
      rw [hi] at h
      omega
    · have := hs.1 i.off (List.mem_map_of_mem hi)
      rw [hj] at h
      omega
    · exact ih hs.2 hi hj

/-! ### Offsets -/

/-- At some position the two bodies have the instructions `i` and `j`, and their operands differ,
constants being compared as values. -/
def Differing (lp rp : Pool) (lim : Nat) (l r : CodeInfo) (i j : Insn) : Prop :=
  ∃ k : Nat, (disassemble l.code).1[k]? = some i ∧ (disassemble r.code).1[k]? = some j ∧
    operandsEq lp rp lim i j = .ok false

theorem constantsLoop_offsets {lp rp : Pool} {lim : Nat} {le re : Option PyErr} :
    ∀ {ls rs : List Insn} {offs : List Nat},
    constantsLoop lp rp lim le re ls rs = .ok (some offs) →
    (∀ o, o ∈ offs ↔ ∃ (k : Nat) (i j : Insn), ls[k]? = some i ∧ rs[k]? = some j ∧
      operandsEq lp rp lim i j = .ok false ∧ i.off = o) ∧
    ∀ (k : Nat) (i j : Insn), ls[k]? = some i → rs[k]? = some j → i.off = j.off ∧ i.code = j.code := by
  intro ls
  induction ls with
  | nil =>
    intro rs offs h
    unfold constantsLoop at h
    split at h
    · simp at h
    · simp only [Except.ok.injEq, Option.some.injEq] at h
      subst h
      simp
  | cons l ls ih =>
    intro rs offs h
    cases rs with
    | nil =>
      unfold constantsLoop at h
      split at h
      · simp at h
      · simp only [Except.ok.injEq, Option.some.injEq] at h
        subst h
        simp
    | cons r rs =>
      rw [constantsLoop] at h
      split at h
      · simp at h
      · rename_i hs
        have hs := Classical.not_not.1 hs
        split at h
        · simp at h
        · rename_i same hsame
          split at h
          · simp at h
          · simp at h
          · rename_i offsets hrest
            obtain ⟨h1, h2⟩ := ih hrest
            simp only [Except.ok.injEq, Option.some.injEq] at h
            constructor
            · intro o
              have hsplit : (∃ (k : Nat) (i j : Insn), (l :: ls)[k]? = some i ∧
                  (r :: rs)[k]? = some j ∧ operandsEq lp rp lim i j = .ok false ∧ i.off = o) ↔
                  (operandsEq lp rp lim l r = .ok false ∧ l.off = o) ∨
                  ∃ (k : Nat) (i j : Insn), ls[k]? = some i ∧ rs[k]? = some j ∧
                    operandsEq lp rp lim i j = .ok false ∧ i.off = o := by
                constructor
                · rintro ⟨k, i, j, a, b, c⟩
                  cases k with
                  | zero =>
                    simp only [List.getElem?_cons_zero, Option.some.injEq] at a b
                    subst a b
                    exact .inl c
                  | succ k => exact .inr ⟨k, i, j, a, b, c⟩
                · rintro (c | ⟨k, i, j, a, b, c⟩)
                  · exact ⟨0, l, r, rfl, rfl, c⟩
                  · exact ⟨k + 1, i, j, a, b, c⟩
              rw [hsplit, ← h1, ← h, hsame]
              cases same <;> simp [eq_comm]
            · intro k i j a b
              cases k with
              | zero =>
                simp only [List.getElem?_cons_zero, Option.some.injEq] at a b
                subst a b
                exact hs
              | succ k => exact h2 k i j a b

/-! ### Rows -/

section
variable {fmt repr : PVal → Str} {pool : Pool} {lim : Nat}

theorem constRow_off {i : Insn} {row : ConstRow} (h : constRow fmt repr pool lim i = .ok row) :
    row.1 = i.off := by
  unfold constRow at h
  split at h
  · simp at h
  · split at h
    · split at h
      · simp at h
      · simp only [Except.ok.injEq] at h
        rw [← h]
    · simp at h

/-- What the loop gives when it ends, and when it does. -/
theorem constRows_spec {offs : List Nat} {err : Option PyErr} :
    ∀ {is : List Insn}, (∀ i ∈ is, i.code < 202) → (is.map Insn.off).Pairwise (· < ·) →
    (∀ rows, constRows fmt repr pool lim offs err is = .ok rows →
      err = none ∧ (rows.map Prod.fst).Pairwise (· < ·) ∧
      (∀ row ∈ rows, row.1 ∈ is.map Insn.off) ∧
      ∀ row, row ∈ rows ↔ ∃ i ∈ is, i.off ∈ offs ∧ hasConstArg i.code = .ok true ∧
        constRow fmt repr pool lim i = .ok row) ∧
    ((∃ rows, constRows fmt repr pool lim offs err is = .ok rows) ↔ err = none ∧
      ∀ i ∈ is, i.off ∈ offs → hasConstArg i.code = .ok true →
        ∃ row, constRow fmt repr pool lim i = .ok row) := by
  intro is
  induction is with
  | nil =>
    intro _ _
    cases err <;> simp [constRows]
  | cons x xs ih =>
    intro hk hp
    rw [List.map_cons, List.pairwise_cons] at hp
    obtain ⟨ih1, ih2⟩ := ih (fun i hi => hk i (List.mem_cons_of_mem _ hi)) hp.2
    obtain ⟨b, hb⟩ := constArg_known (hk x List.mem_cons_self)
    by_cases ho : x.off ∈ offs
    · cases b with
      | false =>
        have e : constRows fmt repr pool lim offs err (x :: xs) =
            constRows fmt repr pool lim offs err xs := by simp [constRows, ho, hb]
        rw [e]
        refine ⟨fun rows hr => ?_, ?_⟩
        · obtain ⟨a1, a2, a3, a4⟩ := ih1 rows hr
          exact ⟨a1, a2, fun row h => List.mem_cons_of_mem _ (a3 row h),
            fun row => by rw [a4]; simp [hb]⟩
        · rw [ih2]
          simp [hb]
      | true =>
        cases hrow : constRow fmt repr pool lim x with
        | error e =>
          have e' : constRows fmt repr pool lim offs err (x :: xs) = .error e := by
            simp [constRows, ho, hb, hrow]
          rw [e']
          refine ⟨by simp, ?_⟩
          simp only [reduceCtorEq, exists_false, false_iff, not_and]
          intro _ hall
          obtain ⟨row, h⟩ := hall x List.mem_cons_self ho hb
          rw [hrow] at h
          simp at h
        | ok row =>
          cases hrest : constRows fmt repr pool lim offs err xs with
          | error e =>
            have e' : constRows fmt repr pool lim offs err (x :: xs) = .error e := by
              simp [constRows, ho, hb, hrow, hrest]
            rw [e']
            refine ⟨by simp, ?_⟩
            rw [hrest] at ih2
            simp only [reduceCtorEq, exists_false, false_iff, not_and] at ih2 ⊢
            intro hn hall
            exact ih2 hn fun i hi => hall i (List.mem_cons_of_mem _ hi)
          | ok rows =>
            have e' : constRows fmt repr pool lim offs err (x :: xs) = .ok (row :: rows) := by
              simp [constRows, ho, hb, hrow, hrest]
            rw [e']
            obtain ⟨a1, a2, a3, a4⟩ := ih1 rows hrest
            rw [hrest] at ih2
            have hoff := constRow_off hrow
            refine ⟨fun rows' hr => ?_, ?_⟩
            · simp only [Except.ok.injEq] at hr
              subst hr
              refine ⟨a1, ?_, ?_, ?_⟩
              · rw [List.map_cons, List.pairwise_cons]
                refine ⟨fun o h => ?_, a2⟩
                obtain ⟨row', h', rfl⟩ := List.mem_map.1 h
                rw [hoff]
                exact hp.1 _ (a3 row' h')
              · intro row' h
                rcases List.mem_cons.1 h with rfl | h
                · rw [hoff]; simp
                · exact List.mem_cons_of_mem _ (a3 row' h)
              · intro row'
                rw [List.mem_cons, a4]
                constructor
                · rintro (rfl | ⟨i, hi, h⟩)
                  · exact ⟨x, List.mem_cons_self, ho, hb, hrow⟩
                  · exact ⟨i, List.mem_cons_of_mem _ hi, h⟩
                · rintro ⟨i, hi, h⟩
                  rcases List.mem_cons.1 hi with rfl | hi
                  · rw [hrow] at h
                    exact .inl (by simpa using h.2.2.symm)
                  · exact .inr ⟨i, hi, h⟩
            · constructor
              · rintro -
                refine ⟨a1, fun i hi h1 h2 => ?_⟩
                rcases List.mem_cons.1 hi with rfl | hi
                · exact ⟨row, hrow⟩
                · exact (ih2.1 ⟨_, rfl⟩).2 i hi h1 h2
              · intro _
                exact ⟨_, rfl⟩
    · have e : constRows fmt repr pool lim offs err (x :: xs) =
          constRows fmt repr pool lim offs err xs := by simp [constRows, ho]
      rw [e]
      refine ⟨fun rows hr => ?_, ?_⟩
      · obtain ⟨a1, a2, a3, a4⟩ := ih1 rows hr
        exact ⟨a1, a2, fun row h => List.mem_cons_of_mem _ (a3 row h),
          fun row => by rw [a4]; simp [ho]⟩
      · rw [ih2]
        simp [ho]
end

/-! ### C132 -/

section
variable {fmt repr : PVal → Str} {lp rp : Pool} {lim : Nat} {l r : CodeInfo}

/-- The differing instructions and the offsets: on each side, an instruction is at one of the
offsets exactly if it is one of two differing ones. -/
theorem offsets_sides {offs : List Nat}
    (h : codeConstantsOffsets lp rp lim (some l) (some r) = .ok (some offs)) :
    (∀ i ∈ (disassemble l.code).1, i.off ∈ offs ↔ ∃ j, Differing lp rp lim l r i j) ∧
    (∀ j ∈ (disassemble r.code).1, j.off ∈ offs ↔ ∃ i, Differing lp rp lim l r i j) ∧
    ∀ i j, Differing lp rp lim l r i j → i.off = j.off ∧ i.code = j.code := by
  rw [codeConstantsOffsets] at h
  split at h
  · simp at h
  · obtain ⟨h1, h2⟩ := constantsLoop_offsets h
    refine ⟨fun i hi => ?_, fun j hj => ?_, ?_⟩
    · rw [h1]
      constructor
      · rintro ⟨k, i', j, a, b, c, e⟩
        obtain rfl := same_off disassemble_sorted (List.mem_of_getElem? a) hi e
        exact ⟨j, k, a, b, c⟩
      · rintro ⟨j, k, a, b, c⟩
        exact ⟨k, i, j, a, b, c, rfl⟩
    · rw [h1]
      constructor
      · rintro ⟨k, i, j', a, b, c, e⟩
        have := (h2 k i j' a b).1
        obtain rfl := same_off disassemble_sorted (List.mem_of_getElem? b) hj (by omega)
        exact ⟨i, k, a, b, c⟩
      · rintro ⟨i, k, a, b, c⟩
        exact ⟨k, i, j, a, b, c, (h2 k i j a b).1⟩
    · rintro i j ⟨k, a, b, -⟩
      exact h2 k i j a b

theorem Differing.mem {i j : Insn} (h : Differing lp rp lim l r i j) :
    i ∈ (disassemble l.code).1 ∧ j ∈ (disassemble r.code).1 := by
  obtain ⟨k, a, b, -⟩ := h
  exact ⟨List.mem_of_getElem? a, List.mem_of_getElem? b⟩

theorem constantsData_some {old new : List ConstRow}
    (h : constantsData fmt repr lp rp lim (some l) (some r) = .ok (some old, some new)) :
    ∃ offs, codeConstantsOffsets lp rp lim (some l) (some r) = .ok (some offs) ∧ offs ≠ [] ∧
      constRows fmt repr lp lim offs (disassemble l.code).2 (disassemble l.code).1 = .ok old ∧
      constRows fmt repr rp lim offs (disassemble r.code).2 (disassemble r.code).1 = .ok new := by
  unfold constantsData at h
  split at h
  · simp at h
  · rename_i offsets ho
    match offsets, ho with
    | none, ho => simp [constantsPretty, sideData] at h
    | some [], ho => simp [constantsPretty, sideData] at h
    | some (o :: os), ho =>
      refine ⟨o :: os, ho, by simp, ?_⟩
      simp only [constantsPretty, sideData] at h
      cases hl : constRows fmt repr lp lim (o :: os) (disassemble l.code).2 (disassemble l.code).1 with
      | error e => simp [hl, Except.map] at h
      | ok a =>
        cases hr : constRows fmt repr rp lim (o :: os) (disassemble r.code).2
            (disassemble r.code).1 with
        | error e => simp [hl, hr, Except.map] at h
        | ok b =>
          simp only [hl, hr, Except.map, Except.ok.injEq, Prod.mk.injEq, Option.some.injEq] at h
          rw [h.1, h.2]
          exact ⟨rfl, rfl⟩

/-- **C132.** What the data of a code constants change is: on each side, in the order of the code,
the offset, mnemonic and constant of each instruction that differs and loads a constant. -/
theorem C132_rows {old new : List ConstRow}
    (h : constantsData fmt repr lp rp lim (some l) (some r) = .ok (some old, some new)) :
    (old.map Prod.fst).Pairwise (· < ·) ∧ (new.map Prod.fst).Pairwise (· < ·) ∧
    (∀ row, row ∈ old ↔ ∃ i j, Differing lp rp lim l r i j ∧ hasConstArg i.code = .ok true ∧
      constRow fmt repr lp lim i = .ok row) ∧
    ∀ row, row ∈ new ↔ ∃ i j, Differing lp rp lim l r i j ∧ hasConstArg j.code = .ok true ∧
      constRow fmt repr rp lim j = .ok row := by
  obtain ⟨offs, ho, -, hl, hr⟩ := constantsData_some h
  obtain ⟨s1, s2, s3⟩ := offsets_sides ho
  obtain ⟨-, a2, -, a4⟩ := (constRows_spec disassemble_known disassemble_sorted).1 old hl
  obtain ⟨-, b2, -, b4⟩ := (constRows_spec disassemble_known disassemble_sorted).1 new hr
  refine ⟨a2, b2, fun row => ?_, fun row => ?_⟩
  · rw [a4]
    constructor
    · rintro ⟨i, hi, h1, h2⟩
      obtain ⟨j, hj⟩ := (s1 i hi).1 h1
      exact ⟨i, j, hj, h2⟩
    · rintro ⟨i, j, hd, h2⟩
      exact ⟨i, hd.mem.1, (s1 i hd.mem.1).2 ⟨j, hd⟩, h2⟩
  · rw [b4]
    constructor
    · rintro ⟨j, hj, h1, h2⟩
      obtain ⟨i, hi⟩ := (s2 j hj).1 h1
      exact ⟨i, j, hi, h2⟩
    · rintro ⟨i, j, hd, h2⟩
      exact ⟨j, hd.mem.2, (s2 j hd.mem.2).2 ⟨i, hd⟩, h2⟩

/-- **C132.** The data is there exactly if the bodies are of the same length, have the same opcodes at
the same offsets, and differ in an operand. -/
theorem C132_when {old new : Option (List ConstRow)}
    (h : constantsData fmt repr lp rp lim (some l) (some r) = .ok (old, new)) :
    (old.isSome ↔ new.isSome) ∧
    (old.isSome ↔ ∃ offs, codeConstantsOffsets lp rp lim (some l) (some r) = .ok (some offs) ∧
      ∃ i j, Differing lp rp lim l r i j) := by
  have hex : ∀ offs, codeConstantsOffsets lp rp lim (some l) (some r) = .ok (some offs) →
      (offs ≠ [] ↔ ∃ i j, Differing lp rp lim l r i j) := by
    intro offs ho
    have ho' := ho
    rw [codeConstantsOffsets] at ho'
    split at ho'
    · simp at ho'
    · have h1 := (constantsLoop_offsets ho').1
      constructor
      · intro hne
        obtain ⟨o, hm⟩ := List.exists_mem_of_ne_nil offs hne
        obtain ⟨k, i, j, a, b, c, -⟩ := (h1 o).1 hm
        exact ⟨i, j, k, a, b, c⟩
      · rintro ⟨i, j, k, a, b, c⟩ rfl
        exact absurd ((h1 i.off).2 ⟨k, i, j, a, b, c, rfl⟩) (by simp)
  unfold constantsData at h
  split at h
  · simp at h
  · rename_i offsets ho
    match offsets, ho with
    | none, ho =>
      simp only [constantsPretty, sideData, Except.ok.injEq, Prod.mk.injEq] at h
      obtain ⟨rfl, rfl⟩ := h
      simp [ho]
    | some [], ho =>
      simp only [constantsPretty, sideData, Except.ok.injEq, Prod.mk.injEq] at h
      obtain ⟨rfl, rfl⟩ := h
      refine ⟨Iff.rfl, ?_⟩
      simp only [Option.isSome_none, Bool.false_eq_true, false_iff]
      rintro ⟨offs, h1, h2⟩
      exact (hex [] ho).2 h2 rfl
    | some (o :: os), ho =>
      simp only [constantsPretty, sideData] at h
      cases hl : constRows fmt repr lp lim (o :: os) (disassemble l.code).2 (disassemble l.code).1 with
      | error e => simp [hl, Except.map] at h
      | ok a =>
        cases hr : constRows fmt repr rp lim (o :: os) (disassemble r.code).2
            (disassemble r.code).1 with
        | error e => simp [hl, hr, Except.map] at h
        | ok b =>
          simp only [hl, hr, Except.map, Except.ok.injEq, Prod.mk.injEq] at h
          obtain ⟨rfl, rfl⟩ := h
          refine ⟨by simp, ?_⟩
          simp only [Option.isSome_some, true_iff]
          exact ⟨o :: os, ho, (hex _ ho).1 (by simp)⟩
end

/-- **C132**, in terms of the class file: where both sides load, at the same position and by the same
instruction, constants whose values differ, the data has the position, the mnemonic and the constant as
it is shown, of either side. -/
theorem C132_lists {fmt repr : PVal → Str} (hfmt : ∀ s, fmt (.str s) = s) {lp rp : Pool}
    (hlp : WellTyped lp) (hrp : WellTyped rp) {lim : Nat} {l r : CodeInfo} {is js : List Instr}
    (hl : l.code = encCode 0 is) (hr : r.code = encCode 0 js) (hvi : ∀ i ∈ is, i.Valid)
    (hvj : ∀ j ∈ js, j.Valid) {old new : List ConstRow}
    (h : constantsData fmt repr lp rp (lim + 4) (some l) (some r) = .ok (some old, some new))
    {k pos op a b : Nat} (ha : LoadsAt is k pos op a) (hb : LoadsAt js k pos op b) (hop : op ≠ 0xc5)
    {c c' : Const} (hc : lp[a]? = some (some c)) (hc' : rp[b]? = some (some c'))
    {v w : PVal} (hv : Denotes lp c v) (hw : Denotes rp c' w) (hne : pyEq v w = false)
    {sv sw : PVal} (hsv : ConstShows fmt repr lp c sv) (hsw : ConstShows fmt repr rp c' sw) :
    (pos, (mnemonics.getD op "").toList, sv) ∈ old ∧
      (pos, (mnemonics.getD op "").toList, sw) ∈ new := by
  obtain ⟨-, -, h1, h2⟩ := C132_rows h
  obtain ⟨as, hi⟩ := ha.insn hvi
  obtain ⟨bs, hj⟩ := hb.insn hvj
  have hcon : hasConstArg op = .ok true := by
    obtain ⟨o, os, as, _, ho, hp, _⟩ := ha
    rw [C29_const_partial op _ ho hop]
    simp [hp]
  have hname : getOpnameByCode op = .ok (mnemonics.getD op "").toList := by
    obtain ⟨o, os, as, _, ho, hp, _⟩ := ha
    rw [C29_mnemonics op (operands_lt ho), if_neg]
    rintro rfl
    have : operands 0xc2 = some [] := by decide
    rw [this] at ho
    simp at ho
  have hd : Differing lp rp (lim + 4) l r ⟨pos, op, .ints ((a : Int) :: as)⟩
      ⟨pos, op, .ints ((b : Int) :: bs)⟩ := by
    refine ⟨k, by rw [hl]; exact hi, by rw [hr]; exact hj, ?_⟩
    rw [operandsEq_deref hcon (C09_denotation_unique lp hlp a c v hc hv lim)
      (C09_denotation_unique rp hrp b c' w hc' hw lim), hne]
    rfl
  constructor
  · refine (h1 _).2 ⟨_, _, hd, hcon, ?_⟩
    have := C83_pretty_deref_partial fmt repr hfmt lp hlp.1 (lim + 2) a c sv hc hsv
    simp [constRow, hname, this]
  · refine (h2 _).2 ⟨_, _, hd, hcon, ?_⟩
    have := C83_pretty_deref_partial fmt repr hfmt rp hrp.1 (lim + 2) b c' sw hc' hsw
    simp [constRow, hname, this]

/-- **C132.** Each differing instruction is listed on both sides. -/
def C132_full : Prop :=
  ∀ (fmt repr : PVal → Str) (lp rp : Pool) (lim : Nat) (l r : CodeInfo) (old new : List ConstRow),
    constantsData fmt repr lp rp lim (some l) (some r) = .ok (some old, some new) →
    ∀ i j, Differing lp rp lim l r i j → i.off ∈ old.map Prod.fst ∧ j.off ∈ new.map Prod.fst

/-- **C132**, for instructions that load constants: each differing one is listed on both sides.
Missing: the others, which are never listed. -/
theorem C132_partial {fmt repr : PVal → Str} {lp rp : Pool} {lim : Nat} {l r : CodeInfo}
    {old new : List ConstRow}
    (h : constantsData fmt repr lp rp lim (some l) (some r) = .ok (some old, some new))
    {i j : Insn} (hd : Differing lp rp lim l r i j) :
    (hasConstArg i.code = .ok true → i.off ∈ old.map Prod.fst ∧ j.off ∈ new.map Prod.fst) ∧
    (hasConstArg i.code = .ok false → i.off ∉ old.map Prod.fst ∧ j.off ∉ new.map Prod.fst) := by
  obtain ⟨offs, ho, -, hl, hr⟩ := constantsData_some h
  obtain ⟨s1, s2, s3⟩ := offsets_sides ho
  obtain ⟨he, hcode⟩ := s3 i j hd
  have hkl := constRows_spec (fmt := fmt) (repr := repr) (pool := lp) (lim := lim) (offs := offs)
    (err := (disassemble l.code).2) (disassemble_known (bc := l.code)) disassemble_sorted
  have hkr := constRows_spec (fmt := fmt) (repr := repr) (pool := rp) (lim := lim) (offs := offs)
    (err := (disassemble r.code).2) (disassemble_known (bc := r.code)) disassemble_sorted
  have io := (s1 i hd.mem.1).2 ⟨j, hd⟩
  have jo := (s2 j hd.mem.2).2 ⟨i, hd⟩
  constructor
  · intro hc
    obtain ⟨row, hrow⟩ := (hkl.2.1 ⟨_, hl⟩).2 i hd.mem.1 io hc
    obtain ⟨row', hrow'⟩ := (hkr.2.1 ⟨_, hr⟩).2 j hd.mem.2 jo (hcode ▸ hc)
    exact ⟨List.mem_map.2 ⟨row, ((hkl.1 old hl).2.2.2 row).2 ⟨i, hd.mem.1, io, hc, hrow⟩,
        constRow_off hrow⟩,
      List.mem_map.2 ⟨row', ((hkr.1 new hr).2.2.2 row').2 ⟨j, hd.mem.2, jo, hcode ▸ hc, hrow'⟩,
        constRow_off hrow'⟩⟩
  · intro hc
    constructor
    · intro hm
      obtain ⟨row, hrow, e⟩ := List.mem_map.1 hm
      obtain ⟨i', hi', -, hc', hr'⟩ := ((hkl.1 old hl).2.2.2 row).1 hrow
      obtain rfl := same_off disassemble_sorted hi' hd.mem.1 (by rw [← constRow_off hr', e])
      rw [hc] at hc'
      simp at hc'
    · intro hm
      obtain ⟨row, hrow, e⟩ := List.mem_map.1 hm
      obtain ⟨j', hj', -, hc', hr'⟩ := ((hkr.1 new hr).2.2.2 row).1 hrow
      obtain rfl := same_off disassemble_sorted hj' hd.mem.2 (by rw [← constRow_off hr', e])
      rw [← hcode, hc] at hc'
      simp at hc'

/-- A code object of the given bytes. -/
def codeOf (is : List Instr) : CodeInfo := ⟨1, 1, encCode 0 is, [], []⟩

/-- **C132** fails: `bipush 1` against `bipush 2` is a code constants change, and the data of both
sides is empty. -/
theorem C132_full_fails : ¬ C132_full := by
  intro h
  have := (h (fun _ => []) (fun _ => []) [none] [none] 5 (codeOf [.fixed 0x10 [1]])
    (codeOf [.fixed 0x10 [2]]) [] [] (by decide +kernel) ⟨0, 0x10, .ints [1]⟩ ⟨0, 0x10, .ints [2]⟩
    ⟨0, by decide +kernel, by decide +kernel, by decide +kernel⟩).1
  simp at this

/-- Two constants and another operand differ; one constant is at another index. -/
example :
    constantsData (fun _ => []) (fun _ => [])
      [none, some (.integer 7), some (.string 3), some (.utf8 "a".toList)]
      [none, some (.string 2), some (.utf8 "b".toList), some (.integer 7)] 5
      (some (codeOf [.fixed 0x12 [1], .fixed 0x10 [1], .fixed 0x12 [2]]))
      (some (codeOf [.fixed 0x12 [3], .fixed 0x10 [2], .fixed 0x12 [1]])) =
      .ok (some [(4, "ldc".toList, .str "a".toList)], some [(4, "ldc".toList, .str "b".toList)]) := by
  decide +kernel

/-! ### C133 -/

/-- **C133.** A code comparison that could be checked can be written as JSON. -/
def C133_full : Prop :=
  ∀ (fmt repr : PVal → Str) (lp rp : Pool) (lim : Nat) (l r : CodeInfo),
    (∃ p, codeConstantsCheck lp rp lim (some l) (some r) = .ok p) →
    (∃ p, codeBodyCheck (some l) (some r) = .ok p) →
    (∃ d, constantsData fmt repr lp rp lim (some l) (some r) = .ok d) ∧
      ∃ d, bodyData (some l) (some r) = .ok d

section
variable {fmt repr : PVal → Str} {lp rp : Pool} {lim : Nat} {l r : CodeInfo}

/-- **C133.** When the data of a code constants change can be made: the code of both sides can be
disassembled, and each constant that differs has a text. -/
theorem C133_constants {offs : List Nat}
    (ho : codeConstantsOffsets lp rp lim (some l) (some r) = .ok (some offs)) (hne : offs ≠ []) :
    (∃ d, constantsData fmt repr lp rp lim (some l) (some r) = .ok d) ↔
      (disassemble l.code).2 = none ∧ (disassemble r.code).2 = none ∧
      ∀ i j, Differing lp rp lim l r i j → hasConstArg i.code = .ok true →
        (∃ row, constRow fmt repr lp lim i = .ok row) ∧
          ∃ row, constRow fmt repr rp lim j = .ok row := by
  obtain ⟨s1, s2, s3⟩ := offsets_sides ho
  have hkl := (constRows_spec (fmt := fmt) (repr := repr) (pool := lp) (lim := lim) (offs := offs)
    (err := (disassemble l.code).2) (disassemble_known (bc := l.code)) disassemble_sorted).2
  have hkr := (constRows_spec (fmt := fmt) (repr := repr) (pool := rp) (lim := lim) (offs := offs)
    (err := (disassemble r.code).2) (disassemble_known (bc := r.code)) disassemble_sorted).2
  have e : (∃ d, constantsData fmt repr lp rp lim (some l) (some r) = .ok d) ↔
      (∃ rows, constRows fmt repr lp lim offs (disassemble l.code).2 (disassemble l.code).1 =
        .ok rows) ∧
      ∃ rows, constRows fmt repr rp lim offs (disassemble r.code).2 (disassemble r.code).1 =
        .ok rows := by
    unfold constantsData
    rw [ho]
    cases offs with
    | nil => exact absurd rfl hne
    | cons o os =>
      simp only [constantsPretty, sideData]
      cases constRows fmt repr lp lim (o :: os) (disassemble l.code).2 (disassemble l.code).1 <;>
        cases constRows fmt repr rp lim (o :: os) (disassemble r.code).2 (disassemble r.code).1 <;>
        simp [Except.map]
  rw [e, hkl, hkr]
  constructor
  · rintro ⟨⟨h1, h2⟩, h3, h4⟩
    refine ⟨h1, h3, fun i j hd hc => ?_⟩
    exact ⟨h2 i hd.mem.1 ((s1 i hd.mem.1).2 ⟨j, hd⟩) hc,
      h4 j hd.mem.2 ((s2 j hd.mem.2).2 ⟨i, hd⟩) ((s3 i j hd).2 ▸ hc)⟩
  · rintro ⟨h1, h3, h⟩
    refine ⟨⟨h1, fun i hi hio hc => ?_⟩, h3, fun j hj hjo hc => ?_⟩
    · obtain ⟨j, hd⟩ := (s1 i hi).1 hio
      exact (h i j hd hc).1
    · obtain ⟨i, hd⟩ := (s2 j hj).1 hjo
      exact (h i j hd ((s3 i j hd).2 ▸ hc)).2

theorem bodyRows_spec {err : Option PyErr} :
    ∀ {is : List Insn}, (∀ i ∈ is, i.code < 202) → ∀ rows,
    bodyRows err is = .ok rows ↔ err = none ∧
      is.map (fun i => (getOpnameByCode i.code).map fun n => (i.off, n, i.args)) =
        rows.map Except.ok := by
  intro is
  induction is with
  | nil =>
    intro _ rows
    cases err <;> cases rows <;> simp [bodyRows]
  | cons x xs ih =>
    intro hk rows
    obtain ⟨n, hn⟩ := opname_known (hk x List.mem_cons_self)
    have ih := ih fun i hi => hk i (List.mem_cons_of_mem _ hi)
    rw [bodyRows, hn]
    cases rows with
    | nil =>
      cases hb : bodyRows err xs <;> simp
    | cons row rows =>
      cases hb : bodyRows err xs with
      | error e =>
        have := ih rows
        rw [hb] at this
        simp only [reduceCtorEq, false_iff] at this
        simp only [List.map_cons, hn, List.cons.injEq, reduceCtorEq, false_iff]
        rintro ⟨h1, -, h2⟩
        exact this ⟨h1, h2⟩
      | ok rs =>
        have := ih rows
        rw [hb] at this
        simp only [Except.ok.injEq] at this
        simp only [Except.ok.injEq, List.cons.injEq, List.map_cons, hn]
        rw [this]
        simp only [Except.map, Except.ok.injEq]
        constructor
        · rintro ⟨rfl, h1, h2⟩
          exact ⟨h1, rfl, h2⟩
        · rintro ⟨h1, rfl, h2⟩
          exact ⟨rfl, h1, h2⟩

/-- **C133.** The data of a code body change is, on each side, the offset, mnemonic and operands of
every instruction; it can be made exactly if the code can be disassembled. -/
theorem C133_body (c : CodeInfo) :
    (∀ rows, bodyPretty (some c) = .ok (some rows) ↔ (disassemble c.code).2 = none ∧
      (disassemble c.code).1.map
        (fun i => (getOpnameByCode i.code).map fun n => (i.off, n, i.args)) = rows.map Except.ok) ∧
    ((∃ d, bodyPretty (some c) = .ok d) ↔ (disassemble c.code).2 = none) := by
  have h1 : ∀ rows, bodyPretty (some c) = .ok (some rows) ↔ (disassemble c.code).2 = none ∧
      (disassemble c.code).1.map
        (fun i => (getOpnameByCode i.code).map fun n => (i.off, n, i.args)) =
          rows.map Except.ok := by
    intro rows
    rw [← bodyRows_spec disassemble_known, bodyPretty]
    cases bodyRows (disassemble c.code).2 (disassemble c.code).1 <;> simp [Except.map]
  refine ⟨h1, ?_⟩
  constructor
  · rintro ⟨d, hd⟩
    cases d with
    | none =>
      rw [bodyPretty] at hd
      cases hb : bodyRows (disassemble c.code).2 (disassemble c.code).1 <;>
        simp [hb, Except.map] at hd
    | some rows => exact ((h1 rows).1 hd).1
  · intro hn
    have : ∀ is : List Insn, (∀ i ∈ is, i.code < 202) →
        ∃ rows : List (Nat × Str × Args), is.map
          (fun i => (getOpnameByCode i.code).map fun n => (i.off, n, i.args)) =
            rows.map Except.ok := by
      intro is
      induction is with
      | nil => exact fun _ => ⟨[], rfl⟩
      | cons x xs ih =>
        intro hk
        obtain ⟨rows, hr⟩ := ih fun i hi => hk i (List.mem_cons_of_mem _ hi)
        obtain ⟨n, hn⟩ := opname_known (hk x List.mem_cons_self)
        exact ⟨(x.off, n, x.args) :: rows, by rw [List.map_cons, hn, hr]; rfl⟩
    obtain ⟨rows, hr⟩ := this _ (disassemble_known (bc := c.code))
    exact ⟨_, (h1 rows).2 ⟨hn, hr⟩⟩

/-- **C133**, for valid code: if each constant that is loaded is of a kind that has a text, both
changes can be written as JSON. Missing: method handles, method types, and code that cannot be
disassembled. -/
theorem C133_partial (hfmt : ∀ s, fmt (.str s) = s) (hlp : lp[0]? = some none)
    (hrp : rp[0]? = some none) {is js : List Instr} (hl : l.code = encCode 0 is)
    (hr : r.code = encCode 0 js) (hvi : ∀ i ∈ is, i.Valid) (hvj : ∀ j ∈ js, j.Valid)
    (hli : ∀ k pos op a, LoadsAt is k pos op a → ∃ c v, lp[a]? = some (some c) ∧
      ConstShows fmt repr lp c v)
    (hrj : ∀ k pos op a, LoadsAt js k pos op a → ∃ c v, rp[a]? = some (some c) ∧
      ConstShows fmt repr rp c v)
    (hc : ∃ p, codeConstantsCheck lp rp (lim + 2) (some l) (some r) = .ok p) :
    (∃ d, constantsData fmt repr lp rp (lim + 2) (some l) (some r) = .ok d) ∧
      ∃ d, bodyData (some l) (some r) = .ok d := by
  have dl : (disassemble l.code).2 = none := by rw [hl, C27_disassemble_assemble is hvi]
  have dr : (disassemble r.code).2 = none := by rw [hr, C27_disassemble_assemble js hvj]
  have row : ∀ {pool : Pool} {c : CodeInfo} {is : List Instr}, pool[0]? = some none →
      c.code = encCode 0 is → (∀ i ∈ is, i.Valid) →
      (∀ k pos op a, LoadsAt is k pos op a → ∃ c v, pool[a]? = some (some c) ∧
        ConstShows fmt repr pool c v) →
      ∀ i ∈ (disassemble c.code).1, hasConstArg i.code = .ok true →
        ∃ row, constRow fmt repr pool (lim + 2) i = .ok row := by
    intro pool c is h0 hcode hv hload i hi hconst
    obtain ⟨k, hk⟩ := List.mem_iff_getElem?.1 hi
    obtain ⟨n, hn⟩ := opname_known (disassemble_known i hi)
    rw [hcode, C27_disassemble_assemble is hv, List.getElem?_zipWith_eq_some] at hk
    obtain ⟨p, x, hp, hx, rfl⟩ := hk
    have hxm := List.mem_of_getElem? hx
    obtain ⟨o, os, h1, h2⟩ := C29_const_first _ hconst
    obtain ⟨hx1, hx2, hx3⟩ := C29_const_variable
    have hval := hv x hxm
    cases x with
    | tableswitch d l h js =>
      rw [show Instr.opcode (.tableswitch d l h js) = 0xaa from rfl, hx1] at hconst; simp at hconst
    | lookupswitch d ps =>
      rw [show Instr.opcode (.lookupswitch d ps) = 0xab from rfl, hx2] at hconst; simp at hconst
    | wide op n => rw [show Instr.opcode (.wide op n) = 0xc4 from rfl, hx3] at hconst; simp at hconst
    | wideIinc n v =>
      rw [show Instr.opcode (.wideIinc n v) = 0xc4 from rfl, hx3] at hconst; simp at hconst
    | fixed op args =>
      simp only [Instr.opcode] at h1
      obtain ⟨os', h3, h4, h5⟩ := hval
      rw [h1] at h3
      simp only [Option.some.injEq] at h3
      subst h3
      cases args with
      | nil => simp at h4
      | cons a as =>
        have hop : op ≠ 0x10 := by
          rintro rfl
          have : operands 0x10 = some [.imm1] := by decide
          rw [this] at h1
          simp only [Option.some.injEq, List.cons.injEq] at h1
          rw [← h1.1] at h2
          simp [Operand.isPool] at h2
        have ha : 0 ≤ a := by
          have := h5 (o, a) (by simp)
          revert this h2
          cases o <;> simp [Operand.isPool, Operand.InRange, Operand.signed, URange] <;> omega
        obtain ⟨cc, v, hcc, hshow⟩ := hload k p op a.toNat
          ⟨o, os, as, by rw [hx, Int.toNat_of_nonneg ha], h1, h2, hp⟩
        have := C83_pretty_deref_partial fmt repr hfmt pool h0 lim a.toNat cc v hcc hshow
        refine ⟨(p, n, v), ?_⟩
        have hn' : getOpnameByCode op = .ok n := hn
        simp [constRow, Instr.opcode, hn', reportedArgs, hop, this]
  constructor
  · cases ho : codeConstantsOffsets lp rp (lim + 2) (some l) (some r) with
    | error e =>
      obtain ⟨p, hp⟩ := hc
      simp only [codeConstantsOffsets] at ho
      simp only [codeConstantsCheck] at hp
      split at ho
      · simp at ho
      · rename_i hlen
        rw [if_neg hlen, ho] at hp
        simp at hp
    | ok offsets =>
      match offsets, ho with
      | none, ho => exact ⟨(none, none), by simp [constantsData, ho, constantsPretty, sideData]⟩
      | some [], ho => exact ⟨(none, none), by simp [constantsData, ho, constantsPretty, sideData]⟩
      | some (o :: os), ho =>
        refine (C133_constants ho (by simp)).2 ⟨dl, dr, fun i j hd hcon => ?_⟩
        have hcode := ((offsets_sides ho).2.2 i j hd).2
        exact ⟨row hlp hl hvi hli i hd.mem.1 hcon, row hrp hr hvj hrj j hd.mem.2 (hcode ▸ hcon)⟩
  · obtain ⟨a, ha⟩ := (C133_body l).2.2 dl
    obtain ⟨b, hb⟩ := (C133_body r).2.2 dr
    exact ⟨(a, b), by simp [bodyData, sideData, ha, hb]⟩
end

/-- **C133** fails: `ldc` of a method type. -/
theorem C133_full_fails : ¬ C133_full := by
  intro h
  obtain ⟨⟨d, hd⟩, -⟩ := h (fun _ => []) (fun _ => [])
    [none, some (.methodType 2), some (.utf8 "()V".toList)]
    [none, some (.methodType 2), some (.utf8 "()I".toList)] 5 ldcCode ldcCode
    ⟨(true, none), by decide +kernel⟩ ⟨(false, none), by decide +kernel⟩
  revert hd
  have : constantsData (fun _ => []) (fun _ => [])
    [none, some (.methodType 2), some (.utf8 "()V".toList)]
    [none, some (.methodType 2), some (.utf8 "()I".toList)] 5 (some ldcCode) (some ldcCode) =
      .error .typeError := by decide +kernel
  rw [this]
  simp

/-- Also for code that goes wrong after the first difference: checked, but no data. -/
example : codeBodyCheck (some ⟨1, 1, [0, 0xff], [], []⟩) (some ⟨1, 1, [1, 0], [], []⟩) =
      .ok (true, none) ∧
    bodyData (some ⟨1, 1, [0, 0xff], [], []⟩) (some ⟨1, 1, [1, 0], [], []⟩) = .error .keyError := by
  decide +kernel

example : bodyData (some (codeOf [.fixed 0x10 [1], .fixed 0xac []])) (some (codeOf [.fixed 0xb1 []])) =
    .ok (some [(0, "bipush".toList, .ints [1]), (2, "ireturn".toList, .ints [])],
      some [(0, "return".toList, .ints [])]) := by
  decide +kernel

end Javatools
