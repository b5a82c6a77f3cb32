import Verif.Proofs.Opcodes
/-
C29: the opcode table.
-/
namespace Javatools
open Spec

/-! ## C29 -/

/-- What is assumed of `str.lower`: on ASCII strings it lowers ASCII letters. -/
def IsStrLower (lower : Str → Str) : Prop :=
  ∀ s : Str, (∀ c ∈ s, c.val < 128) → lower s = s.map Char.toLower

theorem names_ascii : ∀ d ∈ opDefs, ∀ c ∈ d.name, c.val < 128 := by decide +kernel

theorem names_lower : ∀ d ∈ opDefs, d.name.map Char.toLower = d.name := by decide +kernel

theorem lower_name {lower : Str → Str} (hl : IsStrLower lower) {d : OpDef} (hd : d ∈ opDefs) :
    lower d.name = d.name := by
  rw [hl _ (names_ascii d hd), names_lower d hd]

theorem set_new (t : OpTable) (k : OpKey) (d : OpDef) (h : t.get? k = none) :
    t.set k d = t ++ [(k, d)] := by
  induction t with
  | nil => rfl
  | cons p t ih =>
    obtain ⟨k', d'⟩ := p
    by_cases hk : k' = k
    · simp [PyDict.get?, hk] at h
    · simp only [PyDict.get?, hk, if_false] at h
      simp [PyDict.set, hk, ih h]

theorem get?_append_none (t u : OpTable) (k : OpKey) (h1 : t.get? k = none) (h2 : u.get? k = none) :
    PyDict.get? (t ++ u) k = none := by
  induction t with
  | nil => exact h2
  | cons p t ih =>
    obtain ⟨k', d'⟩ := p
    by_cases hk : k' = k
    · simp [PyDict.get?, hk] at h1
    · simp only [PyDict.get?, hk, if_false] at h1
      simp only [List.cons_append, PyDict.get?, hk, if_false]
      exact ih h1

/-- C29: importing the module registers every op without hitting the duplicate assertions, and
leaves the table used below. -/
theorem C29_registers (lower : Str → Str) (hl : IsStrLower lower) :
    opRegisterAll lower [] opDefs = .ok opTable := by
  have key : ∀ (ds : List OpDef) (t : OpTable), (∀ d ∈ ds, d ∈ opDefs) →
      (ds.map OpDef.val).Nodup → (ds.map OpDef.name).Nodup →
      (∀ d ∈ ds, t.get? (.name d.name) = none ∧ t.get? (.val d.val) = none) →
      opRegisterAll lower t ds =
        .ok (t ++ ds.flatMap fun d => [(.name d.name, d), (.val d.val, d)]) := by
    intro ds
    induction ds with
    | nil => intro t _ _ _ _; simp [opRegisterAll]
    | cons d ds ih =>
      intro t hm hv hn ht
      obtain ⟨h1, h2⟩ := ht d (by simp)
      simp only [List.map_cons, List.nodup_cons] at hv hn
      have hlow := lower_name hl (hm d (by simp))
      have hval2 : PyDict.get? (t ++ [(OpKey.name d.name, d)]) (.val d.val) = none :=
        get?_append_none _ _ _ h2 (by simp [PyDict.get?])
      have hreg : opRegister lower t d =
          .ok (t ++ [(.name d.name, d)] ++ [(.val d.val, d)]) := by
        unfold opRegister
        simp only [hlow, h1, h2, Option.isSome_none, Bool.false_eq_true, if_false]
        rw [set_new _ _ _ h1, set_new _ _ _ hval2]
      simp only [opRegisterAll, hreg]
      rw [ih _ (fun e he => hm e (by simp [he])) hv.2 hn.2 ?_]
      · simp
      · intro e he
        obtain ⟨g1, g2⟩ := ht e (by simp [he])
        have hne1 : d.name ≠ e.name := fun h => hn.1 (h ▸ List.mem_map_of_mem he)
        have hne2 : d.val ≠ e.val := fun h => hv.1 (h ▸ List.mem_map_of_mem he)
        constructor
        · exact get?_append_none _ _ _ (get?_append_none _ _ _ g1 (by simp [PyDict.get?, hne1]))
            (by simp [PyDict.get?])
        · exact get?_append_none _ _ _ (get?_append_none _ _ _ g2 (by simp [PyDict.get?]))
            (by simp [PyDict.get?, hne2])
  have := key opDefs [] (fun _ h => h) vals_nodup names_nodup (fun _ _ => ⟨rfl, rfl⟩)
  simpa [opTable] using this

/-- C29: the opcodes are 0..201, nothing else. -/
theorem C29_opcodes (c : Nat) : (∃ n, getOpnameByCode c = .ok n) ↔ c < 202 := by
  constructor
  · rintro ⟨n, h⟩
    obtain ⟨d, hd, rfl, _⟩ := column h
    exact vals_lt d hd
  · intro h
    obtain ⟨d, hd⟩ := opDef_exists h
    exact ⟨d.name, by unfold getOpnameByCode; rw [hd]; rfl⟩

/-- C29: a number that is not an opcode raises KeyError. -/
theorem C29_unknown (c : Nat) (h : 202 ≤ c) : getOpnameByCode c = .error .keyError := by
  cases hn : getOpnameByCode c with
  | ok n => have := (C29_opcodes c).1 ⟨n, hn⟩; omega
  | error e =>
    unfold getOpnameByCode at hn
    cases hl : opLookup (.val c) with
    | ok d => rw [hl] at hn; simp [Except.map] at hn
    | error e' =>
      rw [hl] at hn
      simp only [Except.map, Except.error.injEq] at hn
      rw [← hn, opLookup_error hl]

/-- C29: the name of a code looks the code up again. -/
theorem C29_code_of_name (lower : Str → Str) (hl : IsStrLower lower) (c : Nat) (n : Str)
    (h : getOpnameByCode c = .ok n) : getOpcodeByName lower n = .ok c := by
  obtain ⟨d, hd, rfl, rfl⟩ := column h
  unfold getOpcodeByName
  rw [lower_name hl hd, opLookup_name_iff.2 ⟨hd, rfl⟩]
  rfl

/-- C29: and the code found for a name has that name (in lower case). -/
theorem C29_name_of_code (lower : Str → Str) (n : Str) (c : Nat)
    (h : getOpcodeByName lower n = .ok c) : getOpnameByCode c = .ok (lower n) := by
  unfold getOpcodeByName at h
  cases ho : opLookup (.name (lower n)) with
  | error e => rw [ho] at h; simp [Except.map] at h
  | ok d =>
    rw [ho] at h
    simp only [Except.map, Except.ok.injEq] at h
    subst h
    obtain ⟨hd, hn⟩ := opLookup_name_iff.1 ho
    rw [← hn]
    exact column_of_mem OpDef.name hd

/-- C29: names and values determine each other. -/
theorem C29_names_distinct (c d : Nat) (n : Str) (hc : getOpnameByCode c = .ok n)
    (hd : getOpnameByCode d = .ok n) : c = d := by
  have hl : IsStrLower asciiLower := fun _ _ => rfl
  have h1 := C29_code_of_name asciiLower hl c n hc
  rw [C29_code_of_name asciiLower hl d n hd] at h1
  exact (Except.ok.inj h1).symm

/-- C29: lookup ignores case: any spelling of an op name whose ASCII lower case is the name. -/
theorem C29_ignores_case (lower : Str → Str) (hl : IsStrLower lower) (c : Nat) (n s : Str)
    (h : getOpnameByCode c = .ok n) (hs : ∀ x ∈ s, x.val < 128) (hn : s.map Char.toLower = n) :
    getOpcodeByName lower s = .ok c := by
  have h1 := C29_code_of_name lower hl c n h
  have h2 := C29_name_of_code lower n c h1
  rw [h] at h2
  unfold getOpcodeByName at h1 ⊢
  rw [← Except.ok.inj h2] at h1
  rw [hl s hs, hn]
  exact h1

/-- C29 on the constant-pool flag, as stated. It fails for multianewarray. -/
def C29_const_full : Prop := ∀ op os, operands op = some os →
  (hasConstArg op = .ok true ↔ ∃ o ∈ os, o.isPool = true)

theorem C29_const_multianewarray : hasConstArg 0xc5 = .ok false := by
  have h : ∃ d ∈ opDefs, d.val = 0xc5 ∧ d.const = false := by decide +kernel
  obtain ⟨d, hd, h1, h2⟩ := h
  have := column_of_mem OpDef.const hd
  rwa [h1, h2] at this

theorem C29_const_full_fails : ¬ C29_const_full := by
  intro h
  have := (h 0xc5 [.pool2, .byte] (by decide)).2 ⟨.pool2, by simp, rfl⟩
  rw [C29_const_multianewarray] at this
  simp at this

/-- C29, the flag: right for every opcode but multianewarray, where it is missing. -/
theorem C29_const_partial (op : Nat) (os : List Operand) (h : operands op = some os)
    (hne : op ≠ 0xc5) : hasConstArg op = .ok (os.any Operand.isPool) := by
  have htab : ∀ d ∈ opDefs, d.val ≠ 0xc5 →
      ((operands d.val).all fun os => decide (d.const = os.any Operand.isPool)) = true := by
    decide +kernel
  obtain ⟨d, hd⟩ := opDef_exists (operands_lt h)
  obtain ⟨h1, rfl⟩ := opLookup_val_iff.1 hd
  have := htab d h1 hne
  rw [h] at this
  simp only [Option.all_some, decide_eq_true_eq] at this
  rw [← this]
  exact column_of_mem OpDef.const h1

/-- C29, the flag of the three variable-format opcodes: not set. -/
theorem C29_const_variable : hasConstArg 0xaa = .ok false ∧ hasConstArg 0xab = .ok false ∧
    hasConstArg 0xc4 = .ok false := by
  have h : ∀ n, (∃ d ∈ opDefs, d.val = n ∧ d.const = false) → hasConstArg n = .ok false := by
    rintro n ⟨d, hd, rfl, h2⟩
    have := column_of_mem OpDef.const hd
    rwa [h2] at this
  refine ⟨h _ ?_, h _ ?_, h _ ?_⟩ <;> decide +kernel

/-- C29: the flagged operand is the first one, the one the pretty printer dereferences. -/
theorem C29_const_first (op : Nat) (h : hasConstArg op = .ok true) :
    ∃ o os, operands op = some (o :: os) ∧ o.isPool = true := by
  obtain ⟨d, hd, rfl, hc⟩ := column h
  have htab : ∀ d ∈ opDefs, d.const = true →
      (((operands d.val).getD []).head?.any Operand.isPool) = true := by decide +kernel
  have := htab d hd hc
  match ho : operands d.val with
  | none => rw [ho] at this; simp at this
  | some [] => rw [ho] at this; simp at this
  | some (p :: ps) => rw [ho] at this; exact ⟨p, ps, rfl, by simpa using this⟩

/-- C29: the names are the JVM's mnemonics, except "monitorentry" for monitorenter. -/
theorem C29_mnemonics (op : Nat) (h : op < 202) :
    getOpnameByCode op = .ok (if op = 0xc2 then "monitorentry".toList
      else (mnemonics.getD op "").toList) := by
  have htab : ∀ d ∈ opDefs, d.name = (if d.val = 0xc2 then "monitorentry".toList
      else (mnemonics.getD d.val "").toList) := by decide +kernel
  obtain ⟨d, hd⟩ := opDef_exists h
  obtain ⟨h1, rfl⟩ := opLookup_val_iff.1 hd
  rw [← htab d h1]
  exact column_of_mem OpDef.name h1

example : getOpcodeByName asciiLower "ANewArray".toList = .ok 0xbd ∧
    getOpnameByCode 0xbd = .ok "anewarray".toList ∧ hasConstArg 0xbd = .ok true ∧
    hasConstArg 0xbe = .ok false := by decide +kernel

end Javatools
