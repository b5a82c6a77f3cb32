import Verif.Model.Opcodes
import Verif.Spec.Opcodes
import Verif.Props.Pack
/-
Lemmas about the opcode table and the operand unpackers.
-/
namespace Javatools
open Spec

/-- The struct code that reads an operand as the JVM does. -/
def Operand.code : Operand → FmtCode
  | .local1 => .B | .pool1 => .B | .byte => .B | .imm1 => .b
  | .pool2 => .H | .imm2 => .h | .branch2 => .h | .branch4 => .i

theorem Operand.code_size (o : Operand) : (Operand.code o).size = o.width := by cases o <;> rfl

theorem Operand.code_range (o : Operand) (v : Int) (h : o.InRange v) :
    Javatools.InRange (Operand.code o) v := by
  cases o <;> simpa [Operand.InRange, Operand.signed, Operand.width, Operand.code,
    Javatools.InRange] using h

/-- The format the table gives to a fixed-format opcode: the JVM's, except bipush. -/
def tableFmt (op : Nat) (os : List Operand) : ArgFmt :=
  if os = [] then .none else if op = 0x10 then .struct [.B] else .struct (os.map Operand.code)

/-! ### looking up in the table -/

theorem get?_val (ds : List OpDef) (n : Nat) :
    PyDict.get? (ds.flatMap fun d => [(OpKey.name d.name, d), (OpKey.val d.val, d)]) (.val n) =
      ds.find? (fun d => decide (d.val = n)) := by
  induction ds with
  | nil => rfl
  | cons d ds ih =>
    simp only [List.flatMap_cons, List.cons_append, List.nil_append, PyDict.get?, reduceCtorEq,
      if_false, OpKey.val.injEq, List.find?_cons, ih]
    split <;> simp_all

theorem get?_name (ds : List OpDef) (n : Str) :
    PyDict.get? (ds.flatMap fun d => [(OpKey.name d.name, d), (OpKey.val d.val, d)]) (.name n) =
      ds.find? (fun d => decide (d.name = n)) := by
  induction ds with
  | nil => rfl
  | cons d ds ih =>
    simp only [List.flatMap_cons, List.cons_append, List.nil_append, PyDict.get?, reduceCtorEq,
      if_false, OpKey.name.injEq, List.find?_cons, ih]
    split <;> simp_all

theorem find?_nodup {κ : Type} [DecidableEq κ] (f : OpDef → κ) (ds : List OpDef)
    (hn : (ds.map f).Nodup) (d : OpDef) (hd : d ∈ ds) :
    ds.find? (fun e => decide (f e = f d)) = some d := by
  induction ds with
  | nil => simp at hd
  | cons e ds ih =>
    simp only [List.map_cons, List.nodup_cons] at hn
    rcases List.mem_cons.1 hd with rfl | hd
    · simp
    · have hne : f e ≠ f d := by
        intro h
        exact hn.1 (h ▸ List.mem_map_of_mem hd)
      simp [List.find?_cons, hne, ih hn.2 hd]

/-- Membership by `Nat.beq`, quick in the kernel. -/
def memB (n : Nat) : List Nat → Bool
  | [] => false
  | m :: l => match Nat.beq n m with
    | true => true
    | false => memB n l

def nodupB : List Nat → Bool
  | [] => true
  | n :: l => match memB n l with
    | true => false
    | false => nodupB l

theorem memB_of_mem {n : Nat} {l : List Nat} (h : n ∈ l) : memB n l = true := by
  induction l with
  | nil => simp at h
  | cons m l ih =>
    unfold memB
    split
    · rfl
    · rename_i hb
      rcases List.mem_cons.1 h with rfl | h
      · simp at hb
      · exact ih h

theorem nodup_of_nodupB {l : List Nat} (h : nodupB l = true) : l.Nodup := by
  induction l with
  | nil => exact List.nodup_nil
  | cons n l ih =>
    unfold nodupB at h
    split at h
    · simp at h
    · rename_i hm
      refine List.nodup_cons.2 ⟨fun hmem => ?_, ih h⟩
      rw [memB_of_mem hmem] at hm
      simp at hm

/-- A number for a name, to compare names quickly. -/
def nameKey (s : Str) : Nat := s.foldl (fun a c => a * 256 + c.toNat) 0

theorem nodup_of_map {α : Type} (f : α → Nat) {l : List α} (h : (l.map f).Nodup) : l.Nodup := by
  induction l with
  | nil => exact List.nodup_nil
  | cons x l ih =>
    simp only [List.map_cons, List.nodup_cons] at h
    exact List.nodup_cons.2 ⟨fun hm => h.1 (List.mem_map_of_mem hm), ih h.2⟩

theorem vals_nodup : (opDefs.map OpDef.val).Nodup :=
  nodup_of_nodupB (by decide +kernel)

theorem names_nodup : (opDefs.map OpDef.name).Nodup :=
  nodup_of_map nameKey (nodup_of_nodupB (by decide +kernel))

theorem vals_lt : ∀ d ∈ opDefs, d.val < 202 := by decide +kernel

theorem vals_all : ∀ c < 202, memB c (opDefs.map OpDef.val) = true := by
  decide +kernel

theorem mem_of_memB {n : Nat} {l : List Nat} (h : memB n l = true) : n ∈ l := by
  induction l with
  | nil => simp [memB] at h
  | cons m l ih =>
    unfold memB at h
    split at h
    · rename_i hb
      simp [Nat.eq_of_beq_eq_true hb]
    · exact List.mem_cons_of_mem _ (ih h)

theorem opLookup_val_iff {n : Nat} {d : OpDef} :
    opLookup (.val n) = .ok d ↔ d ∈ opDefs ∧ d.val = n := by
  unfold opLookup opTable
  rw [get?_val]
  constructor
  · intro h
    split at h
    · rename_i d' hf
      simp only [Except.ok.injEq] at h
      subst h
      exact ⟨List.mem_of_find?_eq_some hf, by simpa using List.find?_some hf⟩
    · simp at h
  · rintro ⟨hd, rfl⟩
    rw [find?_nodup OpDef.val opDefs vals_nodup d hd]

theorem opLookup_name_iff {n : Str} {d : OpDef} :
    opLookup (.name n) = .ok d ↔ d ∈ opDefs ∧ d.name = n := by
  unfold opLookup opTable
  rw [get?_name]
  constructor
  · intro h
    split at h
    · rename_i d' hf
      simp only [Except.ok.injEq] at h
      subst h
      exact ⟨List.mem_of_find?_eq_some hf, by simpa using List.find?_some hf⟩
    · simp at h
  · rintro ⟨hd, rfl⟩
    rw [find?_nodup OpDef.name opDefs names_nodup d hd]

theorem opLookup_error {k : OpKey} {e : PyErr} (h : opLookup k = .error e) : e = .keyError := by
  unfold opLookup at h
  split at h
  · simp at h
  · simpa using h.symm

/-- The definition of an opcode. -/
theorem opDef_exists {n : Nat} (h : n < 202) : ∃ d, opLookup (.val n) = .ok d := by
  obtain ⟨d, hd, rfl⟩ := List.mem_map.1 (mem_of_memB (vals_all n h))
  exact ⟨d, opLookup_val_iff.2 ⟨hd, rfl⟩⟩

/-- A property of one column of the table, checked on the definitions, holds of lookups. -/
theorem column {α : Type} {f : OpDef → α} {n : Nat} {a : α}
    (h : (opLookup (.val n)).map f = .ok a) : ∃ d ∈ opDefs, d.val = n ∧ f d = a := by
  cases hl : opLookup (.val n) with
  | error e => rw [hl] at h; simp [Except.map] at h
  | ok d =>
    rw [hl] at h
    simp only [Except.map, Except.ok.injEq] at h
    obtain ⟨h1, h2⟩ := opLookup_val_iff.1 hl
    exact ⟨d, h1, h2, h⟩

theorem column_of_mem {α : Type} (f : OpDef → α) {d : OpDef} (hd : d ∈ opDefs) :
    (opLookup (.val d.val)).map f = .ok (f d) := by
  rw [opLookup_val_iff.2 ⟨hd, rfl⟩]; rfl

theorem fixed_table : ∀ op : Fin 202, ∀ os, operands op = some os →
    getArgFormat op = .ok (tableFmt op os) := by
  have htab : ∀ d ∈ opDefs,
      ((operands d.val).all fun os => decide (d.fmt = tableFmt d.val os)) = true := by
    decide +kernel
  intro op os h
  obtain ⟨d, hd⟩ := opDef_exists op.2
  obtain ⟨h1, h2⟩ := opLookup_val_iff.1 hd
  have := htab d h1
  rw [h2, h] at this
  simp only [Option.all_some, decide_eq_true_eq] at this
  unfold getArgFormat
  rw [hd, ← this]
  rfl

theorem operands_lt {op : Nat} {os : List Operand} (h : operands op = some os) : op < 202 := by
  by_cases h1 : 201 < op
  · rw [operands, if_pos h1] at h; exact absurd h (by simp)
  · omega

theorem getArgFormat_fixed {op : Nat} {os : List Operand} (h : operands op = some os) :
    getArgFormat op = .ok (tableFmt op os) ∧ op < 202 :=
  ⟨fixed_table ⟨op, operands_lt h⟩ os h, operands_lt h⟩

theorem getArgFormat_cases {op : Nat} {f : ArgFmt} (h : getArgFormat op = .ok f) :
    (∃ os, operands op = some os ∧ f = tableFmt op os) ∨
    (op = 0xaa ∧ f = .tableswitch) ∨ (op = 0xab ∧ f = .lookupswitch) ∨ (op = 0xc4 ∧ f = .wide) := by
  obtain ⟨d, hd, rfl, rfl⟩ := column h
  have htab : ∀ d ∈ opDefs, operands d.val = none →
        (d.val = 0xaa ∧ d.fmt = .tableswitch) ∨
        (d.val = 0xab ∧ d.fmt = .lookupswitch) ∨
        (d.val = 0xc4 ∧ d.fmt = .wide) := by decide +kernel
  cases ho : operands d.val with
  | some os =>
    left
    have h2 := (getArgFormat_fixed ho).1
    rw [h] at h2
    exact ⟨os, rfl, Except.ok.inj h2⟩
  | none => exact Or.inr (htab d hd ho)

theorem switch_formats : getArgFormat 0xaa = .ok .tableswitch ∧
    getArgFormat 0xab = .ok .lookupswitch ∧ getArgFormat 0xc4 = .ok .wide := by
  have h : ∀ n f, (∃ d ∈ opDefs, d.val = n ∧ d.fmt = f) → getArgFormat n = .ok f := by
    rintro n f ⟨d, hd, rfl, rfl⟩
    exact column_of_mem OpDef.fmt hd
  refine ⟨h _ _ ?_, h _ _ ?_, h _ _ ?_⟩ <;> decide +kernel

/-! ### encodings -/

theorem encArgs_eq_fields (os : List Operand) (vs : List Int) :
    encArgs os vs = encFields ((os.map Operand.code).zip vs) := by
  induction os generalizing vs with
  | nil => cases vs <;> rfl
  | cons o os ih =>
    cases vs with
    | nil => rfl
    | cons v vs => simp [encArgs, encFields, ih, Operand.code_size]

theorem encFields_length (fs : List (FmtCode × Int)) :
    (encFields fs).length = fmtSize (fs.map Prod.fst) := by
  induction fs with
  | nil => rfl
  | cons f fs ih => obtain ⟨c, v⟩ := f; simp [encFields, ih, fmtSize, beInt_length]

theorem opUnpack_enc (pre post : Bytes) (fs : List (FmtCode × Int))
    (h : ∀ f ∈ fs, InRange f.1 f.2) :
    opUnpack (fs.map Prod.fst) (pre ++ (encFields fs ++ post)) pre.length =
      .ok (fs.map Prod.snd, pre.length + (encFields fs).length) := by
  unfold opUnpack
  rw [← encFields_length, if_neg (by simp)]
  simp only [List.drop_left, List.take_left, C04_decode_encode fs h]

theorem opUnpackMany_enc {β : Type} (cs : List FmtCode) (vals : β → List Int) (xs : List β)
    (hl : ∀ x ∈ xs, (vals x).length = cs.length)
    (h : ∀ x ∈ xs, ∀ f ∈ cs.zip (vals x), InRange f.1 f.2) (pre post : Bytes) :
    opUnpackMany cs (pre ++ (xs.flatMap (fun x => encFields (cs.zip (vals x))) ++ post))
      xs.length pre.length =
      .ok (xs.map vals, pre.length + (xs.flatMap (fun x => encFields (cs.zip (vals x)))).length) := by
  induction xs generalizing pre with
  | nil => simp [opUnpackMany]
  | cons x xs ih =>
    simp only [List.length_cons, opUnpackMany, List.flatMap_cons, List.append_assoc]
    have h1 := opUnpack_enc pre (xs.flatMap (fun x => encFields (cs.zip (vals x))) ++ post)
      (cs.zip (vals x)) (h x (by simp))
    have e1 : (cs.zip (vals x)).map Prod.fst = cs := by
      rw [List.map_fst_zip]; rw [hl x (by simp)]; exact Nat.le_refl _
    have e2 : (cs.zip (vals x)).map Prod.snd = vals x := by
      rw [List.map_snd_zip]; rw [hl x (by simp)]; exact Nat.le_refl _
    rw [e1, e2] at h1
    simp only [h1]
    have h2 := ih (fun y hy => hl y (by simp [hy])) (fun y hy => h y (by simp [hy]))
      (pre ++ encFields (cs.zip (vals x)))
    simp only [List.length_append, List.append_assoc] at h2
    rw [h2]
    simp [Nat.add_assoc]

theorem opAlign_succ (pos : Nat) : opAlign (pos + 1) = pos + 1 + switchPad pos := by
  unfold opAlign switchPad
  simp only
  split <;> omega

theorem inRange_i {v : Int} (h : SRange 4 v) : InRange .i v := h

/-- Operands as `disassemble` reports them: the JVM's values, except that a bipush operand is
read unsigned. -/
def reportedArgs : Instr → Args
  | .fixed op args => .ints (if op = 0x10 then args.map (· % 256) else args)
  | .tableswitch d l h js => .table d l h js
  | .lookupswitch d ps => .lookup d ps
  | .wide op i => .ints [op, i]
  | .wideIinc i v => .ints [0x84, i, v]

theorem enc_cons (i : Instr) (pos : Nat) (hv : i.Valid) :
    ∃ body, i.enc pos = UInt8.ofNat i.opcode :: body ∧ i.opcode < 202 := by
  cases i with
  | fixed op args =>
    obtain ⟨os, ho, _⟩ := hv
    exact ⟨_, rfl, (getArgFormat_fixed ho).2⟩
  | tableswitch d l h js => exact ⟨_, rfl, by show (170 : Nat) < 202; decide⟩
  | lookupswitch d ps => exact ⟨_, rfl, by show (171 : Nat) < 202; decide⟩
  | wide op i => exact ⟨_, rfl, by show (196 : Nat) < 202; decide⟩
  | wideIinc i v => exact ⟨_, rfl, by show (196 : Nat) < 202; decide⟩

theorem beInt_emod (v : Int) : beInt 1 (v % 256) = beInt 1 v := by
  unfold beInt; simp

theorem beInt_nat (w n : Nat) (h : n < 256 ^ w) : beInt w n = be w n := by
  unfold beInt; rw [Int.emod_eq_of_lt (by omega) (by omega)]; simp

theorem be_one (n : Nat) (h : n < 256) : be 1 n = [UInt8.ofNat n] := by
  simp [be, Nat.mod_eq_of_lt h]

/-- The step of `disassemble`. -/
theorem unpackArgs_enc (i : Instr) (hv : i.Valid) (pre post body : Bytes)
    (hb : i.enc pre.length = UInt8.ofNat i.opcode :: body) :
    ∃ fmt, getArgFormat i.opcode = .ok fmt ∧
      unpackArgs fmt (pre ++ UInt8.ofNat i.opcode :: (body ++ post)) (pre.length + 1) =
        .ok (reportedArgs i, pre.length + 1 + body.length) := by
  have hpre : ∀ x : UInt8, ∀ l, pre ++ x :: l = (pre ++ [x]) ++ l := by simp
  have hplen : ∀ x : UInt8, (pre ++ [x]).length = pre.length + 1 := by simp
  cases i with
  | fixed op args =>
    obtain ⟨os, ho, hlen, hr⟩ := hv
    obtain ⟨hf, hlt⟩ := getArgFormat_fixed ho
    refine ⟨_, hf, ?_⟩
    simp only [Instr.enc, Instr.opcode, ho, Option.getD_some, List.cons.injEq, true_and] at hb
    subst hb
    simp only [Instr.opcode, reportedArgs]
    rw [hpre, ← hplen (UInt8.ofNat op)]
    unfold tableFmt
    by_cases hos : os = []
    · subst hos
      have : args = [] := List.length_eq_zero_iff.1 (by simpa using hlen.symm)
      subst this
      simp [unpackArgs, encArgs]
    · rw [if_neg hos]
      by_cases hbi : op = 0x10
      · subst hbi
        have ho' : os = [.imm1] := by
          have : operands 0x10 = some [.imm1] := by decide
          rw [this] at ho; exact (Option.some.inj ho).symm
        subst ho'
        match args, hlen with
        | [v], _ =>
          have h1 := opUnpack_enc (pre ++ [UInt8.ofNat 0x10]) post [(.B, v % 256)] (by
            intro f hf
            simp only [List.mem_singleton] at hf
            subst hf
            exact ⟨Int.emod_nonneg _ (by decide), Int.emod_lt_of_pos _ (by decide)⟩)
          simp only [List.map_cons, List.map_nil, encFields, List.append_nil, FmtCode.size,
            beInt_emod] at h1
          simp only [if_true, unpackArgs, encArgs, Operand.width, List.append_nil, h1, List.map_cons,
            List.map_nil]
      · rw [if_neg hbi]
        have e1 : ((os.map Operand.code).zip args).map Prod.fst = os.map Operand.code := by
          rw [List.map_fst_zip]; simp [hlen]
        have e2 : ((os.map Operand.code).zip args).map Prod.snd = args := by
          rw [List.map_snd_zip]; simp [hlen]
        have h1 := opUnpack_enc (pre ++ [UInt8.ofNat op]) post ((os.map Operand.code).zip args) (by
          intro f hf
          rw [List.zip_map_left] at hf
          obtain ⟨p, hp, rfl⟩ := List.mem_map.1 hf
          exact Operand.code_range _ _ (hr p hp))
        rw [e1, e2, ← encArgs_eq_fields] at h1
        simp only [unpackArgs, h1, if_neg hbi]
  | tableswitch d l h js =>
    obtain ⟨hd, hl, hh, hlh, hlen, hj⟩ := hv
    refine ⟨.tableswitch, switch_formats.1, ?_⟩
    simp only [Instr.enc, Instr.opcode] at hb
    have hb' := (List.cons.inj hb).2
    subst hb'
    simp only [Instr.opcode, unpackArgs, unpackTableswitch, reportedArgs, opAlign_succ]
    generalize hx : UInt8.ofNat 0xaa = x
    generalize hz : List.replicate (switchPad pre.length) (0 : UInt8) = z
    have hzl : z.length = switchPad pre.length := by rw [← hz]; simp
    have e : pre ++ x :: (z ++ (beInt 4 d ++ beInt 4 l ++ beInt 4 h ++ js.flatMap (beInt 4)) ++ post)
        = (pre ++ [x] ++ z) ++ (encFields [(.i, d), (.i, l), (.i, h)] ++
          (js.flatMap (beInt 4) ++ post)) := by
      simp [encFields, FmtCode.size]
    have el : pre.length + 1 + switchPad pre.length = (pre ++ [x] ++ z).length := by
      simp [hzl]; omega
    have hq : (pre ++ [x] ++ z).length = pre.length + 1 + z.length := by simp; omega
    rw [e, el]
    generalize pre ++ [x] ++ z = q at hq
    have h1 := opUnpack_enc q (js.flatMap (beInt 4) ++ post)
      [(.i, d), (.i, l), (.i, h)] (by simp [InRange, hd, hl, hh])
    simp only [List.map_cons, List.map_nil] at h1
    rw [h1]
    simp only [List.getD_eq_getElem?_getD, List.length_cons, List.getElem?_cons_zero,
      List.getElem?_cons_succ, Option.getD_some]
    have hn : (h - l + 1).toNat = js.length := by omega
    rw [hn]
    have h2 := opUnpackMany_enc [.i] (fun j : Int => [j]) js (by simp) (by
      intro x hx f hf
      simp only [List.zip_cons_cons, List.zip_nil_right, List.mem_singleton] at hf
      subst hf
      exact hj x hx) (q ++ encFields [(.i, d), (.i, l), (.i, h)]) post
    have e3 : (fun j : Int => encFields ([FmtCode.i].zip [j])) = beInt 4 := by
      funext j; simp [encFields, FmtCode.size]
    rw [e3] at h2
    simp only [List.append_assoc, List.length_append] at h2 ⊢
    simp only [h2]
    simp [beInt_length, encFields, FmtCode.size, Function.comp_def, Nat.add_assoc]
    omega
  | lookupswitch d ps =>
    obtain ⟨hd, hl, hj⟩ := hv
    refine ⟨.lookupswitch, switch_formats.2.1, ?_⟩
    simp only [Instr.enc, Instr.opcode] at hb
    have hb' := (List.cons.inj hb).2
    subst hb'
    simp only [Instr.opcode, unpackArgs, unpackLookupswitch, reportedArgs, opAlign_succ]
    generalize hx : UInt8.ofNat 0xab = x
    generalize hz : List.replicate (switchPad pre.length) (0 : UInt8) = z
    have hzl : z.length = switchPad pre.length := by rw [← hz]; simp
    generalize hg : (fun p : Int × Int => beInt 4 p.1 ++ beInt 4 p.2) = g
    have e : pre ++ x :: (z ++ (beInt 4 d ++ beInt 4 ps.length ++ ps.flatMap g) ++ post)
        = (pre ++ [x] ++ z) ++ (encFields [(.i, d), (.i, ps.length)] ++
          (ps.flatMap g ++ post)) := by
      simp [encFields, FmtCode.size]
    have el : pre.length + 1 + switchPad pre.length = (pre ++ [x] ++ z).length := by
      simp [hzl]; omega
    have hq : (pre ++ [x] ++ z).length = pre.length + 1 + z.length := by simp; omega
    rw [e, el]
    generalize pre ++ [x] ++ z = q at hq
    have h1 := opUnpack_enc q (ps.flatMap g ++ post)
      [(.i, d), (.i, ps.length)] (by simp [InRange, hd, hl])
    simp only [List.map_cons, List.map_nil] at h1
    rw [h1]
    simp only [List.getD_eq_getElem?_getD, List.length_cons, List.getElem?_cons_zero,
      List.getElem?_cons_succ, Option.getD_some, Int.toNat_natCast]
    have h2 := opUnpackMany_enc [.i, .i] (fun p : Int × Int => [p.1, p.2]) ps (by simp) (by
      intro x hx f hf
      simp only [List.zip_cons_cons, List.zip_nil_right, List.mem_cons, List.not_mem_nil,
        or_false] at hf
      rcases hf with rfl | rfl
      · exact (hj x hx).1
      · exact (hj x hx).2) (q ++ encFields [(.i, d), (.i, ps.length)]) post
    have e3 : (fun p : Int × Int => encFields ([FmtCode.i, .i].zip [p.1, p.2])) = g := by
      funext j; rw [← hg]; simp [encFields, FmtCode.size]
    rw [e3] at h2
    simp only [List.append_assoc, List.length_append] at h2 ⊢
    simp only [h2]
    simp [beInt_length, encFields, FmtCode.size, Function.comp_def, asPair, Nat.add_assoc]
    omega
  | wide op i =>
    obtain ⟨hw, hi⟩ := hv
    refine ⟨.wide, switch_formats.2.2, ?_⟩
    simp only [Instr.enc, Instr.opcode, List.cons_append, List.nil_append] at hb
    have hb' := (List.cons.inj hb).2
    subst hb'
    have hop : op < 256 := by unfold WideOp at hw; omega
    have hmem : op ∈ wideOps := by
      unfold WideOp at hw
      have : ∀ o : Fin 256, ((0x15 ≤ o.val ∧ o.val ≤ 0x19) ∨ (0x36 ≤ o.val ∧ o.val ≤ 0x3a) ∨ o.val = 0xa9) →
        o.val ∈ wideOps := by decide +kernel
      exact this ⟨op, hop⟩ hw
    have hne : op ≠ 0x84 := by unfold WideOp at hw; omega
    simp only [Instr.opcode, unpackArgs, unpackWide, reportedArgs]
    rw [hpre, ← hplen (UInt8.ofNat 0xc4)]
    generalize pre ++ [UInt8.ofNat 196] = q
    have hget : (q ++ (UInt8.ofNat op :: be 2 i ++ post))[q.length]? = some (UInt8.ofNat op) := by
      simp
    rw [hget]
    have hto : (UInt8.ofNat op).toNat = op := by simp; omega
    simp only [hto, hne, if_false, hmem, if_true]
    have h1 := opUnpack_enc q post [(.B, (op : Int)), (.H, (i : Int))] (by
      simp [InRange, URange]; omega)
    have e1 : encFields [(.B, (op : Int)), (.H, (i : Int))] = UInt8.ofNat op :: be 2 i := by
      simp only [encFields, FmtCode.size, List.append_nil]
      rw [beInt_nat 1 op (by omega), beInt_nat 2 i (by omega), be_one op hop]; rfl
    rw [e1] at h1
    simp only [List.map_cons, List.map_nil] at h1
    rw [h1]
  | wideIinc i v =>
    obtain ⟨hi, hvr⟩ := hv
    refine ⟨.wide, switch_formats.2.2, ?_⟩
    simp only [Instr.enc, Instr.opcode, List.cons_append, List.nil_append] at hb
    have hb' := (List.cons.inj hb).2
    subst hb'
    simp only [Instr.opcode, unpackArgs, unpackWide, reportedArgs]
    rw [hpre, ← hplen (UInt8.ofNat 0xc4)]
    generalize pre ++ [UInt8.ofNat 196] = q
    have hget : (q ++ ((0x84 : UInt8) :: (be 2 i ++ beInt 2 v) ++ post))[q.length]? =
        some (0x84 : UInt8) := by
      simp
    rw [hget]
    have hto : (0x84 : UInt8).toNat = 0x84 := rfl
    simp only [hto, if_true]
    have h1 := opUnpack_enc q post [(.B, 0x84), (.H, (i : Int)), (.h, v)] (by
      simp only [List.mem_cons, List.not_mem_nil, or_false]
      rintro f (rfl | rfl | rfl)
      · exact ⟨by decide, by decide⟩
      · exact ⟨by simp, by simp; omega⟩
      · exact hvr)
    have e1 : encFields [(.B, 0x84), (.H, (i : Int)), (.h, v)] =
        (0x84 : UInt8) :: (be 2 i ++ beInt 2 v) := by
      simp only [encFields, FmtCode.size, List.append_nil]
      rw [beInt_nat 2 i (by omega)]; rfl
    rw [e1] at h1
    simp only [List.map_cons, List.map_nil] at h1
    rw [h1]

end Javatools
