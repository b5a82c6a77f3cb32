import Verif.Proofs.Opcodes
/-
C27, C28, C30: the disassembler.
-/
namespace Javatools
open Spec

/-! ## C27 -/

/-- What the JVM says an instruction at `pos` is, in the shape `disassemble` yields. -/
def jvmArgs : Instr → Args
  | .fixed _ args => .ints args
  | .tableswitch d l h js => .table d l h js
  | .lookupswitch d ps => .lookup d ps
  | .wide op i => .ints [op, i]
  | .wideIinc i v => .ints [0x84, i, v]

/-- C27 as stated. It fails for bipush. -/
def C27_full : Prop := ∀ is : List Instr, (∀ i ∈ is, i.Valid) →
  disassemble (encCode 0 is) =
    (List.zipWith (fun p i => ⟨p, i.opcode, jvmArgs i⟩) (positions 0 is) is, none)

theorem C27_full_fails : ¬ C27_full := by
  intro h
  have := h [.fixed 0x10 [-1]] (by
    intro i hi
    simp only [List.mem_singleton] at hi
    subst hi
    refine ⟨[.imm1], by decide, rfl, ?_⟩
    intro p hp
    simp only [List.zip_cons_cons, List.zip_nil_right, List.mem_singleton] at hp
    subst hp
    exact ⟨by decide, by decide⟩)
  revert this
  decide +kernel

theorem disasmLoop_enc (is : List Instr) (hv : ∀ i ∈ is, i.Valid) (pre : Bytes) (fuel : Nat)
    (hf : is.length ≤ fuel) :
    disasmLoop fuel (pre ++ encCode pre.length is) pre.length =
      (List.zipWith (fun p i => ⟨p, i.opcode, reportedArgs i⟩) (positions pre.length is) is,
        none) := by
  induction is generalizing pre fuel with
  | nil => unfold disasmLoop; simp [encCode, positions]
  | cons i is ih =>
    obtain ⟨body, hb, hlt⟩ := enc_cons i pre.length (hv i (by simp))
    obtain ⟨fmt, hfmt, hargs⟩ := unpackArgs_enc i (hv i (by simp)) pre
      (encCode (pre.length + (i.enc pre.length).length) is) body hb
    match fuel, hf with
    | fuel + 1, hf =>
      have hlen : (i.enc pre.length).length = body.length + 1 := by rw [hb]; simp
      have e : pre ++ encCode pre.length (i :: is) = pre ++ UInt8.ofNat i.opcode ::
          (body ++ encCode (pre.length + (i.enc pre.length).length) is) := by
        simp only [encCode]; rw [hb]; simp
      have e2 : pre ++ UInt8.ofNat i.opcode ::
          (body ++ encCode (pre.length + (i.enc pre.length).length) is) =
          (pre ++ i.enc pre.length) ++ encCode (pre ++ i.enc pre.length).length is := by
        rw [List.length_append, hb]; simp
      have hget : (pre ++ encCode pre.length (i :: is))[pre.length]? =
          some (UInt8.ofNat i.opcode) := by rw [e]; simp
      have hto : (UInt8.ofNat i.opcode).toNat = i.opcode := by simp; omega
      have hoff : pre.length + 1 + body.length = (pre ++ i.enc pre.length).length := by
        rw [List.length_append, hlen]; omega
      unfold disasmLoop
      rw [hget]
      simp only [hto, hfmt]
      rw [e, hargs]
      simp only
      rw [e2, hoff, ih (fun j hj => hv j (by simp [hj])) _ fuel (by simpa using hf)]
      simp [positions]

theorem encCode_length (is : List Instr) (hv : ∀ i ∈ is, i.Valid) (pos : Nat) :
    is.length ≤ (encCode pos is).length := by
  induction is generalizing pos with
  | nil => simp
  | cons i is ih =>
    obtain ⟨body, hb, _⟩ := enc_cons i pos (hv i (by simp))
    have := ih (fun j hj => hv j (by simp [hj])) (pos + (i.enc pos).length)
    simp only [encCode, List.length_append, List.length_cons]
    rw [hb] at this ⊢
    simp only [List.length_cons] at this ⊢
    omega

/-- C27, what holds of every instruction sequence: the same instructions, at their positions,
with their operands, a bipush operand being reduced modulo 256. -/
theorem C27_disassemble_assemble (is : List Instr) (hv : ∀ i ∈ is, i.Valid) :
    disassemble (encCode 0 is) =
      (List.zipWith (fun p i => ⟨p, i.opcode, reportedArgs i⟩) (positions 0 is) is, none) := by
  have := disasmLoop_enc is hv [] (encCode 0 is).length (encCode_length is hv 0)
  simpa [disassemble] using this

/-- C27 for every sequence without a negative bipush. -/
theorem C27_disassemble_assemble_partial (is : List Instr) (hv : ∀ i ∈ is, i.Valid)
    (hb : ∀ v, .fixed 0x10 [v] ∈ is → 0 ≤ v) :
    disassemble (encCode 0 is) =
      (List.zipWith (fun p i => ⟨p, i.opcode, jvmArgs i⟩) (positions 0 is) is, none) := by
  rw [C27_disassemble_assemble is hv]
  have key : ∀ i ∈ is, reportedArgs i = jvmArgs i := by
    intro i hi
    cases i with
    | fixed op args =>
      simp only [reportedArgs, jvmArgs]
      by_cases hop : op = 0x10
      · subst hop
        obtain ⟨os, ho, hlen, hr⟩ := hv _ hi
        have ho' : os = [.imm1] := by
          have : operands 0x10 = some [.imm1] := by decide
          rw [this] at ho; exact (Option.some.inj ho).symm
        subst ho'
        match args, hlen with
        | [v], _ =>
          have h0 := hb v hi
          have h1 : SRange 1 v := hr (.imm1, v) (by simp)
          have h2 : v < 256 := by have := h1.2; simp at this; omega
          simp [Int.emod_eq_of_lt h0 h2]
      · simp [hop]
    | _ => rfl
  congr 1
  have hz : ∀ (ps : List Nat) (l : List Instr), (∀ i ∈ l, reportedArgs i = jvmArgs i) →
      List.zipWith (fun p i => (⟨p, Instr.opcode i, reportedArgs i⟩ : Insn)) ps l =
      List.zipWith (fun p i => ⟨p, i.opcode, jvmArgs i⟩) ps l := by
    intro ps l
    induction l generalizing ps with
    | nil => intro _; simp
    | cons i l ih =>
      intro h
      cases ps with
      | nil => simp
      | cons p ps =>
        simp only [List.zipWith_cons_cons]
        rw [h i (by simp), ih ps (fun j hj => h j (by simp [hj]))]
  exact hz _ _ key

/-- A method with a switch after one byte (two padding bytes), a wide iinc, a lookupswitch and
a backward branch. -/
def demoCode : List Instr := [.fixed 0x1a [], .tableswitch 100 (-1) 1 [10, 20, -30],
  .wideIinc 300 (-5), .lookupswitch 8 [(-7, 9), (5, 6)], .wide 0x15 400, .fixed 0x84 [3, -1],
  .fixed 0xb9 [5, 2, 0], .fixed 0xa7 [-20], .fixed 0xb1 []]

example : disassemble (encCode 0 demoCode) =
    (List.zipWith (fun p i => ⟨p, i.opcode, jvmArgs i⟩) (positions 0 demoCode) demoCode, none) := by
  decide +kernel

/-! ## C28 -/

/-- The bytes `bs`, standing at the position of `i`, are the instruction `i`: the opcode byte,
then exactly its operands in their JVM widths and order. Padding bytes of switches are free,
and a switch lists as many entries as its header announces (none for a negative number). -/
def IsEncodingOf (bs : Bytes) (i : Insn) : Prop :=
  (∃ os vs, operands i.code = some os ∧ i.args = .ints vs ∧ vs.length = os.length ∧
    bs = UInt8.ofNat i.code :: encArgs os vs) ∨
  (i.code = 0xaa ∧ ∃ pad d l h js, pad.length = switchPad i.off ∧ i.args = .table d l h js ∧
    js.length = (h - l + 1).toNat ∧
    bs = 0xaa :: (pad ++ (beInt 4 d ++ beInt 4 l ++ beInt 4 h ++ js.flatMap (beInt 4)))) ∨
  (i.code = 0xab ∧ ∃ pad d n ps, pad.length = switchPad i.off ∧ i.args = .lookup d ps ∧
    SRange 4 n ∧ ps.length = n.toNat ∧
    bs = 0xab :: (pad ++ (beInt 4 d ++ beInt 4 n ++ ps.flatMap fun p => beInt 4 p.1 ++ beInt 4 p.2))) ∨
  (i.code = 0xc4 ∧ ∃ op idx : Nat, WideOp op ∧ idx < 65536 ∧ i.args = .ints [op, idx] ∧
    bs = [0xc4, UInt8.ofNat op] ++ be 2 idx) ∨
  (i.code = 0xc4 ∧ ∃ (idx : Nat) (v : Int), idx < 65536 ∧ SRange 2 v ∧
    i.args = .ints [0x84, idx, v] ∧ bs = [0xc4, 0x84] ++ be 2 idx ++ beInt 2 v)

/-- `bs`, standing at `pos`, is exactly the instructions `is` one after the other. -/
inductive Tiles : Nat → List Insn → Bytes → Prop
  | nil (pos : Nat) : Tiles pos [] []
  | cons {pos : Nat} {i : Insn} {is : List Insn} {b r : Bytes} (ho : i.off = pos)
      (he : IsEncodingOf b i) (ht : Tiles (pos + b.length) is r) : Tiles pos (i :: is) (b ++ r)

theorem IsEncodingOf.ne_nil {bs : Bytes} {i : Insn} (h : IsEncodingOf bs i) : bs ≠ [] := by
  rcases h with ⟨os, vs, _, _, _, h⟩ | ⟨_, p, d, l, hh, js, _, _, _, h⟩ | ⟨_, p, d, n, ps, _, _, _, _, h⟩ |
    ⟨_, op, idx, _, _, _, h⟩ | ⟨_, idx, v, _, _, _, h⟩ <;> subst h <;> simp

/-- The bytes of `bc` from `a` to `b`. -/
def slice (bc : Bytes) (a b : Nat) : Bytes := (bc.drop a).take (b - a)

theorem slice_length (bc : Bytes) (a b : Nat) (h : b ≤ bc.length) : (slice bc a b).length = b - a := by
  simp [slice]; omega

theorem slice_append (bc : Bytes) (a b c : Nat) (h1 : a ≤ b) (h2 : b ≤ c) :
    slice bc a c = slice bc a b ++ slice bc b c := by
  unfold slice
  have : c - a = (b - a) + (c - b) := by omega
  rw [this, List.take_add, List.drop_drop]
  congr 3
  omega

theorem opUnpack_inv {cs : List FmtCode} {bc : Bytes} {off o : Nat} {vs : List Int}
    (h : opUnpack cs bc off = .ok (vs, o)) :
    o = off + fmtSize cs ∧ o ≤ bc.length ∧ vs.length = cs.length ∧
    slice bc off o = encFields (cs.zip vs) ∧ ∀ f ∈ cs.zip vs, InRange f.1 f.2 := by
  unfold opUnpack at h
  split at h
  · simp at h
  · rename_i hl
    simp only [Except.ok.injEq, Prod.mk.injEq] at h
    obtain ⟨h1, h2⟩ := h
    have hlen : ((bc.drop off).take (fmtSize cs)).length = fmtSize cs := by simp; omega
    obtain ⟨i1, i2, i3⟩ := C04_encode_decode cs _ hlen
    subst h1 h2
    refine ⟨rfl, by omega, i2, ?_, i3⟩
    rw [i1, slice]
    congr 1
    omega

theorem opUnpackMany_inv {cs : List FmtCode} {bc : Bytes} (n : Nat) {off o : Nat}
    {xs : List (List Int)} (h : opUnpackMany cs bc n off = .ok (xs, o)) (hoff : off ≤ bc.length) :
    off ≤ o ∧ o ≤ bc.length ∧ xs.length = n ∧
    slice bc off o = xs.flatMap (fun x => encFields (cs.zip x)) ∧
    ∀ x ∈ xs, x.length = cs.length ∧ ∀ f ∈ cs.zip x, InRange f.1 f.2 := by
  induction n generalizing off xs with
  | zero =>
    simp only [opUnpackMany, Except.ok.injEq, Prod.mk.injEq] at h
    obtain ⟨rfl, rfl⟩ := h
    simp [slice, hoff]
  | succ n ih =>
    simp only [opUnpackMany] at h
    cases h1 : opUnpack cs bc off with
    | error e => rw [h1] at h; simp at h
    | ok r =>
      obtain ⟨x, o1⟩ := r
      rw [h1] at h
      simp only at h
      cases h2 : opUnpackMany cs bc n o1 with
      | error e => rw [h2] at h; simp at h
      | ok r2 =>
        obtain ⟨ys, o2⟩ := r2
        rw [h2] at h
        simp only [Except.ok.injEq, Prod.mk.injEq] at h
        obtain ⟨rfl, rfl⟩ := h
        obtain ⟨a1, a2, a3, a4, a5⟩ := opUnpack_inv h1
        obtain ⟨b1, b2, b3, b4, b5⟩ := ih h2 a2
        refine ⟨by omega, b2, by simp [b3], ?_, ?_⟩
        · rw [slice_append bc off o1 o2 (by omega) b1, a4, b4]; simp
        · intro z hz
          rcases List.mem_cons.1 hz with rfl | hz
          · exact ⟨a3, a5⟩
          · exact b5 z hz

theorem slice_one {bc : Bytes} {pos : Nat} {b : UInt8} (h : bc[pos]? = some b) :
    slice bc pos (pos + 1) = [b] := by
  have hlt : pos < bc.length := by
    rcases Nat.lt_or_ge pos bc.length with h' | h'
    · exact h'
    · rw [List.getElem?_eq_none h'] at h; simp at h
  have hb : bc[pos] = b := by
    rw [List.getElem?_eq_getElem hlt] at h; exact Option.some.inj h
  unfold slice
  rw [List.drop_eq_getElem_cons hlt, hb]
  simp

theorem flatMap_congr_mem {α β : Type} (l : List α) (f g : α → List β) (h : ∀ x ∈ l, f x = g x) :
    l.flatMap f = l.flatMap g := by
  induction l with
  | nil => rfl
  | cons x l ih => simp [h x (by simp), ih (fun y hy => h y (by simp [hy]))]

theorem two_of_length {α : Type} {l : List α} (h : l.length = 2) : ∃ a b, l = [a, b] := by
  match l, h with | [a, b], _ => exact ⟨a, b, rfl⟩

theorem three_of_length {α : Type} {l : List α} (h : l.length = 3) : ∃ a b c, l = [a, b, c] := by
  match l, h with | [a, b, c], _ => exact ⟨a, b, c, rfl⟩

theorem urange_cast {v : Int} {w : Nat} (h : URange w v) : ∃ n : Nat, v = n ∧ n < 256 ^ w := by
  obtain ⟨h0, h1⟩ := h
  exact ⟨v.toNat, by omega, by omega⟩

theorem unpackArgs_inv {bc : Bytes} {pos : Nat} {b : UInt8} {fmt : ArgFmt} {args : Args} {o : Nat}
    (hb : bc[pos]? = some b) (hf : getArgFormat b.toNat = .ok fmt)
    (h : unpackArgs fmt bc (pos + 1) = .ok (args, o)) :
    pos + 1 ≤ o ∧ o ≤ bc.length ∧ IsEncodingOf (slice bc pos o) ⟨pos, b.toNat, args⟩ := by
  have hlt : pos < bc.length := by
    rcases Nat.lt_or_ge pos bc.length with h' | h'
    · exact h'
    · rw [List.getElem?_eq_none h'] at hb; simp at hb
  have h1 := slice_one hb
  have hbo : UInt8.ofNat b.toNat = b := by simp
  rcases getArgFormat_cases hf with ⟨os, hos, rfl⟩ | ⟨hop, rfl⟩ | ⟨hop, rfl⟩ | ⟨hop, rfl⟩
  · -- fixed format
    have key : ∀ cs, unpackArgs (.struct cs) bc (pos + 1) = .ok (args, o) →
        cs.map FmtCode.size = os.map Operand.width →
        pos + 1 ≤ o ∧ o ≤ bc.length ∧ IsEncodingOf (slice bc pos o) ⟨pos, b.toNat, args⟩ := by
      intro cs h hcs
      simp only [unpackArgs] at h
      cases hu : opUnpack cs bc (pos + 1) with
      | error e => rw [hu] at h; simp at h
      | ok r =>
        obtain ⟨vs, o'⟩ := r
        rw [hu] at h
        simp only [Except.ok.injEq, Prod.mk.injEq] at h
        obtain ⟨rfl, rfl⟩ := h
        obtain ⟨a1, a2, a3, a4, _⟩ := opUnpack_inv hu
        have hl : cs.length = os.length := by
          have := congrArg List.length hcs; simpa using this
        refine ⟨by omega, a2, Or.inl ⟨os, vs, hos, rfl, by omega, ?_⟩⟩
        rw [slice_append bc pos (pos + 1) o' (by omega) (by omega), h1, a4, hbo]
        have : ∀ (cs : List FmtCode) (os : List Operand) (vs : List Int),
            cs.map FmtCode.size = os.map Operand.width →
            encFields (cs.zip vs) = encArgs os vs := by
          intro cs
          induction cs with
          | nil => intro os vs h; cases os with
            | nil => rfl
            | cons o os => simp at h
          | cons c cs ih => intro os vs h; cases os with
            | nil => simp at h
            | cons o os =>
              simp only [List.map_cons, List.cons.injEq] at h
              cases vs with
              | nil => rfl
              | cons v vs => simp [encFields, encArgs, h.1, ih os vs h.2]
        rw [this cs os vs hcs]; rfl
    unfold tableFmt at h
    split at h
    · rename_i h0
      subst h0
      simp only [unpackArgs, Except.ok.injEq, Prod.mk.injEq] at h
      obtain ⟨rfl, rfl⟩ := h
      refine ⟨by omega, by omega, Or.inl ⟨[], [], hos, rfl, rfl, ?_⟩⟩
      rw [h1, hbo]; rfl
    · split at h
      · rename_i h10
        have ho' : os = [.imm1] := by
          have : operands 0x10 = some [.imm1] := by decide
          rw [h10, this] at hos; exact (Option.some.inj hos).symm
        exact key _ h (by rw [ho']; rfl)
      · refine key _ h ?_
        simp [Operand.code_size, Function.comp_def]
  · -- tableswitch
    simp only [unpackArgs, unpackTableswitch, opAlign_succ] at h
    cases hu : opUnpack [.i, .i, .i] bc (pos + 1 + switchPad pos) with
    | error e => rw [hu] at h; simp at h
    | ok r =>
      obtain ⟨hd, o1⟩ := r
      rw [hu] at h
      simp only at h
      obtain ⟨a1, a2, a3, a4, a5⟩ := opUnpack_inv hu
      obtain ⟨d, l, hh, rfl⟩ := three_of_length a3
      cases hm : opUnpackMany [.i] bc (hh - l + 1).toNat o1 with
      | error e => simp only [List.getD_cons_zero, List.getD_cons_succ] at h; rw [hm] at h; simp at h
      | ok r2 =>
        obtain ⟨js, o2⟩ := r2
        simp only [List.getD_cons_zero, List.getD_cons_succ] at h
        rw [hm] at h
        simp only [Except.ok.injEq, Prod.mk.injEq] at h
        obtain ⟨rfl, rfl⟩ := h
        obtain ⟨b1, b2, b3, b4, b5⟩ := opUnpackMany_inv _ hm a2
        refine ⟨by omega, b2, Or.inr (Or.inl ⟨hop, slice bc (pos + 1) (pos + 1 + switchPad pos), d, l, hh,
          _, ?_, rfl, by simp [b3], ?_⟩)⟩
        · rw [slice_length _ _ _ (by omega)]; simp
        · have e1 : slice bc pos o2 = slice bc pos (pos+1) ++ (slice bc (pos+1) (pos + 1 + switchPad pos) ++
              (slice bc (pos + 1 + switchPad pos) o1 ++ slice bc o1 o2)) := by
            rw [← slice_append bc _ o1 o2 (by omega) b1,
              ← slice_append bc (pos+1) _ o2 (by omega) (by omega),
              ← slice_append bc pos _ o2 (by omega) (by omega)]
          have e2 : (js.map fun j => j.getD 0 0).flatMap (beInt 4) =
              js.flatMap (fun x => encFields ([FmtCode.i].zip x)) := by
            rw [List.flatMap_map]
            apply flatMap_congr_mem
            intro x hx
            match x, (b5 x hx).1 with
            | [v], _ => simp [encFields, FmtCode.size]
          rw [e1, h1, a4, b4, e2]
          have : b = 0xaa := by
            have := congrArg UInt8.ofNat hop; rw [hbo] at this; exact this
          simp [encFields, FmtCode.size, this]
  · -- lookupswitch
    simp only [unpackArgs, unpackLookupswitch, opAlign_succ] at h
    cases hu : opUnpack [.i, .i] bc (pos + 1 + switchPad pos) with
    | error e => rw [hu] at h; simp at h
    | ok r =>
      obtain ⟨hd, o1⟩ := r
      rw [hu] at h
      simp only at h
      obtain ⟨a1, a2, a3, a4, a5⟩ := opUnpack_inv hu
      obtain ⟨d, n, rfl⟩ := two_of_length a3
      cases hm : opUnpackMany [.i, .i] bc n.toNat o1 with
      | error e => simp only [List.getD_cons_zero, List.getD_cons_succ] at h; rw [hm] at h; simp at h
      | ok r2 =>
        obtain ⟨ps, o2⟩ := r2
        simp only [List.getD_cons_zero, List.getD_cons_succ] at h
        rw [hm] at h
        simp only [Except.ok.injEq, Prod.mk.injEq] at h
        obtain ⟨rfl, rfl⟩ := h
        obtain ⟨b1, b2, b3, b4, b5⟩ := opUnpackMany_inv _ hm a2
        have hn : SRange 4 n := a5 (.i, n) (by simp)
        refine ⟨by omega, b2, Or.inr (Or.inr (Or.inl ⟨hop, slice bc (pos + 1) (pos + 1 + switchPad pos), d, n,
          _, ?_, rfl, hn, by simp [b3], ?_⟩))⟩
        · rw [slice_length _ _ _ (by omega)]; simp
        · have e1 : slice bc pos o2 = slice bc pos (pos+1) ++ (slice bc (pos+1) (pos + 1 + switchPad pos) ++
              (slice bc (pos + 1 + switchPad pos) o1 ++ slice bc o1 o2)) := by
            rw [← slice_append bc _ o1 o2 (by omega) b1,
              ← slice_append bc (pos+1) _ o2 (by omega) (by omega),
              ← slice_append bc pos _ o2 (by omega) (by omega)]
          have e2 : (ps.map asPair).flatMap (fun p => beInt 4 p.1 ++ beInt 4 p.2) =
              ps.flatMap (fun x => encFields ([FmtCode.i, .i].zip x)) := by
            rw [List.flatMap_map]
            apply flatMap_congr_mem
            intro x hx
            obtain ⟨u, v, rfl⟩ := two_of_length (b5 x hx).1
            simp [encFields, FmtCode.size, asPair]
          rw [e1, h1, a4, b4, e2]
          have : b = 0xab := by
            have := congrArg UInt8.ofNat hop; rw [hbo] at this; exact this
          simp [encFields, FmtCode.size, this]
  · -- wide
    have hbv : b = 0xc4 := by
      have := congrArg UInt8.ofNat hop; rw [hbo] at this; exact this
    simp only [unpackArgs, unpackWide] at h
    cases hc : bc[pos + 1]? with
    | none => rw [hc] at h; simp at h
    | some c =>
      rw [hc] at h
      simp only at h
      have hco : UInt8.ofNat c.toNat = c := by simp
      have hs1 := slice_one hc
      split at h
      · rename_i hci
        cases hu : opUnpack [.B, .H, .h] bc (pos + 1) with
        | error e => rw [hu] at h; simp at h
        | ok r =>
          obtain ⟨vs, o1⟩ := r
          rw [hu] at h
          simp only [Except.ok.injEq, Prod.mk.injEq] at h
          obtain ⟨rfl, rfl⟩ := h
          obtain ⟨a1, a2, a3, a4, a5⟩ := opUnpack_inv hu
          obtain ⟨u, i, v, rfl⟩ := three_of_length a3
          obtain ⟨un, rfl, hu1⟩ := urange_cast (w := 1) (v := u) (a5 (.B, u) (by simp))
          obtain ⟨idx, rfl, hi1⟩ := urange_cast (w := 2) (v := i) (a5 (.H, i) (by simp))
          have hv : SRange 2 v := a5 (.h, v) (by simp)
          have hsz : o1 = pos + 6 := by rw [a1]; rfl
          have e0 : slice bc (pos + 1) o1 = slice bc (pos + 1) (pos + 1 + 1) ++ slice bc (pos + 1 + 1) o1 :=
            slice_append _ _ _ _ (by omega) (by omega)
          rw [a4, hs1] at e0
          simp only [encFields, FmtCode.size, List.zip_cons_cons, List.zip_nil_right] at e0
          rw [beInt_nat 1 un hu1, be_one un (by omega)] at e0
          simp only [List.cons_append, List.nil_append, List.cons.injEq] at e0
          have hun : un = 0x84 := by
            have := congrArg UInt8.toNat e0.1
            rw [hci] at this
            simp at this
            omega
          subst hun
          refine ⟨by omega, a2, Or.inr (Or.inr (Or.inr (Or.inr ⟨hop, idx, v, by omega, hv, rfl, ?_⟩)))⟩
          rw [slice_append bc pos (pos + 1) o1 (by omega) (by omega), h1, a4, hbv]
          simp only [encFields, FmtCode.size, List.zip_cons_cons, List.zip_nil_right, List.append_nil]
          rw [beInt_nat 2 idx hi1]
          rfl
      · split at h
        · rename_i hne hmem
          cases hu : opUnpack [.B, .H] bc (pos + 1) with
          | error e => rw [hu] at h; simp at h
          | ok r =>
            obtain ⟨vs, o1⟩ := r
            rw [hu] at h
            simp only [Except.ok.injEq, Prod.mk.injEq] at h
            obtain ⟨rfl, rfl⟩ := h
            obtain ⟨a1, a2, a3, a4, a5⟩ := opUnpack_inv hu
            obtain ⟨u, i, rfl⟩ := two_of_length a3
            obtain ⟨un, rfl, hu1⟩ := urange_cast (w := 1) (v := u) (a5 (.B, u) (by simp))
            obtain ⟨idx, rfl, hi1⟩ := urange_cast (w := 2) (v := i) (a5 (.H, i) (by simp))
            have hsz : o1 = pos + 4 := by rw [a1]; rfl
            have e0 : slice bc (pos + 1) o1 = slice bc (pos + 1) (pos + 1 + 1) ++ slice bc (pos + 1 + 1) o1 :=
              slice_append _ _ _ _ (by omega) (by omega)
            rw [a4, hs1] at e0
            simp only [encFields, FmtCode.size, List.zip_cons_cons, List.zip_nil_right] at e0
            rw [beInt_nat 1 un hu1, be_one un (by omega)] at e0
            simp only [List.cons_append, List.nil_append, List.cons.injEq] at e0
            have hun : un = c.toNat := by
              have := congrArg UInt8.toNat e0.1
              simp at this
              omega
            have hwide : WideOp un := by
              rw [hun]
              simp only [wideOps, List.mem_cons, List.not_mem_nil, or_false] at hmem
              unfold WideOp
              omega
            refine ⟨by omega, a2, Or.inr (Or.inr (Or.inr (Or.inl ⟨hop, un, idx, hwide, by omega, rfl, ?_⟩)))⟩
            rw [slice_append bc pos (pos + 1) o1 (by omega) (by omega), h1, a4, hbv]
            simp only [encFields, FmtCode.size, List.zip_cons_cons, List.zip_nil_right, List.append_nil]
            rw [beInt_nat 2 idx hi1, beInt_nat 1 un hu1, be_one un (by omega)]
            rfl
        · simp at h

/-- The exceptions `disassemble` can end with: unknown opcode, not enough bytes for the
operands, no byte after `wide`, and an opcode `wide` cannot modify. -/
def DisasmErr (e : PyErr) : Prop :=
  e = .keyError ∨ e = .structError ∨ e = .typeError ∨ e = .assertionError

theorem disasmErr_of {bc : Bytes} {b : UInt8} {fmt : ArgFmt} {off : Nat} :
    (∀ e, getArgFormat b.toNat = .error e → e = .keyError) ∧
    (∀ e, unpackArgs fmt bc off = .error e → DisasmErr e) := by
  have hu : ∀ cs o e, opUnpack cs bc o = .error e → e = .structError := by
    intro cs o e h
    unfold opUnpack at h
    split at h
    · simpa using h.symm
    · simp at h
  have hm : ∀ cs n o e, opUnpackMany cs bc n o = .error e → e = .structError := by
    intro cs n
    induction n with
    | zero => intro o e h; simp [opUnpackMany] at h
    | succ n ih =>
      intro o e h
      simp only [opUnpackMany] at h
      split at h
      · rename_i e' he; simp at h; subst h; exact hu _ _ _ he
      · split at h
        · rename_i e' he; simp at h; subst h; exact ih _ _ he
        · simp at h
  constructor
  · intro e h
    unfold getArgFormat opLookup at h
    split at h
    · simp [Except.map] at h
    · simpa [Except.map] using h.symm
  · intro e h
    unfold DisasmErr
    cases fmt with
    | none => simp [unpackArgs] at h
    | struct cs =>
      simp only [unpackArgs] at h
      split at h
      · rename_i e' he; simp at h; subst h; simp [hu _ _ _ he]
      · simp at h
    | lookupswitch =>
      simp only [unpackArgs, unpackLookupswitch] at h
      split at h
      · rename_i e' he; simp at h; subst h; simp [hu _ _ _ he]
      · split at h
        · rename_i e' he; simp at h; subst h; simp [hm _ _ _ _ he]
        · simp at h
    | tableswitch =>
      simp only [unpackArgs, unpackTableswitch] at h
      split at h
      · rename_i e' he; simp at h; subst h; simp [hu _ _ _ he]
      · split at h
        · rename_i e' he; simp at h; subst h; simp [hm _ _ _ _ he]
        · simp at h
    | wide =>
      simp only [unpackArgs, unpackWide] at h
      split at h
      · simp at h; simp [← h]
      · split at h
        · split at h
          · rename_i e' he; simp at h; subst h; simp [hu _ _ _ he]
          · simp at h
        · split at h
          · split at h
            · rename_i e' he; simp at h; subst h; simp [hu _ _ _ he]
            · simp at h
          · simp at h; simp [← h]

theorem disasmLoop_tiles (fuel : Nat) (bc : Bytes) (pos : Nat) (is : List Insn)
    (err : Option PyErr) (hp : pos ≤ bc.length) (hfuel : bc.length ≤ pos + fuel)
    (h : disasmLoop fuel bc pos = (is, err)) :
    ∃ e, pos ≤ e ∧ e ≤ bc.length ∧ Tiles pos is (slice bc pos e) ∧
      (err = none → e = bc.length) ∧ (∀ x, err = some x → e < bc.length ∧ DisasmErr x) := by
  induction fuel generalizing pos is err with
  | zero =>
    have : pos = bc.length := by omega
    subst this
    unfold disasmLoop at h
    simp only [List.getElem?_eq_none (Nat.le_refl _)] at h
    simp only [Prod.mk.injEq] at h
    obtain ⟨rfl, rfl⟩ := h
    refine ⟨bc.length, Nat.le_refl _, Nat.le_refl _, ?_, fun _ => rfl, by simp⟩
    simp only [slice, Nat.sub_self, List.take_zero]
    exact Tiles.nil _
  | succ fuel ih =>
    unfold disasmLoop at h
    cases hb : bc[pos]? with
    | none =>
      rw [hb] at h
      simp only [Prod.mk.injEq] at h
      obtain ⟨rfl, rfl⟩ := h
      have : pos = bc.length := by
        have := List.getElem?_eq_none_iff.1 hb; omega
      subst this
      refine ⟨bc.length, Nat.le_refl _, Nat.le_refl _, ?_, fun _ => rfl, by simp⟩
      simp only [slice, Nat.sub_self, List.take_zero]
      exact Tiles.nil _
    | some b =>
      have hlt : pos < bc.length := by
        rcases Nat.lt_or_ge pos bc.length with h' | h'
        · exact h'
        · rw [List.getElem?_eq_none h'] at hb; simp at hb
      rw [hb] at h
      simp only at h
      have hnil : Tiles pos [] (slice bc pos pos) := by
        simp only [slice, Nat.sub_self, List.take_zero]
        exact Tiles.nil _
      cases hf : getArgFormat b.toNat with
      | error e =>
        rw [hf] at h
        simp only [Prod.mk.injEq] at h
        obtain ⟨rfl, rfl⟩ := h
        refine ⟨pos, Nat.le_refl _, by omega, hnil, by simp, ?_⟩
        intro x hx
        simp at hx
        subst hx
        exact ⟨hlt, Or.inl ((disasmErr_of (bc := bc) (fmt := .none) (off := 0)).1 _ hf)⟩
      | ok fmt =>
        rw [hf] at h
        simp only at h
        cases ha : unpackArgs fmt bc (pos + 1) with
        | error e =>
          rw [ha] at h
          simp only [Prod.mk.injEq] at h
          obtain ⟨rfl, rfl⟩ := h
          refine ⟨pos, Nat.le_refl _, by omega, hnil, by simp, ?_⟩
          intro x hx
          simp at hx
          subst hx
          exact ⟨hlt, (disasmErr_of (b := b)).2 _ ha⟩
        | ok r =>
          obtain ⟨args, o⟩ := r
          rw [ha] at h
          simp only at h
          obtain ⟨c1, c2, c3⟩ := unpackArgs_inv hb hf ha
          cases hd : disasmLoop fuel bc o with
          | mk rest err' =>
            rw [hd] at h
            simp only [Prod.mk.injEq] at h
            obtain ⟨rfl, rfl⟩ := h
            obtain ⟨e, d1, d2, d3, d4, d5⟩ := ih o rest err' c2 (by omega) hd
            refine ⟨e, by omega, d2, ?_, d4, d5⟩
            rw [slice_append bc pos o e (by omega) d1]
            refine Tiles.cons rfl c3 ?_
            rw [slice_length _ _ _ c2]
            have : pos + (o - pos) = o := by omega
            rw [this]
            exact d3

/-- C28: on any byte string the loop ends; it either covers the whole string with instructions
one after the other, or covers a proper prefix and raises one of four exceptions. -/
theorem C28_covers_or_raises (bc : Bytes) :
    (∃ is, disassemble bc = (is, none) ∧ Tiles 0 is bc) ∨
    (∃ is e done rest, disassemble bc = (is, some e) ∧ DisasmErr e ∧ bc = done ++ rest ∧
      rest ≠ [] ∧ Tiles 0 is done) := by
  cases hd : disassemble bc with
  | mk is err =>
    obtain ⟨e, h1, h2, h3, h4, h5⟩ :=
      disasmLoop_tiles bc.length bc 0 is err (by omega) (by omega) hd
    cases err with
    | none =>
      left
      have := h4 rfl
      subst this
      exact ⟨is, rfl, by simpa [slice] using h3⟩
    | some x =>
      right
      obtain ⟨h6, h7⟩ := h5 x rfl
      refine ⟨is, x, bc.take e, bc.drop e, rfl, h7, (List.take_append_drop e bc).symm, ?_, ?_⟩
      · intro h0
        have := congrArg List.length h0
        simp at this
        omega
      · simpa [slice] using h3

/-- C28: `list(disassemble(code))` succeeds only with a complete tiling of the code. -/
theorem C28_success_tiles (bc : Bytes) (is : List Insn) (h : disassembleAll bc = .ok is) :
    Tiles 0 is bc := by
  unfold disassembleAll at h
  rcases C28_covers_or_raises bc with ⟨js, h1, h2⟩ | ⟨js, e, d, r, h1, _⟩
  · rw [h1] at h; simp at h; subst h; exact h2
  · rw [h1] at h; simp at h

/-- C28: it never fails to terminate. -/
theorem C28_terminates (bc : Bytes) : (disassemble bc).2 ≠ some (.other "diverges") := by
  rcases C28_covers_or_raises bc with ⟨js, h1, h2⟩ | ⟨js, e, d, r, h1, h2, _⟩
  · simp [h1]
  · rw [h1]; rcases h2 with rfl | rfl | rfl | rfl <;> simp

theorem Tiles.offsets {pos : Nat} {is : List Insn} {bs : Bytes} (h : Tiles pos is bs) :
    (∀ i ∈ is, pos ≤ i.off ∧ i.off < pos + bs.length ∧ bs[i.off - pos]? = some (UInt8.ofNat i.code)) ∧
    (is.map Insn.off).Pairwise (· < ·) ∧ (is.map Insn.off).head? = (if bs = [] then none else some pos) := by
  induction h with
  | nil pos => simp
  | @cons pos i is b r ho he ht ih =>
    obtain ⟨ih1, ih2, ih3⟩ := ih
    have hb := he.ne_nil
    have hbl : 0 < b.length := List.length_pos_iff.2 hb
    refine ⟨?_, ?_, ?_⟩
    · intro j hj
      rcases List.mem_cons.1 hj with rfl | hj
      · refine ⟨by omega, by simp; omega, ?_⟩
        rw [ho, Nat.sub_self, List.getElem?_append_left hbl]
        rcases he with ⟨os, vs, _, _, _, h⟩ | ⟨hc, p, d, l, hh, js, _, _, _, h⟩ |
          ⟨hc, p, d, n, ps, _, _, _, _, h⟩ | ⟨hc, op, idx, _, _, _, h⟩ | ⟨hc, idx, v, _, _, _, h⟩ <;>
          subst h <;> simp <;> simp [hc]
      · obtain ⟨j1, j2, j3⟩ := ih1 j hj
        refine ⟨by omega, by simp; omega, ?_⟩
        rw [List.getElem?_append_right (by omega)]
        have : j.off - pos - b.length = j.off - (pos + b.length) := by omega
        rw [this]
        exact j3
    · simp only [List.map_cons, List.pairwise_cons]
      refine ⟨?_, ih2⟩
      intro o hmem
      obtain ⟨j, hj, rfl⟩ := List.mem_map.1 hmem
      have := (ih1 j hj).1
      omega
    · simp [hb, ho]

/-- C28 in terms of offsets: the first is 0, they strictly increase, and each instruction's
code is the byte at its offset, inside the code. -/
theorem C28_offsets (bc : Bytes) (is : List Insn) (h : disassembleAll bc = .ok is) :
    (∀ i ∈ is, i.off < bc.length ∧ bc[i.off]? = some (UInt8.ofNat i.code)) ∧
    (is.map Insn.off).Pairwise (· < ·) ∧
    (is.map Insn.off).head? = (if bc = [] then none else some 0) := by
  obtain ⟨h1, h2, h3⟩ := (C28_success_tiles bc is h).offsets
  refine ⟨fun i hi => ?_, h2, h3⟩
  obtain ⟨_, a, b⟩ := h1 i hi
  exact ⟨by omega, by simpa using b⟩

/-- Non-vacuity: corrupt code raises after the good prefix, each exception occurring. -/
example : disassemble [0x1a, 0xff] = ([⟨0, 0x1a, .ints []⟩], some .keyError) ∧
    disassemble [0x1a, 0x11, 0] = ([⟨0, 0x1a, .ints []⟩], some .structError) ∧
    disassemble [0xc4] = ([], some .typeError) ∧
    disassemble [0xc4, 0, 0, 0] = ([], some .assertionError) ∧
    disassemble [0, 0xab, 9, 9, 0, 0, 0, 7, 0xff, 0xff, 0xff, 0xff] =
      ([⟨0, 0, .ints []⟩, ⟨1, 0xab, .lookup 7 []⟩], none) := by decide +kernel

/-! ## C30 -/

/-- The operands of an instruction have the values of their JVM kind. Together with
`C28_success_tiles`, which says the operands are the big-endian (two's complement) bytes of the
code, this fixes them: see `C30_value_unique`. -/
def HasJvmValues (i : Insn) : Prop :=
  match i.args with
  | .ints vs => ∀ os, operands i.code = some os → ∀ p ∈ os.zip vs, p.1.InRange p.2
  | .table d l h js => SRange 4 d ∧ SRange 4 l ∧ SRange 4 h ∧ ∀ j ∈ js, SRange 4 j
  | .lookup d ps => SRange 4 d ∧ ∀ p ∈ ps, SRange 4 p.1 ∧ SRange 4 p.2

/-- C30 as stated. It fails for bipush. -/
def C30_full : Prop := ∀ bc : Bytes, ∀ i ∈ (disassemble bc).1, HasJvmValues i

theorem C30_full_fails : ¬ C30_full := by
  intro h
  have h1 : disassemble [0x10, 0xff] = ([⟨0, 0x10, .ints [255]⟩], none) := by decide +kernel
  have := h [0x10, 0xff] ⟨0, 0x10, .ints [255]⟩ (by rw [h1]; simp)
  have := this [.imm1] (by decide) (.imm1, 255) (by simp)
  have := this.2
  revert this
  decide

theorem yielded (fuel : Nat) (bc : Bytes) (pos : Nat) (i : Insn)
    (h : i ∈ (disasmLoop fuel bc pos).1) :
    ∃ fmt o, getArgFormat i.code = .ok fmt ∧ unpackArgs fmt bc (i.off + 1) = .ok (i.args, o) := by
  induction fuel generalizing pos with
  | zero => unfold disasmLoop at h; split at h <;> simp at h
  | succ fuel ih =>
    unfold disasmLoop at h
    cases hb : bc[pos]? with
    | none => rw [hb] at h; simp at h
    | some b =>
      rw [hb] at h
      simp only at h
      cases hf : getArgFormat b.toNat with
      | error e => rw [hf] at h; simp at h
      | ok fmt =>
        rw [hf] at h
        simp only at h
        cases ha : unpackArgs fmt bc (pos + 1) with
        | error e => rw [ha] at h; simp at h
        | ok r =>
          obtain ⟨args, o⟩ := r
          rw [ha] at h
          simp only [List.mem_cons] at h
          rcases h with rfl | h
          · exact ⟨fmt, o, hf, ha⟩
          · exact ih o h

theorem code_inRange {o : Operand} {v : Int} (h : Javatools.InRange (Operand.code o) v) :
    o.InRange v := by
  cases o <;> simpa [Operand.InRange, Operand.signed, Operand.width, Operand.code,
    Javatools.InRange] using h

/-- C30 for every opcode but bipush: on any byte string, every yielded operand has the
signedness and range of its JVM kind. -/
theorem C30_jvm_values_partial (bc : Bytes) (i : Insn) (hi : i ∈ (disassemble bc).1)
    (hne : i.code ≠ 0x10) : HasJvmValues i := by
  obtain ⟨fmt, o, hf, hu⟩ := yielded _ _ _ _ hi
  rcases i with ⟨pos, code, args⟩
  simp only at hf hu hne
  have hr := getArgFormat_cases hf
  unfold HasJvmValues
  cases args with
  | ints vs =>
    simp only
    intro os hos p hp
    have h1 := (getArgFormat_fixed hos).1
    rw [hf] at h1
    rw [Except.ok.inj h1] at hu
    unfold tableFmt at hu
    split at hu
    · rename_i h0; subst h0; simp at hp
    · simp only [hne, if_false, unpackArgs] at hu
      split at hu
      · simp at hu
      · rename_i vs' o' hv
        simp only [Except.ok.injEq, Prod.mk.injEq, Args.ints.injEq] at hu
        obtain ⟨rfl, rfl⟩ := hu
        obtain ⟨_, _, _, _, a5⟩ := opUnpack_inv hv
        refine code_inRange (a5 (Operand.code p.1, p.2) ?_)
        rw [List.zip_map_left]
        exact List.mem_map.2 ⟨p, hp, rfl⟩
  | table d l h js =>
    rcases hr with ⟨os, hos, rfl⟩ | ⟨_, rfl⟩ | ⟨_, rfl⟩ | ⟨_, rfl⟩
    · unfold tableFmt at hu
      split at hu
      · simp [unpackArgs] at hu
      · simp only [hne, if_false, unpackArgs] at hu
        split at hu <;> simp at hu
    · simp only [unpackArgs, unpackTableswitch] at hu
      split at hu
      · simp at hu
      · rename_i hd o1 hv
        obtain ⟨_, a2, a3, _, a5⟩ := opUnpack_inv hv
        obtain ⟨d', l', h', rfl⟩ := three_of_length a3
        split at hu
        · simp at hu
        · rename_i js' o2 hm
          simp only [List.getD_cons_zero, List.getD_cons_succ, Except.ok.injEq, Prod.mk.injEq,
            Args.table.injEq] at hu
          obtain ⟨⟨rfl, rfl, rfl, rfl⟩, rfl⟩ := hu
          obtain ⟨_, _, _, _, b5⟩ := opUnpackMany_inv _ hm a2
          refine ⟨a5 (.i, d') (by simp), a5 (.i, l') (by simp), a5 (.i, h') (by simp), ?_⟩
          intro j hj
          obtain ⟨x, hx, rfl⟩ := List.mem_map.1 hj
          match x, b5 x hx with
          | [v], ⟨_, hb⟩ => exact hb (.i, v) (by simp)
    · simp only [unpackArgs, unpackLookupswitch] at hu
      split at hu
      · simp at hu
      · split at hu <;> simp at hu
    · simp only [unpackArgs, unpackWide] at hu
      split at hu
      · simp at hu
      · split at hu
        · split at hu <;> simp at hu
        · split at hu
          · split at hu <;> simp at hu
          · simp at hu
  | lookup d ps =>
    rcases hr with ⟨os, hos, rfl⟩ | ⟨_, rfl⟩ | ⟨_, rfl⟩ | ⟨_, rfl⟩
    · unfold tableFmt at hu
      split at hu
      · simp [unpackArgs] at hu
      · simp only [hne, if_false, unpackArgs] at hu
        split at hu <;> simp at hu
    · simp only [unpackArgs, unpackTableswitch] at hu
      split at hu
      · simp at hu
      · split at hu <;> simp at hu
    · simp only [unpackArgs, unpackLookupswitch] at hu
      split at hu
      · simp at hu
      · rename_i hd o1 hv
        obtain ⟨_, a2, a3, _, a5⟩ := opUnpack_inv hv
        obtain ⟨d', n', rfl⟩ := two_of_length a3
        split at hu
        · simp at hu
        · rename_i ps' o2 hm
          simp only [List.getD_cons_zero, List.getD_cons_succ, Except.ok.injEq, Prod.mk.injEq,
            Args.lookup.injEq] at hu
          obtain ⟨⟨rfl, rfl⟩, rfl⟩ := hu
          obtain ⟨_, _, _, _, b5⟩ := opUnpackMany_inv _ hm a2
          refine ⟨a5 (.i, d') (by simp), ?_⟩
          intro j hj
          obtain ⟨x, hx, rfl⟩ := List.mem_map.1 hj
          obtain ⟨u, v, rfl⟩ := two_of_length (b5 x hx).1
          exact ⟨(b5 _ hx).2 (.i, u) (by simp), (b5 _ hx).2 (.i, v) (by simp)⟩
    · simp only [unpackArgs, unpackWide] at hu
      split at hu
      · simp at hu
      · split at hu
        · split at hu <;> simp at hu
        · split at hu
          · split at hu <;> simp at hu
          · simp at hu

/-- C30 for bipush, what happens instead: the byte is reported unsigned. -/
theorem C30_bipush_unsigned (b : UInt8) :
    disassemble [0x10, b] = ([⟨0, 0x10, .ints [(b.toNat : Int)]⟩], none) := by
  have hf : getArgFormat 16 = .ok (.struct [.B]) := by decide +kernel
  have hu : unpackArgs (.struct [.B]) [0x10, b] 1 = .ok (.ints [(b.toNat : Int)], 2) := by
    simp [unpackArgs, opUnpack, fmtSize, FmtCode.size, structUnpack, FmtCode.decode,
      FmtCode.signed, beNat]
  have h0 : ([0x10, b] : Bytes)[0]? = some 0x10 := rfl
  have h2 : ([0x10, b] : Bytes)[2]? = none := rfl
  have ht : (0x10 : UInt8).toNat = 16 := rfl
  unfold disassemble
  rw [show ([0x10, b] : Bytes).length = 2 from rfl]
  unfold disasmLoop
  rw [h0]
  simp only [ht, hf, Nat.zero_add, hu]
  unfold disasmLoop
  rw [h2]

/-- An operand's bytes and its range determine its value. -/
theorem C30_value_unique (o : Operand) (v w : Int) (hv : o.InRange v) (hw : o.InRange w)
    (h : beInt o.width v = beInt o.width w) : v = w := by
  have h1 := decode_beInt (Operand.code o) v (Operand.code_range o v hv)
  have h2 := decode_beInt (Operand.code o) w (Operand.code_range o w hw)
  rw [Operand.code_size] at h1 h2
  rw [← h1, ← h2, h]

example : disassemble [0x11, 0xff, 0xfe, 0x84, 0xff, 0xff, 0xa7, 0x80, 0x00, 0x19, 0xff] =
    ([⟨0, 0x11, .ints [-2]⟩, ⟨3, 0x84, .ints [255, -1]⟩, ⟨6, 0xa7, .ints [-32768]⟩,
      ⟨9, 0x19, .ints [255]⟩], none) := by decide +kernel

end Javatools
