import Verif.Proofs.Pack
import Verif.Proofs.Dict
/-
C01-C05: the unpackers, the struct formats and the struct cache.
-/
namespace Javatools
open Spec

/-! ## C01 -/

/-- C01. Whatever a decoding routine does, `unpack(bytes)` and `unpack(stream)` give the
same value or the same exception (including the numbers it carries). -/
theorem C01_bytes_stream_agree {α : Type} (p : Prog α) (d : Bytes) :
    p.runOn (.bytes d) = p.runOn (.stream d) := by
  have := runBuf_eq_runStr p d 0 (Nat.zero_le _)
  simpa [Prog.runOn] using this

/-- C01 for an unpacker that was already advanced: `BufferUnpacker(d, off)` against a stream
whose first `off` bytes were already read. -/
theorem C01_bytes_stream_agree_at {α : Type} (p : Prog α) (d : Bytes) (off : Nat)
    (h : off ≤ d.length) :
    (p.runBuf ⟨some d, off⟩).1 = (p.runStr ⟨some (d.drop off)⟩).1 :=
  runBuf_eq_runStr p d off h

/-- Non-vacuity: a routine whose second read size depends on the first value, on data where
it succeeds and on data where it fails. -/
example :
    let p := u1.bind (fun n => readBytes n)
    p.runOn (.bytes [2, 7, 8, 9]) = .ok [7, 8] ∧ p.runOn (.stream [2, 7, 8, 9]) = .ok [7, 8] ∧
    p.runOn (.bytes [5, 7]) = .error (.unpack none 5 1) ∧
    p.runOn (.stream [5, 7]) = .error (.unpack none 5 1) := by decide

/-! ## C02 -/

/-- C02, trailing data: if decoding `d` succeeds, so does decoding `d` followed by anything,
with the same value, from bytes and from a stream. -/
theorem C02_trailing_ignored {α : Type} (p : Prog α) (d extra : Bytes) (a : α)
    (h : p.runOn (.bytes d) = .ok a) :
    p.runOn (.bytes (d ++ extra)) = .ok a ∧ p.runOn (.stream (d ++ extra)) = .ok a := by
  obtain ⟨off', h1, _, _⟩ := runBuf_state p d 0 (Nat.zero_le _)
  have h2 : p.runBuf ⟨some d, 0⟩ = (.ok a, ⟨some d, off'⟩) := Prod.ext h h1
  have h3 := runBuf_append p d extra 0 off' a (Nat.zero_le _) h2
  have h4 : p.runOn (.bytes (d ++ extra)) = .ok a := by simp [Prog.runOn, h3]
  exact ⟨h4, by rw [← C01_bytes_stream_agree]; exact h4⟩

/-- C02, truncation: if decoding `d` succeeds and leaves the unpacker at position `n`, then
decoding any prefix of fewer than `n` bytes raises `UnpackException` reporting fewer bytes
present than wanted. -/
theorem C02_truncation_detected {α : Type} (p : Prog α) (d : Bytes) (a : α) (n m : Nat)
    (h : p.runBuf ⟨some d, 0⟩ = (.ok a, ⟨some d, n⟩)) (hm : m < n) :
    ∃ fmt wanted present,
      p.runOn (.bytes (d.take m)) = .error (.unpack fmt wanted present) ∧
      p.runOn (.stream (d.take m)) = .error (.unpack fmt wanted present) ∧
      0 ≤ present ∧ present < wanted := by
  obtain ⟨off', h1, _, h3⟩ := runBuf_state p d 0 (Nat.zero_le _)
  rw [h] at h1
  simp only [BufSt.mk.injEq, true_and] at h1
  obtain ⟨fmt, w, q, h4, h5, h6⟩ := runBuf_truncated p d 0 n m a (Nat.zero_le _) hm (by omega) h
  exact ⟨fmt, w, q, h4, by rw [← C01_bytes_stream_agree]; exact h4, h6, h5⟩

/-- C02, consequence: two successful decodings of prefixes of the same data agree, so no
truncated file is ever decoded to something other than the full file is. -/
theorem C02_no_wrong_value {α : Type} (p : Prog α) (d : Bytes) (m : Nat) (a b : α)
    (h1 : p.runOn (.bytes d) = .ok a) (h2 : p.runOn (.bytes (d.take m)) = .ok b) : a = b := by
  have := (C02_trailing_ignored p (d.take m) (d.drop m) b h2).1
  rw [List.take_append_drop, h1] at this
  exact Except.ok.inj this

example :
    let p := u1.bind (fun n => readBytes n)
    p.runBuf ⟨some [2, 7, 8, 9], 0⟩ = (.ok [7, 8], ⟨some [2, 7, 8, 9], 3⟩) ∧
    p.runOn (.bytes ([2, 7, 8, 9].take 2)) = .error (.unpack none 2 1) := by decide

/-! ## C03 -/

/-- The concatenation of what the successful calls returned. -/
def successes : List (Res Bytes) → Bytes
  | [] => []
  | .ok b :: rs => b ++ successes rs
  | .error _ :: rs => successes rs

/-- C03. For any history of reads on a bytes unpacker, in which any of the reads may fail and be
caught, the bytes delivered by the successful reads are, in order and without gaps, the
bytes of the data starting at the initial position. -/
theorem C03_failed_reads_consume_nothing (d : Bytes) (off : Nat) (hoff : off ≤ d.length)
    (reads : List (Option String × Nat)) :
    ∃ n, successes ((BufSt.exec ⟨some d, off⟩ (reads.map fun r => .read r.1 r.2)).1)
        = (d.drop off).take n ∧ off + n ≤ d.length ∧
      (BufSt.exec ⟨some d, off⟩ (reads.map fun r => .read r.1 r.2)).2 = ⟨some d, off + n⟩ := by
  induction reads generalizing off with
  | nil => exact ⟨0, by simp [BufSt.exec, successes], by omega, rfl⟩
  | cons r reads ih =>
    simp only [List.map_cons, BufSt.exec, BufSt.step]
    by_cases h : off + r.2 ≤ d.length
    · rw [BufSt.read_ok r.1 h]
      obtain ⟨n, h1, h2, h3⟩ := ih (off + r.2) h
      refine ⟨r.2 + n, ?_, by omega, ?_⟩
      · simp only [successes, h1]
        rw [List.take_add, List.drop_drop]
      · simp only [h3, Nat.add_assoc]
    · rw [BufSt.read_short r.1 hoff (by omega)]
      obtain ⟨n, h1, h2, h3⟩ := ih off hoff
      exact ⟨n, by simpa only [successes] using h1, h2, h3⟩

/-- C03. A failed call can be erased from any history: every other call returns the same. -/
theorem C03_failed_call_erasable (s : BufSt) (fmt : Option String) (n : Nat) (ops : List UOp)
    (w p : Int) (h : (s.step (.read fmt n)).1 = .error (.unpack fmt w p)) :
    s.exec (.read fmt n :: ops) =
      (.error (.unpack fmt w p) :: (s.exec ops).1, (s.exec ops).2) := by
  have hs : s.step (.read fmt n) = (.error (.unpack fmt w p), s) := by
    simp only [BufSt.step, BufSt.read] at h ⊢
    split at h
    · rename_i h'; rw [if_pos h']; simpa using h
    · split at h <;> simp at h
  simp only [BufSt.exec, hs]

/-- C03. After `close`, whatever happened before and whatever reads happen after, every
request for at least one byte raises `UnpackException(fmt, n, 0)`, on both kinds of
unpacker. -/
theorem C03_closed_yields_nothing (before after : List UOp) (fmt : Option String) (n : Nat)
    (hn : 0 < n) (b : BufSt) (s : StrSt) :
    ((b.exec before).2.close.exec after).2.read fmt n =
        (.error (.unpack fmt n 0), ((b.exec before).2.close.exec after).2) ∧
    ((s.exec before).2.close.exec after).2.read fmt n =
        (.error (.unpack fmt n 0), ((s.exec before).2.close.exec after).2) := by
  constructor
  · have key : ∀ (ops : List UOp) (o : Nat), ∃ o', (BufSt.exec ⟨none, o⟩ ops).2 = ⟨none, o'⟩ := by
      intro ops
      induction ops with
      | nil => intro o; exact ⟨o, rfl⟩
      | cons op ops ih =>
        intro o
        cases op with
        | close => exact ih 0
        | read f m =>
          have : ∃ r o', BufSt.read f m ⟨none, o⟩ = (r, ⟨none, o'⟩) := by
            unfold BufSt.read; split
            · exact ⟨_, _, rfl⟩
            · exact ⟨_, _, rfl⟩
          obtain ⟨r, o', hr⟩ := this
          obtain ⟨o'', h⟩ := ih o'
          exact ⟨o'', by simp only [BufSt.exec, BufSt.step, hr, h]⟩
    obtain ⟨o', h⟩ := key after 0
    have h' : ((b.exec before).2.close.exec after).2 = ⟨none, o'⟩ := h
    rw [h']
    have ha : BufSt.avail ⟨none, o'⟩ = 0 := rfl
    unfold BufSt.read
    rw [if_pos (by rw [ha]; omega), ha]
  · have key : ∀ ops : List UOp, (StrSt.exec ⟨none⟩ ops).2 = ⟨none⟩ := by
      intro ops
      induction ops with
      | nil => rfl
      | cons op ops ih =>
        cases op with
        | close => exact ih
        | read f m => simp only [StrSt.exec, StrSt.step, StrSt.read]; exact ih
    have h' : ((s.exec before).2.close.exec after).2 = ⟨none⟩ := key after
    rw [h']; rfl

/-- A history with a failed read in the middle; and the contrast with a stream, on which the
failed read has eaten the rest. -/
example :
    (BufSt.exec ⟨some [1, 2, 3], 0⟩ [.read none 1, .read none 9, .read none 2]).1 =
      [.ok [1], .error (.unpack none 9 2), .ok [2, 3]] ∧
    (StrSt.exec ⟨some [1, 2, 3]⟩ [.read none 1, .read none 9, .read none 2]).1 =
      [.ok [1], .error (.unpack none 9 2), .error (.unpack none 2 0)] := by decide

/-! ## C04 -/

/-- In-range values for a format character. -/
def InRange (c : FmtCode) (v : Int) : Prop :=
  match c with
  | .B => URange 1 v | .H => URange 2 v | .I => URange 4 v
  | .b => SRange 1 v | .h => SRange 2 v | .i => SRange 4 v | .q => SRange 8 v

/-- The standard encoding of a tuple of values. -/
def encFields : List (FmtCode × Int) → Bytes
  | [] => []
  | (c, v) :: r => beInt c.size v ++ encFields r

theorem decode_beInt (c : FmtCode) (v : Int) (h : InRange c v) : c.decode (beInt c.size v) = v := by
  have hs : ∀ w, SRange w v → toSigned w (beNat (beInt w v)) = v := by
    intro w hw
    have hP : 0 < 256 ^ w := Nat.pow_pos (by decide)
    have hlt : (v % (256 ^ w : Nat)).toNat < 256 ^ w := by
      have := Int.emod_lt_of_pos v (b := ((256 ^ w : Nat) : Int)) (by omega)
      have := Int.emod_nonneg v (b := ((256 ^ w : Nat) : Int)) (by omega)
      omega
    rw [beInt, beNat_be_of_lt hlt, toSigned_mod w v hw]
  have hu : ∀ w, URange w v → ((beNat (beInt w v) : Nat) : Int) = v := by
    intro w ⟨h0, h1⟩
    rw [beInt, Int.emod_eq_of_lt h0 h1, beNat_be_of_lt (by omega)]
    omega
  cases c <;> simp only [FmtCode.decode, FmtCode.signed, FmtCode.size, if_true, if_false,
    Bool.false_eq_true] <;> first | exact hs _ h | exact hu _ h

theorem beInt_length (w : Nat) (v : Int) : (beInt w v).length = w := be_length _ _

/-- C04, encode then decode: every in-range tuple of any length is recovered. -/
theorem C04_decode_encode (fs : List (FmtCode × Int)) (h : ∀ f ∈ fs, InRange f.1 f.2) :
    structUnpack (fs.map Prod.fst) (encFields fs) = fs.map Prod.snd := by
  induction fs with
  | nil => rfl
  | cons f fs ih =>
    obtain ⟨c, v⟩ := f
    simp only [List.map_cons, structUnpack, encFields]
    have e1 : (beInt c.size v ++ encFields fs).take c.size = beInt c.size v := by
      unfold beInt; rw [take_be]
    have e2 : (beInt c.size v ++ encFields fs).drop c.size = encFields fs := by
      unfold beInt; rw [drop_be]
    rw [e1, e2, ih (fun f hf => h f (by simp [hf])), decode_beInt c v (h (c, v) (by simp))]

/-- C04, decode then encode: every byte string of the right length decodes to an in-range
tuple, and the standard encoding of that tuple is the byte string. -/
theorem C04_encode_decode (cs : List FmtCode) (bs : Bytes) (h : bs.length = fmtSize cs) :
    encFields (cs.zip (structUnpack cs bs)) = bs ∧
    (structUnpack cs bs).length = cs.length ∧
    ∀ f ∈ cs.zip (structUnpack cs bs), InRange f.1 f.2 := by
  induction cs generalizing bs with
  | nil =>
    simp only [fmtSize, List.map_nil, List.sum_nil] at h
    have : bs = [] := List.length_eq_zero_iff.1 h
    subst this
    simp [encFields, structUnpack]
  | cons c cs ih =>
    simp only [fmtSize, List.map_cons, List.sum_cons] at h
    have ht : (bs.take c.size).length = c.size := by simp; omega
    obtain ⟨i1, i2, i3⟩ := ih (bs.drop c.size) (by simp [fmtSize]; omega)
    have hlt : beNat (bs.take c.size) < 256 ^ c.size := by
      have := beNat_lt (bs.take c.size); rwa [ht] at this
    have henc : beInt c.size (c.decode (bs.take c.size)) = bs.take c.size := by
      unfold beInt FmtCode.decode
      split
      · rw [mod_toSigned _ _ hlt]
        have := be_beNat (bs.take c.size); rwa [ht] at this
      · rw [Int.emod_eq_of_lt (by omega) (by omega)]
        have := be_beNat (bs.take c.size); rw [ht] at this
        simpa using this
    refine ⟨?_, ?_, ?_⟩
    · simp only [structUnpack, List.zip_cons_cons, encFields, i1, henc, List.take_append_drop]
    · simp [structUnpack, i2]
    · intro f hf
      simp only [structUnpack, List.zip_cons_cons, List.mem_cons] at hf
      rcases hf with rfl | hf
      · have hs : ∀ w, beNat (bs.take c.size) < 256 ^ (w+1) →
            SRange (w+1) (toSigned (w+1) (beNat (bs.take c.size))) := fun w => toSigned_range w _
        cases c <;> simp only [InRange, FmtCode.decode, FmtCode.signed, FmtCode.size, if_true,
          if_false, Bool.false_eq_true] at * <;>
          first
          | exact hs _ hlt
          | exact ⟨by omega, by omega⟩
      · exact i3 f hf

/-- C04, uniqueness: no byte string of the right length has two readings, no two byte strings
share one. -/
theorem C04_decode_injective (cs : List FmtCode) (b1 b2 : Bytes) (h1 : b1.length = fmtSize cs)
    (h2 : b2.length = fmtSize cs) (h : structUnpack cs b1 = structUnpack cs b2) : b1 = b2 := by
  rw [← (C04_encode_decode cs b1 h1).1, h, (C04_encode_decode cs b2 h2).1]

/-- C04 for the compound reads of the class parser: they are the struct formats they name. -/
theorem C04_reads_are_structs (bs : Bytes) :
    (bs.length = 1 → ∃ a, u1.run bs = .ok a ∧ structUnpack [.B] bs = [(a : Int)]) ∧
    (bs.length = 2 → ∃ a, u2.run bs = .ok a ∧ structUnpack [.H] bs = [(a : Int)]) ∧
    (bs.length = 4 → ∃ a b, u2u2.run bs = .ok (a, b) ∧
      structUnpack [.H, .H] bs = [(a : Int), (b : Int)]) ∧
    (bs.length = 6 → ∃ a b, u2u4.run bs = .ok (a, b) ∧
      structUnpack [.H, .I] bs = [(a : Int), (b : Int)]) ∧
    (bs.length = 6 → ∃ a b c, u2u2u2.run bs = .ok (a, b, c) ∧
      structUnpack [.H, .H, .H] bs = [(a : Int), (b : Int), (c : Int)]) ∧
    (bs.length = 8 → ∃ a b c, u2u2u4.run bs = .ok (a, b, c) ∧
      structUnpack [.H, .H, .I] bs = [(a : Int), (b : Int), (c : Int)]) := by
  have hrun : ∀ {α : Type} (f : Option String) (n : Nat) (k : Bytes → Prog α) (v : α),
      bs.length = n → k bs = .ret v → (Prog.read f n k).run bs = .ok v := by
    intro α f n k v hn hk
    unfold Prog.run Prog.runBuf
    rw [BufSt.read_ok f (by omega)]
    simp only [List.drop_zero, List.take_of_length_le (Nat.le_of_eq hn), hk, Prog.runBuf]
  refine ⟨?_, ?_, ?_, ?_, ?_, ?_⟩ <;> intro h
  · refine ⟨_, hrun _ _ _ _ h rfl, ?_⟩
    simp [structUnpack, FmtCode.decode, FmtCode.signed, FmtCode.size, List.take_of_length_le, h]
  · refine ⟨_, hrun _ _ _ _ h rfl, ?_⟩
    simp [structUnpack, FmtCode.decode, FmtCode.signed, FmtCode.size, List.take_of_length_le, h]
  · refine ⟨_, _, hrun _ _ _ _ h rfl, ?_⟩
    simp [structUnpack, FmtCode.decode, FmtCode.signed, FmtCode.size, List.take_of_length_le, h]
  · refine ⟨_, _, hrun _ _ _ _ h rfl, ?_⟩
    simp [structUnpack, FmtCode.decode, FmtCode.signed, FmtCode.size, List.take_of_length_le, h]
  · refine ⟨_, _, _, hrun _ _ _ _ h rfl, ?_⟩
    simp [structUnpack, FmtCode.decode, FmtCode.signed, FmtCode.size, List.take_of_length_le, h]
  · refine ⟨_, _, _, hrun _ _ _ _ h rfl, ?_⟩
    simp [structUnpack, FmtCode.decode, FmtCode.signed, FmtCode.size, List.take_of_length_le, h]

example : structUnpack [.B, .b, .H, .i] [255, 255, 1, 2, 255, 255, 255, 254] = [255, -1, 258, -2] ∧
    encFields [(.B, 255), (.b, -1), (.H, 258), (.i, -2)] = [255, 255, 1, 2, 255, 255, 255, 254] := by
  decide

/-! ## C05 -/

/-- Every cached object is filed under its own format, under an identity already used, and two
formats of one cache never share an object. -/
def CacheInv (s : CacheSt) : Prop :=
  ∀ c f o, (s.caches c).get? f = some o → o.fmt = f ∧ o.ident < s.next

theorem compileStruct_spec (f c : String) (s : CacheSt) (hs : CacheInv s) :
    let r := compileStruct f c s
    CacheInv r.2 ∧ r.1.fmt = f ∧ (r.2.caches c).get? f = some r.1 ∧ s.next ≤ r.2.next ∧
    (∀ c' f' o, (s.caches c').get? f' = some o → (r.2.caches c').get? f' = some o) := by
  simp only [compileStruct]
  cases h : (s.caches c).get? f with
  | some o => exact ⟨hs, (hs c f o h).1, h, Nat.le_refl _, fun _ _ _ h => h⟩
  | none =>
    refine ⟨?_, rfl, ?_, by simp, ?_⟩
    · intro c' f' o ho
      simp only at ho ⊢
      split at ho
      · subst_vars
        rw [PyDict.get?_set] at ho
        split at ho
        · simp only [Option.some.injEq] at ho; subst ho; subst_vars; exact ⟨rfl, by simp⟩
        · have := hs c' f' o ho; exact ⟨this.1, by omega⟩
      · have := hs c' f' o ho; exact ⟨this.1, by omega⟩
    · simp [PyDict.get?_set]
    · intro c' f' o ho
      simp only
      split
      · subst_vars; rw [PyDict.get?_set]
        split
        · subst_vars; rw [h] at ho; simp at ho
        · exact ho
      · exact ho

theorem compileStruct_hit (f c : String) (s : CacheSt) (o : StructObj)
    (h : (s.caches c).get? f = some o) : (compileStruct f c s).1 = o := by
  unfold compileStruct; rw [h]

theorem compileAll_persist (calls : List (String × String)) (s : CacheSt) (hs : CacheInv s) :
    CacheInv (compileAll s calls).2 ∧
    ∀ c f o, (s.caches c).get? f = some o → ((compileAll s calls).2.caches c).get? f = some o := by
  induction calls generalizing s with
  | nil => exact ⟨hs, fun _ _ _ h => h⟩
  | cons q calls ih =>
    obtain ⟨f, c⟩ := q
    have h1 := compileStruct_spec f c s hs
    simp only at h1
    have h2 := ih (compileStruct f c s).2 h1.1
    exact ⟨h2.1, fun c' f' o h => h2.2 c' f' o (h1.2.2.2.2 c' f' o h)⟩

/-- C05. Starting from any consistent cache state (in particular the empty one), after any
history of calls `compile_struct(fmt, cache)` returns a Struct for exactly `fmt`; and asking
again for the same format in the same cache, after any further history, returns the same
object. -/
theorem C05_cache_transparent (s : CacheSt) (hs : CacheInv s)
    (before between : List (String × String)) (f c : String) :
    let s1 := (compileAll s before).2
    let r1 := compileStruct f c s1
    let s2 := (compileAll r1.2 between).2
    let r2 := compileStruct f c s2
    r1.1.fmt = f ∧ r2.1 = r1.1 := by
  simp only
  have h1 := compileAll_persist before s hs
  have h2 := compileStruct_spec f c _ h1.1
  simp only at h2
  have h3 := (compileAll_persist between _ h2.1).2 c f _ h2.2.2.1
  refine ⟨h2.2.1, ?_⟩
  exact compileStruct_hit _ _ _ _ h3

/-- C05. Different formats never share a Struct object. -/
theorem C05_formats_not_confused (s : CacheSt) (hs : CacheInv s) (f g c c' : String)
    (between : List (String × String)) (h : f ≠ g) :
    let r1 := compileStruct f c s
    let r2 := compileStruct g c' (compileAll r1.2 between).2
    r1.1 ≠ r2.1 := by
  simp only
  have h1 := compileStruct_spec f c s hs
  simp only at h1
  have h2 := (compileAll_persist between _ h1.1).1
  have h3 := compileStruct_spec g c' _ h2
  simp only at h3
  intro e
  rw [← h1.2.1, ← h3.2.1, e] at h
  exact h rfl

/-- The empty caches satisfy the invariant. -/
example : CacheInv ⟨0, fun _ => []⟩ := by intro c f o h; simp [PyDict.get?] at h

/-- A history with a hit, a miss and a second cache. -/
example : (compileAll ⟨0, fun _ => []⟩
    [(">H", "g"), (">HH", "g"), (">H", "g"), (">H", "other")]).1 =
    [⟨0, ">H"⟩, ⟨1, ">HH"⟩, ⟨0, ">H"⟩, ⟨2, ">H"⟩] := by decide

end Javatools
