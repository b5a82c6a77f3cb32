import Verif.Model.Pack
import Verif.Spec.Binary
/-
Lemmas about the unpackers and struct formats.
-/
namespace Javatools
open Spec

/-! ### big-endian numbers -/

theorem beNat_append (a : Bytes) (b : UInt8) : beNat (a ++ [b]) = beNat a * 256 + b.toNat := by
  simp [beNat]

theorem be_length (w n : Nat) : (be w n).length = w := by
  induction w generalizing n with
  | zero => rfl
  | succ w ih => simp [be, ih]

theorem beNat_be (w n : Nat) : beNat (be w n) = n % 256 ^ w := by
  induction w generalizing n with
  | zero => simp [be, beNat, Nat.mod_one]
  | succ w ih =>
    rw [be, beNat_append, ih, Nat.pow_succ']
    have h : (UInt8.ofNat (n % 256)).toNat = n % 256 := by simp
    rw [h, Nat.mod_mul]
    omega

theorem beNat_be_of_lt {w n : Nat} (h : n < 256 ^ w) : beNat (be w n) = n := by
  rw [beNat_be, Nat.mod_eq_of_lt h]

theorem snoc_cases {α : Type} (l : List α) (n : Nat) (h : l.length = n + 1) :
    ∃ l' x, l = l' ++ [x] ∧ l'.length = n := by
  have hne : l ≠ [] := by intro h0; simp [h0] at h
  refine ⟨l.dropLast, l.getLast hne, ?_, ?_⟩
  · exact (List.dropLast_concat_getLast hne).symm
  · simp [h]

theorem beNat_lt (bs : Bytes) : beNat bs < 256 ^ bs.length := by
  generalize hn : bs.length = n
  induction n generalizing bs with
  | zero => have : bs = [] := List.length_eq_zero_iff.1 hn; subst this; simp [beNat]
  | succ n ih =>
    obtain ⟨l, x, rfl, hl⟩ := snoc_cases bs n hn
    rw [beNat_append, Nat.pow_succ]
    have := ih l hl
    have hx : x.toNat < 256 := x.toNat_lt
    omega

theorem be_beNat (bs : Bytes) : be bs.length (beNat bs) = bs := by
  generalize hn : bs.length = n
  induction n generalizing bs with
  | zero => have : bs = [] := List.length_eq_zero_iff.1 hn; subst this; rfl
  | succ n ih =>
    obtain ⟨l, x, rfl, hl⟩ := snoc_cases bs n hn
    have hx : x.toNat < 256 := x.toNat_lt
    have h1 : (beNat l * 256 + x.toNat) / 256 = beNat l := by omega
    have h2 : (beNat l * 256 + x.toNat) % 256 = x.toNat := by omega
    rw [be, beNat_append, h1, h2, ih l hl]
    simp

theorem toSigned_range (w n : Nat) (h : n < 256 ^ (w+1)) : SRange (w+1) (toSigned (w+1) n) := by
  unfold SRange toSigned
  generalize 256 ^ (w+1) = P at *
  split <;> omega

theorem toSigned_mod (w : Nat) (v : Int) (h : SRange w v) :
    toSigned w (v % (256 ^ w : Nat)).toNat = v := by
  unfold SRange at h
  unfold toSigned
  have hP : 0 < 256 ^ w := Nat.pow_pos (by decide)
  generalize 256 ^ w = P at *
  by_cases hv : 0 ≤ v
  · have : v % (P : Int) = v := Int.emod_eq_of_lt hv (by omega)
    rw [this]
    split <;> omega
  · have : v % (P : Int) = v + P := by
      rw [← Int.add_emod_right]
      exact Int.emod_eq_of_lt (by omega) (by omega)
    rw [this]
    split <;> omega

theorem mod_toSigned (w n : Nat) (h : n < 256 ^ w) :
    (toSigned w n % (256 ^ w : Nat)).toNat = n := by
  unfold toSigned
  generalize 256 ^ w = P at *
  split
  · rw [Int.emod_eq_of_lt (by omega) (by omega)]; omega
  · rw [← Int.add_emod_right, Int.emod_eq_of_lt (by omega) (by omega)]; omega

/-! ### reads at a known position -/

@[simp] theorem Prog.bind_ret {α β : Type} (a : α) (f : α → Prog β) :
    (Prog.ret a).bind f = f a := rfl
@[simp] theorem Prog.bind_fail {α β : Type} (e : PyErr) (f : α → Prog β) :
    (Prog.fail e : Prog α).bind f = .fail e := rfl
@[simp] theorem Prog.bind_read {α β : Type} (fmt n) (k : Bytes → Prog α) (f : α → Prog β) :
    (Prog.read fmt n k).bind f = .read fmt n (fun bs => (k bs).bind f) := rfl

theorem Prog.bind_assoc {α β γ : Type} (p : Prog α) (f : α → Prog β) (g : β → Prog γ) :
    (p.bind f).bind g = p.bind (fun a => (f a).bind g) := by
  induction p with
  | ret a => rfl
  | fail e => rfl
  | read fmt n k ih => simp only [Prog.bind_read, Prog.read.injEq, true_and]; funext bs; exact ih bs

theorem BufSt.read_ok {d : Bytes} {off n : Nat} (fmt : Option String)
    (h : off + n ≤ d.length) :
    BufSt.read fmt n ⟨some d, off⟩ = (.ok ((d.drop off).take n), ⟨some d, off + n⟩) := by
  unfold BufSt.read BufSt.avail
  cases d with
  | nil => simp at h; obtain ⟨rfl, rfl⟩ := h; simp
  | cons x xs =>
    simp only [List.length_cons] at *
    rw [if_neg (by omega)]

theorem BufSt.read_short {d : Bytes} {off n : Nat} (fmt : Option String)
    (h : off ≤ d.length) (h2 : d.length < off + n) :
    BufSt.read fmt n ⟨some d, off⟩ =
      (.error (.unpack fmt n ((d.length - off : Nat) : Int)), ⟨some d, off⟩) := by
  unfold BufSt.read BufSt.avail
  cases d with
  | nil => simp at h; subst h; simp at h2; simp [h2]
  | cons x xs =>
    simp only [List.length_cons] at *
    rw [if_pos (by omega)]
    congr 3
    omega

theorem StrSt.read_ok {r : Bytes} {n : Nat} (fmt : Option String) (h : n ≤ r.length) :
    StrSt.read fmt n ⟨some r⟩ = (.ok (r.take n), ⟨some (r.drop n)⟩) := by
  simp only [StrSt.read, List.length_take]
  rw [if_neg (by omega)]

theorem StrSt.read_short {r : Bytes} {n : Nat} (fmt : Option String) (h : r.length < n) :
    StrSt.read fmt n ⟨some r⟩ = (.error (.unpack fmt n r.length), ⟨some (r.drop n)⟩) := by
  simp only [StrSt.read, List.length_take]
  rw [if_pos (by omega), Nat.min_eq_right (by omega)]

/-- Decoding from bytes at an offset and decoding from a stream of the remaining bytes
give the same outcome. -/
theorem runBuf_eq_runStr {α : Type} (p : Prog α) (d : Bytes) (off : Nat)
    (h : off ≤ d.length) :
    (p.runBuf ⟨some d, off⟩).1 = (p.runStr ⟨some (d.drop off)⟩).1 := by
  induction p generalizing off with
  | ret a => rfl
  | fail e => rfl
  | read fmt n k ih =>
    by_cases hn : off + n ≤ d.length
    · simp only [Prog.runBuf, Prog.runStr, BufSt.read_ok fmt hn]
      rw [StrSt.read_ok fmt (by simp; omega)]
      simp only
      rw [ih _ _ hn, List.drop_drop]
    · simp only [Prog.runBuf, Prog.runStr]
      rw [BufSt.read_short fmt h (by omega), StrSt.read_short fmt (by simp; omega)]
      simp

/-- The offset stays inside the data and the data is never replaced. -/
theorem runBuf_state {α : Type} (p : Prog α) (d : Bytes) (off : Nat) (h : off ≤ d.length) :
    ∃ off', (p.runBuf ⟨some d, off⟩).2 = ⟨some d, off'⟩ ∧ off ≤ off' ∧ off' ≤ d.length := by
  induction p generalizing off with
  | ret a => exact ⟨off, rfl, by omega, h⟩
  | fail e => exact ⟨off, rfl, by omega, h⟩
  | read fmt n k ih =>
    by_cases hn : off + n ≤ d.length
    · simp only [Prog.runBuf, BufSt.read_ok fmt hn]
      obtain ⟨o, h1, h2, h3⟩ := ih _ (off + n) hn
      exact ⟨o, h1, by omega, h3⟩
    · simp only [Prog.runBuf]
      rw [BufSt.read_short fmt h (by omega)]
      exact ⟨off, rfl, by omega, h⟩

/-- Bytes after the consumed ones do not matter. -/
theorem runBuf_append {α : Type} (p : Prog α) (d suffix : Bytes) (off off' : Nat) (a : α)
    (h : off ≤ d.length) (hr : p.runBuf ⟨some d, off⟩ = (.ok a, ⟨some d, off'⟩)) :
    p.runBuf ⟨some (d ++ suffix), off⟩ = (.ok a, ⟨some (d ++ suffix), off'⟩) := by
  induction p generalizing off with
  | ret b => simp only [Prog.runBuf, Prod.mk.injEq, Except.ok.injEq, BufSt.mk.injEq] at hr ⊢; simp [hr.1, hr.2.2]
  | fail e => simp [Prog.runBuf] at hr
  | read fmt n k ih =>
    by_cases hn : off + n ≤ d.length
    · simp only [Prog.runBuf] at hr ⊢
      rw [BufSt.read_ok fmt hn] at hr
      rw [BufSt.read_ok fmt (by simp; omega)]
      have e : ((d ++ suffix).drop off).take n = (d.drop off).take n := by
        rw [List.drop_append_of_le_length h, List.take_append_of_le_length (by simp; omega)]
      simp only [e]
      exact ih _ _ hn hr
    · simp only [Prog.runBuf] at hr
      rw [BufSt.read_short fmt h (by omega)] at hr
      simp at hr

/-- Cutting the data anywhere before the consumed end makes decoding raise
`UnpackException` with fewer bytes present than wanted. -/
theorem runBuf_truncated {α : Type} (p : Prog α) (d : Bytes) (off off' m : Nat) (a : α)
    (h : off ≤ m) (hm : m < off') (hd : off' ≤ d.length)
    (hr : p.runBuf ⟨some d, off⟩ = (.ok a, ⟨some d, off'⟩)) :
    ∃ fmt w q, (p.runBuf ⟨some (d.take m), off⟩).1 = .error (.unpack fmt w q) ∧ q < w ∧ 0 ≤ q := by
  induction p generalizing off with
  | ret b => simp only [Prog.runBuf, Prod.mk.injEq, BufSt.mk.injEq] at hr; omega
  | fail e => simp [Prog.runBuf] at hr
  | read fmt n k ih =>
    have hlen : (d.take m).length = m := by simp; omega
    by_cases hn : off + n ≤ d.length
    · simp only [Prog.runBuf] at hr ⊢
      rw [BufSt.read_ok fmt hn] at hr
      by_cases hnm : off + n ≤ m
      · rw [BufSt.read_ok fmt (by rw [hlen]; exact hnm)]
        have e : ((d.take m).drop off).take n = (d.drop off).take n := by
          rw [List.drop_take, List.take_take, Nat.min_eq_left (by omega)]
        simp only [e]
        exact ih _ _ hnm hr
      · rw [BufSt.read_short fmt (by omega) (by omega)]
        exact ⟨fmt, n, _, rfl, by omega, by omega⟩
    · simp only [Prog.runBuf] at hr
      rw [BufSt.read_short fmt (by omega) (by omega)] at hr
      simp at hr

/-! ### Composition: decoding a concatenation

`Decodes p bs a` says that `p` consumes exactly `bs`, wherever `bs` stands, and returns
`a`. It is the work horse of every round-trip theorem. -/

def Decodes {α : Type} (p : Prog α) (bs : Bytes) (a : α) : Prop :=
  ∀ (pre post : Bytes), p.runBuf ⟨some (pre ++ bs ++ post), pre.length⟩ =
    (.ok a, ⟨some (pre ++ bs ++ post), pre.length + bs.length⟩)

theorem Decodes.ret {α : Type} (a : α) : Decodes (.ret a) [] a := by
  intro pre post; simp [Prog.runBuf]

theorem Decodes.pure {α : Type} (a : α) : Decodes (Pure.pure a) [] a := Decodes.ret a

theorem runBuf_bind {α β : Type} (p : Prog α) (f : α → Prog β) (s : BufSt) :
    (p.bind f).runBuf s =
      match p.runBuf s with
      | (.ok a, s') => (f a).runBuf s'
      | (.error e, s') => (.error e, s') := by
  induction p generalizing s with
  | ret a => rfl
  | fail e => rfl
  | read fmt n k ih =>
    simp only [Prog.bind_read, Prog.runBuf]
    cases hr : s.read fmt n with
    | mk r s' =>
      cases r with
      | ok bs => simp only; exact ih bs s'
      | error e => rfl

theorem Decodes.bind {α β : Type} {p : Prog α} {f : α → Prog β} {b1 b2 : Bytes} {a : α} {b : β}
    (h1 : Decodes p b1 a) (h2 : Decodes (f a) b2 b) : Decodes (p.bind f) (b1 ++ b2) b := by
  intro pre post
  rw [runBuf_bind]
  have e1 : pre ++ (b1 ++ b2) ++ post = pre ++ b1 ++ (b2 ++ post) := by simp
  have e2 : pre ++ (b1 ++ b2) ++ post = (pre ++ b1) ++ b2 ++ post := by simp
  rw [e1, h1 pre (b2 ++ post)]
  simp only
  have := h2 (pre ++ b1) post
  simp only [List.append_assoc, List.length_append] at this ⊢
  rw [this]
  simp [Nat.add_assoc]

theorem Decodes.read {α : Type} {fmt : Option String} {k : Bytes → Prog α} {b1 b2 : Bytes} {a : α}
    (h : Decodes (k b1) b2 a) : Decodes (.read fmt b1.length k) (b1 ++ b2) a := by
  intro pre post
  have hle : pre.length + b1.length ≤ (pre ++ (b1 ++ b2) ++ post).length := by simp
  simp only [Prog.runBuf]
  rw [BufSt.read_ok fmt hle]
  have e : ((pre ++ (b1 ++ b2) ++ post).drop pre.length).take b1.length = b1 := by
    simp [List.append_assoc]
  simp only [e]
  have := h (pre ++ b1) post
  simp only [List.append_assoc, List.length_append] at this ⊢
  rw [this]
  simp [Nat.add_assoc]

/-- A single read followed by a pure computation. -/
theorem Decodes.read_ret {α : Type} {fmt : Option String} {n : Nat} {k : Bytes → Prog α}
    {bs : Bytes} {a : α} (hn : n = bs.length) (h : k bs = .ret a) :
    Decodes (.read fmt n k) bs a := by
  subst hn
  have := Decodes.read (fmt := fmt) (k := k) (b1 := bs) (b2 := []) (a := a)
    (by rw [h]; exact Decodes.ret a)
  simpa using this

theorem Decodes.lift {α : Type} {r : Res α} {a : α} (h : r = .ok a) :
    Decodes (Prog.lift r) [] a := by
  subst h; exact Decodes.ret a

theorem Decodes.times {α β : Type} {p : Prog α} (enc : β → Bytes) (f : β → α) (xs : List β)
    (h : ∀ x ∈ xs, Decodes p (enc x) (f x)) :
    Decodes (Prog.times xs.length p) (xs.flatMap enc) (xs.map f) := by
  induction xs with
  | nil => exact Decodes.ret []
  | cons x xs ih =>
    simp only [List.length_cons, Prog.times, List.flatMap_cons, List.map_cons]
    refine Decodes.bind (h x (by simp)) ?_
    have := Decodes.bind (f := fun as => Prog.ret (f x :: as))
      (ih (fun y hy => h y (by simp [hy]))) (Decodes.ret (f x :: xs.map f))
    simpa using this

theorem Decodes.run {α : Type} {p : Prog α} {bs : Bytes} {a : α} (h : Decodes p bs a)
    (post : Bytes) : p.run (bs ++ post) = .ok a := by
  have := h [] post
  simp only [List.nil_append, List.length_nil] at this
  simp [Prog.run, this]

theorem Decodes.u1 {n : Nat} (h : n < 256) : Decodes u1 (be 1 n) n :=
  Decodes.read_ret (by simp [be_length]) (by rw [beNat_be_of_lt (by simpa using h)])

theorem Decodes.u2 {n : Nat} (h : n < 65536) : Decodes u2 (be 2 n) n :=
  Decodes.read_ret (by simp [be_length]) (by rw [beNat_be_of_lt (by simpa using h)])

theorem take_be (w n : Nat) (r : Bytes) : (be w n ++ r).take w = be w n := by
  rw [List.take_append_of_le_length (by simp [be_length]), List.take_of_length_le (by simp [be_length])]

theorem drop_be (w n : Nat) (r : Bytes) : (be w n ++ r).drop w = r := by
  rw [List.drop_append_of_le_length (by simp [be_length]), List.drop_of_length_le (by simp [be_length])]
  simp

theorem Decodes.u2u2 {a b : Nat} (ha : a < 65536) (hb : b < 65536) :
    Decodes u2u2 (be 2 a ++ be 2 b) (a, b) :=
  Decodes.read_ret (by simp [be_length]) (by
    rw [take_be, drop_be, beNat_be_of_lt (by simpa using ha), beNat_be_of_lt (by simpa using hb)])

theorem Decodes.u2u4 {a b : Nat} (ha : a < 65536) (hb : b < 4294967296) :
    Decodes u2u4 (be 2 a ++ be 4 b) (a, b) :=
  Decodes.read_ret (by simp [be_length]) (by
    rw [take_be, drop_be, beNat_be_of_lt (by simpa using ha), beNat_be_of_lt (by simpa using hb)])

theorem Decodes.u1u2 {a b : Nat} (ha : a < 256) (hb : b < 65536) :
    Decodes u1u2 (be 1 a ++ be 2 b) (a, b) :=
  Decodes.read_ret (by simp [be_length]) (by
    rw [take_be, drop_be, beNat_be_of_lt (by simpa using ha), beNat_be_of_lt (by simpa using hb)])

theorem Decodes.u2u2u2 {a b c : Nat} (ha : a < 65536) (hb : b < 65536) (hc : c < 65536) :
    Decodes u2u2u2 (be 2 a ++ (be 2 b ++ be 2 c)) (a, b, c) :=
  Decodes.read_ret (by simp [be_length]) (by
    have h4 : (be 2 a ++ (be 2 b ++ be 2 c)).drop 4 = be 2 c := by
      rw [show 4 = 2 + 2 from rfl, ← List.drop_drop, drop_be, drop_be]
    rw [take_be, h4, drop_be, take_be, beNat_be_of_lt (by simpa using ha),
      beNat_be_of_lt (by simpa using hb), beNat_be_of_lt (by simpa using hc)])

theorem Decodes.u2u2u4 {a b c : Nat} (ha : a < 65536) (hb : b < 65536) (hc : c < 4294967296) :
    Decodes u2u2u4 (be 2 a ++ (be 2 b ++ be 4 c)) (a, b, c) :=
  Decodes.read_ret (by simp [be_length]) (by
    have h4 : (be 2 a ++ (be 2 b ++ be 4 c)).drop 4 = be 4 c := by
      rw [show 4 = 2 + 2 from rfl, ← List.drop_drop, drop_be, drop_be]
    rw [take_be, h4, drop_be, take_be, beNat_be_of_lt (by simpa using ha),
      beNat_be_of_lt (by simpa using hb), beNat_be_of_lt (by simpa using hc)])

theorem Decodes.u2x4 {a b c d : Nat} (ha : a < 65536) (hb : b < 65536) (hc : c < 65536)
    (hd : d < 65536) :
    Decodes u2x4 (be 2 a ++ (be 2 b ++ (be 2 c ++ be 2 d))) (a, b, c, d) :=
  Decodes.read_ret (by simp [be_length]) (by
    have h4 : (be 2 a ++ (be 2 b ++ (be 2 c ++ be 2 d))).drop 4 = be 2 c ++ be 2 d := by
      rw [show 4 = 2 + 2 from rfl, ← List.drop_drop, drop_be, drop_be]
    have h6 : (be 2 a ++ (be 2 b ++ (be 2 c ++ be 2 d))).drop 6 = be 2 d := by
      rw [show 6 = 4 + 2 from rfl, ← List.drop_drop, h4, drop_be]
    rw [take_be, h6, h4, take_be, drop_be, take_be, beNat_be_of_lt (by simpa using ha),
      beNat_be_of_lt (by simpa using hb), beNat_be_of_lt (by simpa using hc),
      beNat_be_of_lt (by simpa using hd)])

theorem Decodes.readBytes (bs : Bytes) : Decodes (readBytes bs.length) bs bs :=
  Decodes.read_ret rfl rfl

theorem structUnpack_H (ns : List Nat) (h : ∀ n ∈ ns, n < 65536) :
    (structUnpack (List.replicate ns.length .H) (ns.flatMap (be 2))).map Int.toNat = ns := by
  induction ns with
  | nil => rfl
  | cons n ns ih =>
    simp only [List.length_cons, List.replicate_succ, structUnpack, List.flatMap_cons,
      FmtCode.size, FmtCode.decode, FmtCode.signed, Bool.false_eq_true, if_false,
      List.map_cons, take_be, drop_be]
    rw [ih (fun m hm => h m (by simp [hm])), beNat_be_of_lt (by simpa using h n (by simp))]
    simp

theorem flatMap_be_length {w : Nat} (ns : List Nat) : (ns.flatMap (be w)).length = w * ns.length := by
  induction ns with
  | nil => rfl
  | cons n ns ih => rw [List.flatMap_cons, List.length_append, ih, be_length, List.length_cons, Nat.mul_succ]; omega

theorem Decodes.u2s (ns : List Nat) (h : ∀ n ∈ ns, n < 65536) :
    Decodes (u2s ns.length) (ns.flatMap (be 2)) ns := by
  refine Decodes.read_ret ?_ ?_
  · exact (flatMap_be_length ns).symm
  · rw [structUnpack_H ns h]

theorem Decodes.counted {α β : Type} {p : Prog α} (enc : β → Bytes) (f : β → α) (xs : List β)
    (hl : xs.length < 65536) (h : ∀ x ∈ xs, Decodes p (enc x) (f x)) :
    Decodes (counted p) (be 2 xs.length ++ xs.flatMap enc) (xs.map f) :=
  Decodes.bind (Decodes.u2 hl) (Decodes.times enc f xs h)

end Javatools
