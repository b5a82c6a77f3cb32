import Verif.Props.ZipAccess
/-
C127: recognising archives. C128: opening and closing. C129: collecting the results of a comparison.
-/
namespace Javatools

/-! ### C127 -/

theorem rfindSig_none {sig : Bytes} {b : Bytes} : rfindSig sig b = none ↔
    ∀ k, k ≤ b.length → ¬ sig <+: b.drop k := by
  induction b with
  | nil =>
    rw [rfindSig]
    by_cases h : sig = []
    · simp [h]
    · simp only [h, if_false, List.drop_nil, List.prefix_nil, not_false_eq_true, implies_true]
  | cons x xs ih =>
    rw [rfindSig]
    cases hr : rfindSig sig xs with
    | none =>
      rw [hr] at ih
      simp only [true_iff] at ih
      by_cases h : sig.isPrefixOf (x :: xs) = true
      · simp only [h, if_true, reduceCtorEq, false_iff]
        intro hk
        exact hk 0 (by simp) (by simpa using h)
      · simp only [h]
        simp only [Bool.false_eq_true, if_false, true_iff]
        intro k hk
        cases k with
        | zero => simpa using h
        | succ k => exact ih k (by simpa using hk)
    | some k =>
      rw [hr] at ih
      simp only [reduceCtorEq, false_iff] at ih ⊢
      intro hk
      exact ih fun j hj => hk (j + 1) (by simpa using hj)

theorem rfindSig_some {sig : Bytes} {b : Bytes} {k : Nat} (h : rfindSig sig b = some k) :
    k ≤ b.length ∧ sig <+: b.drop k ∧ ∀ j, k < j → j ≤ b.length → ¬ sig <+: b.drop j := by
  induction b generalizing k with
  | nil =>
    rw [rfindSig] at h
    split at h
    · rename_i hs
      cases h
      exact ⟨Nat.le_refl _, by simp [hs], fun j h1 h2 => absurd h2 (by simp; omega)⟩
    · cases h
  | cons x xs ih =>
    rw [rfindSig] at h
    cases hr : rfindSig sig xs with
    | some j =>
      rw [hr] at h
      cases h
      obtain ⟨h1, h2, h3⟩ := ih hr
      refine ⟨by simpa using h1, h2, ?_⟩
      intro i hi hl
      cases i with
      | zero => omega
      | succ i => exact h3 i (by omega) (by simpa using hl)
    | none =>
      rw [hr] at h
      simp only at h
      split at h
      · rename_i hp
        cases h
        refine ⟨by simp, by simpa using hp, ?_⟩
        intro i hi hl
        cases i with
        | zero => omega
        | succ i => exact rfindSig_none.1 hr i (by simpa using hl)
      · cases h

theorem rfindSig_eq {sig : Bytes} {b : Bytes} {k : Nat} (h0 : k ≤ b.length) (h1 : sig <+: b.drop k)
    (h2 : ∀ j, k < j → j ≤ b.length → ¬ sig <+: b.drop j) : rfindSig sig b = some k := by
  cases hr : rfindSig sig b with
  | none => exact absurd h1 (rfindSig_none.1 hr k h0)
  | some j =>
    obtain ⟨h3, h4, h5⟩ := rfindSig_some hr
    rcases Nat.lt_trichotomy j k with h | h | h
    · exact absurd h1 (h5 k h h0)
    · rw [h]
    · exact absurd h4 (h2 j h h3)

theorem endRec64_true (clamps : Bool) (b : Bytes) (k : Nat)
    (h : ¬ locatorSig <+: b.drop (k - 20)) :
    endRec64 clamps b ((k : Int) - b.length) = .ok true := by
  have key : ∀ i, i = k - 20 → (((b.drop i).take 20).length = 20 →
      ((b.drop i).take 20).take 4 ≠ locatorSig) := by
    intro i hi _ he
    subst hi
    apply h
    rw [← he, List.take_take]
    exact List.take_prefix _ _
  unfold endRec64 seekEnd
  split
  · rfl
  · rename_i i hi
    have : i = k - 20 := by
      split at hi
      · cases hi; omega
      · split at hi
        · cases hi; omega
        · cases hi
    simp only
    by_cases h1 : ((b.drop i).take 20).length = 20
    · rw [if_neg (by simpa using h1), if_pos (key i this h1)]
    · rw [if_pos h1]

/-- `k` is where the last end-of-archive signature of `b` begins. -/
def LastSig (b : Bytes) (k : Nat) : Prop :=
  endSig <+: b.drop k ∧ ∀ j, k < j → ¬ endSig <+: b.drop j

theorem prefix_length {b : Bytes} {k : Nat} (h : endSig <+: b.drop k) : k + 4 ≤ b.length := by
  have := h.length_le
  simp [endSig] at this
  omega

theorem endRecData_at (clamps : Bool) (b : Bytes) (k : Nat) (hk : LastSig b k)
    (hr : k + 22 ≤ b.length) (hc : b.length ≤ k + 65536 + 22) :
    endRecData clamps b = endRec64 clamps b ((k : Int) - b.length) := by
  unfold endRecData
  have hs : seekEnd clamps b (-22) = some (b.length - 22) := by
    unfold seekEnd
    rw [if_pos (by omega)]
    congr 1
    omega
  rw [hs]
  simp only
  split
  · rename_i h
    have h1 : endSig <+: b.drop (b.length - 22) := by
      rw [← h.2.1]; exact List.take_prefix _ _
    have h2 : b.length - 22 = k := by
      rcases Nat.lt_or_ge k (b.length - 22) with h3 | h3
      · exact absurd h1 (hk.2 _ h3)
      · omega
    have h3 : (-22 : Int) = (k : Int) - b.length := by omega
    rw [h3]
  · have h0 : rfindSig endSig (b.drop (b.length - (65536 + 22))) =
        some (k - (b.length - (65536 + 22))) := by
      apply rfindSig_eq
      · simp; omega
      · rw [List.drop_drop]
        have : b.length - (65536 + 22) + (k - (b.length - (65536 + 22))) = k := by omega
        rw [this]; exact hk.1
      · intro j hj _
        rw [List.drop_drop]
        exact hk.2 _ (by omega)
    rw [h0]
    simp only
    rw [List.drop_drop]
    have h1 : b.length - (65536 + 22) + (k - (b.length - (65536 + 22))) = k := by omega
    rw [h1, if_neg (by simp; omega)]
    have h2 : (((b.length - (65536 + 22) : Nat) : Int) + ((k - (b.length - (65536 + 22)) : Nat) : Int) -
        b.length) = (k : Int) - b.length := by omega
    rw [h2]

theorem endRecData_record (clamps : Bool) (b : Bytes) (k : Nat) (hk : LastSig b k)
    (hr : k + 22 ≤ b.length) (hc : b.length ≤ k + 65536 + 22)
    (hl : ¬ locatorSig <+: b.drop (k - 20)) : endRecData clamps b = .ok true := by
  rw [endRecData_at clamps b k hk hr hc]
  exact endRec64_true clamps b k hl

/-- The four bytes at a place of the data, as a number. -/
def numberAt (b : Bytes) (i : Nat) : Option Nat :=
  match (b.drop i).take 4 with
  | [w, x, y, z] => some (w.toNat + 256 * x.toNat + 65536 * y.toNat + 16777216 * z.toNat)
  | _ => none

theorem numberAt_small {b : Bytes} {i n : Nat} (hn : n < 256) :
    numberAt b i = some n ↔ (b.drop i).take 4 = [UInt8.ofNat n, 0, 0, 0] := by
  unfold numberAt
  constructor
  · intro h
    split at h
    · rename_i w x y z he
      rw [he]
      simp only [Option.some.injEq] at h
      have hx : x = 0 := UInt8.toNat.inj (by simp; omega)
      have hy : y = 0 := UInt8.toNat.inj (by simp; omega)
      have hz : z = 0 := UInt8.toNat.inj (by simp; omega)
      have hw : w = UInt8.ofNat n := UInt8.toNat.inj (by simp [hx, hy, hz] at h; simp; omega)
      rw [hw, hx, hy, hz]
    · cases h
  · intro h
    rw [h]
    simp
    omega

/-- What happens with a locator for a ZIP64 record. -/
theorem endRec64_locator (clamps : Bool) (b : Bytes) (k : Nat) (h0 : 76 ≤ k) (hk : k ≤ b.length)
    (h : locatorSig <+: b.drop (k - 20)) :
    endRec64 clamps b ((k : Int) - b.length) =
      if numberAt b (k - 16) = some 0 ∧ (numberAt b (k - 4) = some 0 ∨ numberAt b (k - 4) = some 1) then .ok true
      else .error (.other "BadZipFile") := by
  have hs : seekEnd clamps b ((k : Int) - b.length - 20) = some (k - 20) := by
    unfold seekEnd
    rw [if_pos (by omega)]
    congr 1
    omega
  have hs2 : seekEnd clamps b ((k : Int) - b.length - 76) = some (k - 76) := by
    unfold seekEnd
    rw [if_pos (by omega)]
    congr 1
    omega
  unfold endRec64
  rw [hs, hs2]
  simp only
  rw [if_neg (by simp; omega), if_neg (by
    obtain ⟨r, hr⟩ := h
    rw [← hr]
    simp [locatorSig])]
  have e1 : (((b.drop (k - 20)).take 20).drop 4).take 4 = (b.drop (k - 16)).take 4 := by
    rw [List.drop_take, List.take_take, List.drop_drop]
    congr 2
    omega
  have e2 : ((b.drop (k - 20)).take 20).drop 16 = (b.drop (k - 4)).take 4 := by
    rw [List.drop_take, List.drop_drop]
    congr 2
    omega
  rw [e1, e2]
  have n1 : numberAt b (k - 16) = some 0 ↔ _ := numberAt_small (n := 0) (by decide)
  have n2 : numberAt b (k - 4) = some 0 ↔ _ := numberAt_small (n := 0) (by decide)
  have n3 : numberAt b (k - 4) = some 1 ↔ _ := numberAt_small (n := 1) (by decide)
  have z0 : UInt8.ofNat 0 = 0 := rfl
  have z1 : UInt8.ofNat 1 = 1 := rfl
  rw [z0] at n1 n2
  rw [z1] at n3
  by_cases p : (b.drop (k - 16)).take 4 = [0, 0, 0, 0]
  · by_cases q : (b.drop (k - 4)).take 4 = [0, 0, 0, 0] ∨ (b.drop (k - 4)).take 4 = [1, 0, 0, 0]
    · rw [if_neg (fun h => h.elim (fun h => h p) (fun h => h q)),
        if_pos ⟨n1.2 p, q.imp n2.2 n3.2⟩]
    · rw [if_pos (.inr q), if_neg (fun h => q (h.2.imp n2.1 n3.1))]
  · rw [if_pos (.inl p), if_neg (fun h => p (n1.1 h.1))]

theorem endRecData_none (clamps : Bool) (b : Bytes) (h : ∀ k, ¬ endSig <+: b.drop k) :
    endRecData clamps b = .ok false := by
  unfold endRecData
  split
  · rfl
  · rename_i i _
    simp only
    rw [if_neg]
    · have : rfindSig endSig (b.drop (b.length - (65536 + 22))) = none := by
        rw [rfindSig_none]
        intro k _
        rw [List.drop_drop]
        exact h _
      rw [this]
    · intro hd
      apply h i
      rw [← hd.2.1]
      exact List.take_prefix _ _

/-- A stream with `tell` and `seek` that work. -/
def ByteStream.Usable (s : ByteStream) : Prop :=
  s.hasTell = true ∧ s.hasSeek = true ∧ s.seekable = true

theorem streamTest_usable {s : ByteStream} (h : s.Usable) {r : Bool}
    (hr : endRecData s.clamps s.content = .ok r) : streamTest s = .ok (r, s.pos) := by
  obtain ⟨h1, h2, h3⟩ := h
  simp [streamTest, h1, h2, h3, hr]

/-- The data in the argument, and the position that should be kept. -/
def Holds : StreamArg → Bytes → Nat → Prop
  | .bytes c, b, p => c = b ∧ p = 0
  | .view c, b, p => c = b ∧ p = 0
  | .stream s, b, p => s.content = b ∧ s.pos = p
  | _, _, _ => False

/-- C127 as stated: data that ends with the record of an archive is recognised, data without the
signature is not, and the stream is at its old position. -/
def C127_full : Prop :=
  ∀ (a : StreamArg) (b : Bytes) (p : Nat), Holds a b p →
    (∀ k, LastSig b k → k + 22 ≤ b.length → b.length ≤ k + 65536 + 22 → isZipstream a = .ok (true, p)) ∧
    ((∀ k, ¬ endSig <+: b.drop k) → isZipstream a = .ok (false, p))

/-- C127. An archive is recognised in a stream with `tell` and `seek`, if there is no locator for a
ZIP64 record; and the position is restored. Missing: bytes, other streams, ZIP64. -/
theorem C127_archive_partial (s : ByteStream) (hs : s.Usable) (k : Nat) (hk : LastSig s.content k)
    (hr : k + 22 ≤ s.content.length) (hc : s.content.length ≤ k + 65536 + 22)
    (hl : ¬ locatorSig <+: s.content.drop (k - 20)) :
    isZipstream (.stream s) = .ok (true, s.pos) :=
  streamTest_usable hs (endRecData_record _ _ k hk hr hc hl)

/-- C127. With a locator for a ZIP64 record in front of the record, an archive in one part is recognised, and one
in several raises. -/
theorem C127_zip64 (s : ByteStream) (hs : s.Usable) (k : Nat) (hk : LastSig s.content k)
    (hr : k + 22 ≤ s.content.length) (hc : s.content.length ≤ k + 65536 + 22) (h0 : 76 ≤ k)
    (hl : locatorSig <+: s.content.drop (k - 20)) :
    isZipstream (.stream s) =
      if numberAt s.content (k - 16) = some 0 ∧
          (numberAt s.content (k - 4) = some 0 ∨ numberAt s.content (k - 4) = some 1) then .ok (true, s.pos)
      else .error (.other "BadZipFile") := by
  have h1 := endRecData_at s.clamps s.content k hk hr hc
  rw [endRec64_locator s.clamps s.content k h0 (by omega) hl] at h1
  by_cases hn : numberAt s.content (k - 16) = some 0 ∧
      (numberAt s.content (k - 4) = some 0 ∨ numberAt s.content (k - 4) = some 1)
  · rw [if_pos hn] at h1 ⊢
    exact streamTest_usable hs h1
  · rw [if_neg hn] at h1 ⊢
    obtain ⟨h2, h3, h4⟩ := hs
    simp [isZipstream, streamTest, h1, h2, h3, h4]

/-- C127. Data without the signature is not an archive, and the position is restored. -/
theorem C127_other_partial (s : ByteStream) (hs : s.Usable) (h : ∀ k, ¬ endSig <+: s.content.drop k) :
    isZipstream (.stream s) = .ok (false, s.pos) :=
  streamTest_usable hs (endRecData_none _ _ h)

/-- C127. A buffer is like a stream of its bytes. -/
theorem C127_view (b : Bytes) :
    isZipstream (.view b) = isZipstream (.stream { content := b, pos := 0, clamps := true }) := rfl

theorem endRec64_cases (clamps : Bool) (b : Bytes) (i : Int) :
    endRec64 clamps b i = .ok true ∨ endRec64 clamps b i = .error (.other "BadZipFile") ∨
      endRec64 clamps b i = .error (.other "OSError") := by
  unfold endRec64
  split
  · exact .inl rfl
  · simp only
    split
    · exact .inl rfl
    · split
      · exact .inl rfl
      · split
        · exact .inr (.inl rfl)
        · split
          · exact .inr (.inr rfl)
          · exact .inl rfl

theorem endRecData_cases (clamps : Bool) (b : Bytes) :
    (∃ r, endRecData clamps b = .ok r) ∨ endRecData clamps b = .error (.other "BadZipFile") ∨
      endRecData clamps b = .error (.other "OSError") := by
  unfold endRecData
  split
  · exact .inl ⟨_, rfl⟩
  · simp only
    split
    · rcases endRec64_cases clamps b (-22) with h | h
      · exact .inl ⟨_, h⟩
      · exact .inr h
    · split
      · exact .inl ⟨_, rfl⟩
      · split
        · exact .inl ⟨_, rfl⟩
        · rename_i k _ _
          rcases endRec64_cases clamps b
            (((b.length - (65536 + 22) : Nat) : Int) + (k : Nat) - b.length) with h | h
          · exact .inl ⟨_, h⟩
          · exact .inr h

/-- C127. For a stream with `tell` and `seek` there is an answer and the position is restored, unless
the archive claims to have several parts. -/
theorem C127_rewinds (s : ByteStream) (hs : s.Usable) :
    (∃ r, isZipstream (.stream s) = .ok (r, s.pos)) ∨
      isZipstream (.stream s) = .error (.other "BadZipFile") := by
  rcases endRecData_cases s.clamps s.content with ⟨r, h⟩ | h | h
  · exact .inl ⟨r, streamTest_usable hs h⟩
  · right
    obtain ⟨h1, h2, h3⟩ := hs
    simp [isZipstream, streamTest, h1, h2, h3, h]
  · left
    obtain ⟨h1, h2, h3⟩ := hs
    exact ⟨false, by simp [isZipstream, streamTest, h1, h2, h3, h]⟩

/-- C127. Every other stream raises, although `tell` and `seek` are said to be optional. -/
theorem C127_unusable (s : ByteStream) (hs : ¬ s.Usable) :
    isZipstream (.stream s) = .error .attributeError ∨
      isZipstream (.stream s) = .error (.other "OSError") := by
  unfold ByteStream.Usable at hs
  unfold isZipstream streamTest
  cases h1 : s.hasTell <;> cases h2 : s.hasSeek <;> cases h3 : s.seekable <;> simp_all

/-- C127. Strings and bytes raise, on Python 3. -/
theorem C127_bytes : (∀ b, isZipstream (.bytes b) = .error .typeError) ∧
    isZipstream .str = .error .typeError ∧ isZipstream .other = .error .typeError :=
  ⟨fun _ => rfl, rfl, rfl⟩

/-- C127. The full claim is false: bytes raise. -/
theorem C127_full_fails : ¬ C127_full := by
  intro h
  have := (h (.bytes []) [] 0 ⟨rfl, rfl⟩).2 (by
    intro k hk
    have := hk.length_le
    simp [endSig] at this)
  cases this

/-- An empty archive. -/
def emptyZip : Bytes := endSig ++ List.replicate 18 0

example : isZipstream (.stream { content := 9 :: emptyZip, pos := 5 }) = .ok (true, 5) ∧
    isZipstream (.view (emptyZip ++ [1, 2])) = .ok (true, 0) ∧
    isZipstream (.stream { content := [1, 2, 3], pos := 2 }) = .ok (false, 2) ∧
    isZipstream (.stream { content := emptyZip, pos := 0, hasSeek := false, hasTell := false }) =
      .error .attributeError ∧
    isZipstream (.view (locatorSig ++ [1] ++ List.replicate 15 0 ++ emptyZip)) =
      .error (.other "BadZipFile") := by decide +kernel

/-- An empty archive that says how many parts it is in. -/
def zipOfParts (n : UInt8) : Bytes :=
  List.replicate 56 0 ++ (locatorSig ++ (List.replicate 12 0 ++ (n :: 0 :: 0 :: 0 :: emptyZip)))

example : (∀ n ∈ [0, 1], isZipstream (.stream { content := zipOfParts n, pos := 3 }) = .ok (true, 3)) ∧
    isZipstream (.stream { content := zipOfParts 2, pos := 3 }) = .error (.other "BadZipFile") := by decide +kernel

example : LastSig emptyZip 0 := by
  refine ⟨⟨_, rfl⟩, ?_⟩
  intro j hj h
  have h2 := prefix_length h
  have h3 : j < 22 := by
    have : emptyZip.length = 22 := rfl
    omega
  have : ∀ j : Fin 22, 0 < j.1 → ¬ endSig <+: emptyZip.drop j.1 := by decide
  exact this ⟨j, h3⟩ hj h

/-! ### C128 -/

/-- C128. Whatever has `close` or is a context manager is closed once, after the body, also when
the body raises; the outcome is that of the body, unless closing raises. -/
theorem C128_closes {α : Type} (m : Managed) (hm : m = .manager ∨ m = .closeable) (closes : Res Unit)
    (body : Res α) :
    (withClosing m closes body).2 = [.body, .close] ∧
    (closes = .ok () → (withClosing m closes body).1 = body) ∧
    ∀ e, closes = .error e → (withClosing m closes body).1 = .error e := by
  rcases hm with rfl | rfl <;> cases closes <;> simp [withClosing]

/-- C128. Without `close` nothing is closed; and `None` raises before the body. -/
theorem C128_others {α : Type} (closes : Res Unit) (body : Res α) :
    withClosing .bare closes body = (body, [.body]) ∧
    withClosing .nothing closes body = (.error .attributeError, []) := ⟨rfl, rfl⟩

/-- C128. `zip_file`: a directory is an archive, and anything else that is not one raises. -/
theorem C128_zip_file (kind : Str → PathKind) (fn : Str) :
    (∀ t, kind fn = .directory t → zipFile kind fn = .ok t.archive) ∧
    (∀ r, kind fn = .zip r → zipFile kind fn = r) ∧
    (kind fn = .other → zipFile kind fn = .error (.other "Exception")) := by
  refine ⟨?_, ?_, ?_⟩ <;> intros <;> simp [zipFile, *]

/-- How often archives are opened less how often they are closed. -/
def openCount (fn : Str) (ops : List ZipOp) : Int :=
  (ops.countP fun o => o = .opened fn) - (ops.countP fun o => o = .closed fn)

/-- C128. Whatever the body does, `with open_zip(fn)` leaves nothing open that the body did not
leave open, and has the outcome of the body. -/
theorem C128_with_zip {α : Type} (kind : Str → PathKind) (fn : Str)
    (body : Archive → Res α × List ZipOp) :
    (∀ e, zipFile kind fn = .error e → withZip kind fn body = (.error e, [])) ∧
    ∀ a, zipFile kind fn = .ok a → (withZip kind fn body).1 = (body a).1 ∧
      ∀ g, openCount g (withZip kind fn body).2 = openCount g (body a).2 := by
  refine ⟨fun e h => by rw [withZip, h], fun a h => ⟨by rw [withZip, h], fun g => ?_⟩⟩
  rw [withZip, h]
  simp only [openCount, List.countP_append, List.countP_cons, List.countP_nil, decide_eq_true_eq,
    ZipOp.opened.injEq, ZipOp.closed.injEq, reduceCtorEq, List.cons_append, if_false]
  split <;> simp <;> omega

/-- C128. Comparing two archives by name closes both, in any case. -/
theorem C128_collect (order : List Str → List Str) (kind : Str → PathKind) (left right : Str)
    (g : Groups) :
    (∀ e, zipFile kind left = .error e → collectNamed order kind left right g = (.error e, [])) ∧
    (∀ l e, zipFile kind left = .ok l → zipFile kind right = .error e →
      collectNamed order kind left right g = (.error e, [.opened left, .closed left])) ∧
    ∀ l r, zipFile kind left = .ok l → zipFile kind right = .ok r →
      (collectNamed order kind left right g).2 =
        [.opened left, .opened right, .closed right, .closed left] := by
  refine ⟨?_, ?_, ?_⟩
  · intro e h; simp [collectNamed, withZip, h]
  · intro l e h1 h2; simp [collectNamed, withZip, h1, h2]
  · intro l r h1 h2; simp [collectNamed, withZip, h1, h2]

/-! ### C129 -/

/-- The entries of the events of one kind, in order. -/
def entriesOf (ev : Event) (evs : List (Event × Str)) : List Str :=
  evs.filterMap fun e => if e.1 = ev then some e.2 else none

theorem foldl_put (evs : List (Event × Str)) (g : Groups) :
    evs.foldl Groups.put g =
      { added := g.added.map (· ++ entriesOf .right evs),
        removed := g.removed.map (· ++ entriesOf .left evs),
        altered := g.altered.map (· ++ entriesOf .diff evs),
        same := g.same.map (· ++ entriesOf .same evs) } := by
  induction evs generalizing g with
  | nil => cases g; simp [entriesOf]
  | cons e evs ih =>
    obtain ⟨ev, f⟩ := e
    rw [List.foldl_cons, ih]
    cases ev <;> simp [Groups.put, entriesOf, Function.comp_def, Option.map_map]

/-- C129. Each list gets the entries of its kind, in the order of the events, after what it held; a
list that is not asked for stays out; and if the comparison raises, the lists have what came before. -/
theorem C129_lists (evs : List (Event × Str)) (err : Option PyErr) (g : Groups) :
    collectInto (evs, err) g =
      ({ added := g.added.map (· ++ entriesOf .right evs),
         removed := g.removed.map (· ++ entriesOf .left evs),
         altered := g.altered.map (· ++ entriesOf .diff evs),
         same := g.same.map (· ++ entriesOf .same evs) }, err) := by
  rw [collectInto, foldl_put]

theorem entriesOf_eq (ev : Event) (evs : List (Event × Str)) :
    entriesOf ev evs = (evs.filter fun p => p.1 = ev).map Prod.snd := by
  induction evs with
  | nil => rfl
  | cons e evs ih =>
    unfold entriesOf at ih ⊢
    by_cases h : e.1 = ev <;> simp [h, ih]

/-- C129. With new lists this is `collect_compare_zips` and `collect_compare` of two directories. -/
theorem C129_fresh (order : List Str → List Str) (l r : Archive) (d e : Forest) :
    collectZips order l r = (match collectInto (compareZips order l r) {} with
      | (_, some e) => .error e
      | (g, none) => .ok (g.added.getD [], g.removed.getD [], g.altered.getD [], g.same.getD [])) ∧
    collectDirs d e = (match collectInto (compareDirs d e) {} with
      | (_, some e) => .error e
      | (g, none) => .ok (g.added.getD [], g.removed.getD [], g.altered.getD [], g.same.getD [])) := by
  constructor
  · unfold collectZips
    obtain ⟨evs, err⟩ := compareZips order l r
    rw [C129_lists]
    cases err <;> simp [entriesOf_eq]
  · unfold collectDirs
    obtain ⟨evs, err⟩ := compareDirs d e
    rw [C129_lists]
    cases err <;> simp [entriesOf_eq]

/-- C129. By name, the archives are compared while they are open: the lists are those of comparing
the open archives. -/
theorem C129_named (order : List Str → List Str) (kind : Str → PathKind) (left right : Str)
    (g : Groups) (l r : Archive) (hl : zipFile kind left = .ok l) (hr : zipFile kind right = .ok r)
    (evs : List (Event × Str)) (h : compareZips order l r = (evs, none)) :
    (collectNamed order kind left right g).1 = .ok
      { added := g.added.map (· ++ entriesOf .right evs),
        removed := g.removed.map (· ++ entriesOf .left evs),
        altered := g.altered.map (· ++ entriesOf .diff evs),
        same := g.same.map (· ++ entriesOf .same evs) } := by
  simp [collectNamed, withZip, hl, hr, h, C129_lists]

/-- C129. If the comparison raises, so does collecting. -/
theorem C129_raises (order : List Str → List Str) (kind : Str → PathKind) (left right : Str)
    (g : Groups) (l r : Archive) (hl : zipFile kind left = .ok l) (hr : zipFile kind right = .ok r)
    (evs : List (Event × Str)) (e : PyErr) (h : compareZips order l r = (evs, some e)) :
    (collectNamed order kind left right g).1 = .error e := by
  simp [collectNamed, withZip, hl, hr, h, C129_lists]

/-- An archive file with one entry. -/
def oneEntry (name : String) (b : Bytes) : Archive :=
  { exploded := false, entries := [⟨name.toList, b.length, b.length, crc32 b 0, b⟩] }

example : collectNamed id (fun f => .zip (.ok (oneEntry "x" (if f = ['l'] then [1] else [2])))) ['l'] ['r']
    { removed := none, altered := some [['y']] } =
    (.ok { removed := none, altered := some [['y'], ['x']] },
      [.opened ['l'], .opened ['r'], .closed ['r'], .closed ['l']]) := by decide +kernel

end Javatools
