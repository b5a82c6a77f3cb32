import Verif.Model.Manifest
import Verif.Proofs.Utf8
import Verif.Proofs.Dict
/-
Lemmas about writing and reading manifests.
-/
namespace Javatools

/-! ### UTF-8 and ASCII bytes -/

theorem encodeUtf8_nil : encodeUtf8 [] = [] := rfl
theorem encodeUtf8_cons (c : Char) (s : Str) : encodeUtf8 (c :: s) = encodeChar c ++ encodeUtf8 s := by
  simp [encodeUtf8]
theorem encodeUtf8_append (s t : Str) : encodeUtf8 (s ++ t) = encodeUtf8 s ++ encodeUtf8 t := by
  simp [encodeUtf8]

theorem encodeChar_ascii {c : Char} (h : c.toNat < 128) : encodeChar c = [UInt8.ofNat c.toNat] := by
  unfold encodeChar
  simp only
  rw [if_pos h]

theorem encodeChar_ne_nil (c : Char) : encodeChar c ≠ [] := by
  unfold encodeChar
  simp only
  repeat' split
  all_goals simp

/-- The bytes of a character that is not ASCII are not ASCII. -/
theorem encodeChar_high {c : Char} (h : 128 ≤ c.toNat) : ∀ b ∈ encodeChar c, 128 ≤ b.toNat := by
  have hv := char_valid c
  intro b hb
  unfold encodeChar at hb
  simp only at hb
  rw [if_neg (by omega)] at hb
  split at hb
  · simp only [List.mem_cons, List.not_mem_nil, or_false] at hb
    rcases hb with rfl | rfl <;> (rw [toNat_ofNat_lt (by omega)]; omega)
  · split at hb
    · simp only [List.mem_cons, List.not_mem_nil, or_false] at hb
      rcases hb with rfl | rfl | rfl <;> (rw [toNat_ofNat_lt (by omega)]; omega)
    · simp only [List.mem_cons, List.not_mem_nil, or_false] at hb
      rcases hb with rfl | rfl | rfl | rfl <;> (rw [toNat_ofNat_lt (by omega)]; omega)

theorem mem_encodeChar_ascii {c : Char} {b : UInt8} (hb : b.toNat < 128) (h : b ∈ encodeChar c) :
    c.toNat = b.toNat := by
  by_cases hc : c.toNat < 128
  · rw [encodeChar_ascii hc, List.mem_singleton] at h
    rw [h, toNat_ofNat_lt (by omega)]
  · have := encodeChar_high (by omega) b h
    omega

/-- An ASCII byte in encoded text comes from that character. -/
theorem mem_encodeUtf8_ascii {s : Str} {b : UInt8} (hb : b.toNat < 128) (h : b ∈ encodeUtf8 s) :
    ∃ c ∈ s, c.toNat = b.toNat := by
  simp only [encodeUtf8, List.mem_flatMap] at h
  obtain ⟨c, hc, h⟩ := h
  exact ⟨c, hc, mem_encodeChar_ascii hb h⟩

theorem not_mem_encodeUtf8 {s : Str} {c : Char} (hc : c.toNat < 128) (h : c ∉ s) :
    UInt8.ofNat c.toNat ∉ encodeUtf8 s := by
  intro hm
  have hb : (UInt8.ofNat c.toNat).toNat = c.toNat := toNat_ofNat_lt (by omega)
  obtain ⟨d, hd, he⟩ := mem_encodeUtf8_ascii (by omega) hm
  rw [hb] at he
  have : d = c := by rw [← char_ofNat_toNat d, he, char_ofNat_toNat]
  exact h (this ▸ hd)

theorem lf_not_mem {s : Str} (h : '\n' ∉ s) : (10 : UInt8) ∉ encodeUtf8 s :=
  not_mem_encodeUtf8 (c := '\n') (by decide) h
theorem cr_not_mem {s : Str} (h : '\r' ∉ s) : (13 : UInt8) ∉ encodeUtf8 s :=
  not_mem_encodeUtf8 (c := '\r') (by decide) h
theorem colon_not_mem {s : Str} (h : ':' ∉ s) : (58 : UInt8) ∉ encodeUtf8 s :=
  not_mem_encodeUtf8 (c := ':') (by decide) h

/-- Encoded text does not start with a space unless the text does. -/
theorem head_encode_ne_space {s : Str} (h : s.head? ≠ some ' ') : (encodeUtf8 s).head? ≠ some 32 := by
  cases s with
  | nil => simp [encodeUtf8_nil]
  | cons c s =>
    rw [encodeUtf8_cons]
    intro hh
    have hm : (32 : UInt8) ∈ encodeChar c := by
      cases he : encodeChar c with
      | nil => exact absurd he (encodeChar_ne_nil c)
      | cons b bs =>
        rw [he] at hh
        simp only [List.cons_append, List.head?_cons, Option.some.injEq] at hh
        simp [hh]
    have := mem_encodeChar_ascii (by decide) hm
    apply h
    have : c = ' ' := by rw [← char_ofNat_toNat c, this]; rfl
    simp [this]

/-- An ASCII byte splits encoded text at that character. -/
theorem encode_split {t : Str} {a b : Bytes} {x : UInt8} (hx : x.toNat < 128)
    (h : encodeUtf8 t = a ++ x :: b) :
    ∃ t1 t2, t = t1 ++ Char.ofNat x.toNat :: t2 ∧ a = encodeUtf8 t1 ∧ b = encodeUtf8 t2 := by
  induction t generalizing a with
  | nil => simp [encodeUtf8_nil] at h
  | cons c t ih =>
    rw [encodeUtf8_cons] at h
    by_cases hc : c.toNat < 128
    · rw [encodeChar_ascii hc] at h
      cases a with
      | nil =>
        simp only [List.singleton_append, List.nil_append, List.cons.injEq] at h
        refine ⟨[], t, ?_, rfl, h.2.symm⟩
        rw [← h.1, toNat_ofNat_lt (by omega), char_ofNat_toNat]
        rfl
      | cons y a =>
        simp only [List.singleton_append, List.cons_append, List.cons.injEq] at h
        obtain ⟨t1, t2, rfl, rfl, rfl⟩ := ih h.2
        refine ⟨c :: t1, t2, rfl, ?_, rfl⟩
        rw [encodeUtf8_cons, encodeChar_ascii hc, ← h.1]
        rfl
    · have hhigh := encodeChar_high (c := c) (by omega)
      rcases List.append_eq_append_iff.1 h with ⟨a', h1, h2⟩ | ⟨b', h1, h2⟩
      · obtain ⟨t1, t2, rfl, rfl, rfl⟩ := ih h2
        exact ⟨c :: t1, t2, rfl, by rw [encodeUtf8_cons, h1], rfl⟩
      · cases b' with
        | nil =>
          simp only [List.append_nil] at h1
          simp only [List.nil_append] at h2
          obtain ⟨t1, t2, rfl, h4, rfl⟩ := ih (a := []) (by rw [← h2]; rfl)
          refine ⟨c :: t1, t2, rfl, ?_, rfl⟩
          rw [encodeUtf8_cons, ← h4, ← h1, List.append_nil]
        | cons y b' =>
          simp only [List.cons_append, List.cons.injEq] at h2
          have := hhigh y (by rw [h1]; simp)
          rw [← h2.1] at this
          omega

/-- Splitting at the first occurrence is unambiguous. -/
theorem append_cons_inj {α : Type} {a b r s : List α} {x : α} (ha : x ∉ a) (hb : x ∉ b)
    (h : a ++ x :: r = b ++ x :: s) : a = b ∧ r = s := by
  induction a generalizing b with
  | nil =>
    cases b with
    | nil => simpa using h
    | cons y b =>
      simp only [List.nil_append, List.cons_append, List.cons.injEq] at h
      simp [h.1] at hb
  | cons y a ih =>
    cases b with
    | nil =>
      simp only [List.nil_append, List.cons_append, List.cons.injEq] at h
      simp [h.1] at ha
    | cons z b =>
      simp only [List.cons_append, List.cons.injEq] at h
      simp only [List.mem_cons, not_or] at ha hb
      obtain ⟨rfl, h⟩ := h
      obtain ⟨rfl, rfl⟩ := ih ha.2 hb.2 h
      exact ⟨rfl, rfl⟩

/-! ### Folding -/

/-- The two line separators. -/
def IsSep (ls : Str) : Prop := ls = "\n".toList ∨ ls = "\r\n".toList

theorem enc_lf : encodeUtf8 "\n".toList = [10] := by decide
theorem enc_crlf : encodeUtf8 "\r\n".toList = [13, 10] := by decide

/-- The bytes divided into pieces of at most `n` bytes that end with a line feed. -/
inductive Pieces (n : Nat) : Bytes → Prop where
  | nil : Pieces n []
  | cons (p : Bytes) (rest : Bytes) (h : (p ++ [10]).length ≤ n) (hr : Pieces n rest) :
      Pieces n (p ++ 10 :: rest)

theorem Pieces.append {n : Nat} {a b : Bytes} (ha : Pieces n a) (hb : Pieces n b) :
    Pieces n (a ++ b) := by
  induction ha with
  | nil => exact hb
  | cons p rest h _ ih =>
    rw [List.append_assoc]
    exact .cons p _ h ih

theorem Pieces.sep {ls : Str} (hls : IsSep ls) (t : Bytes) (ht : t.length ≤ 70) {rest : Bytes}
    (hr : Pieces 72 rest) : Pieces 72 (t ++ encodeUtf8 ls ++ rest) := by
  rcases hls with rfl | rfl
  · rw [enc_lf, List.append_assoc]
    exact .cons t rest (by simp; omega) hr
  · rw [enc_crlf]
    have := Pieces.cons (n := 72) (t ++ [13]) rest (by simp; omega) hr
    simpa using this

theorem Pieces.cont {ls : Str} (hls : IsSep ls) (fuel : Nat) (kv t : Bytes) (ht : t.length ≤ 70)
    {rest : Bytes} (hr : Pieces 72 rest) :
    Pieces 72 (t ++ contLines (encodeUtf8 ls) fuel kv ++ encodeUtf8 ls ++ rest) := by
  induction fuel generalizing kv t with
  | zero =>
    simp only [contLines, List.append_nil]
    exact .sep hls t ht hr
  | succ fuel ih =>
    simp only [contLines]
    split
    · rw [List.append_nil]; exact .sep hls t ht hr
    · have h1 := ih (kv.drop 69) (32 :: kv.take 69) (by simp; omega)
      have h2 := Pieces.sep hls t ht h1
      simpa [List.append_assoc] using h2

/-- Everything `write_key_val` writes comes in pieces of at most 72 bytes. -/
theorem writeKeyVal_pieces {k v ls : Str} {b : Bytes} (hls : IsSep ls)
    (h : writeKeyVal k v ls = .ok b) : Pieces 72 b := by
  unfold writeKeyVal at h
  simp only at h
  split at h
  · simp at h
  · split at h
    · simp only [Except.ok.injEq] at h
      subst h
      have := Pieces.cont hls ((encodeUtf8 k ++ [58, 32] ++ encodeUtf8 v).drop 70).length
        ((encodeUtf8 k ++ [58, 32] ++ encodeUtf8 v).drop 70)
        ((encodeUtf8 k ++ [58, 32] ++ encodeUtf8 v).take 70)
        (by rw [List.length_take]; omega) .nil
      simpa using this
    · split at h
      · simp at h
      · simp only [Except.ok.injEq] at h
        subst h
        have := Pieces.sep hls (encodeUtf8 k ++ [58, 32] ++ encodeUtf8 v)
          (by simp only [List.length_append, List.length_cons, List.length_nil]; omega) .nil
        simpa using this

theorem writeItems_pieces {s : Section} {ls : Str} {b : Bytes} (hls : IsSep ls)
    (h : writeItems ls s = .ok b) : Pieces 72 b := by
  induction s generalizing b with
  | nil => simp only [writeItems, Except.ok.injEq] at h; subst h; exact .nil
  | cons i s ih =>
    obtain ⟨k, v⟩ := i
    simp only [writeItems] at h
    split at h
    · simp at h
    · rename_i b1 h1
      split at h
      · simp at h
      · rename_i b2 h2
        simp only [Except.ok.injEq] at h
        subst h
        exact (writeKeyVal_pieces hls h1).append (ih h2)

theorem sectionData_pieces {s : Section} {ls : Str} {b : Bytes} (hls : IsSep ls)
    (h : sectionData s ls = .ok b) : Pieces 72 b := by
  unfold sectionData at h
  split at h
  · simp at h
  · rename_i b1 h1
    simp only [Except.ok.injEq] at h
    subst h
    have := Pieces.sep hls [] (by simp) .nil
    exact (writeItems_pieces hls h1).append (by simpa using this)

theorem writeSections_pieces {ss : List Section} {ls : Str} {b : Bytes} (hls : IsSep ls)
    (h : writeSections ls ss = .ok b) : Pieces 72 b := by
  induction ss generalizing b with
  | nil => simp only [writeSections, Except.ok.injEq] at h; subst h; exact .nil
  | cons s ss ih =>
    simp only [writeSections] at h
    split at h
    · simp at h
    · rename_i b1 h1
      split at h
      · simp at h
      · rename_i b2 h2
        simp only [Except.ok.injEq] at h
        subst h
        exact (sectionData_pieces hls h1).append (ih h2)

/-! ### Unfolding -/

/-- Joins continuation lines: removes every line feed followed by a space. -/
def unfoldLines : Bytes → Bytes
  | [] => []
  | [b] => [b]
  | b :: c :: r => if b = 10 ∧ c = 32 then unfoldLines r else b :: unfoldLines (c :: r)

theorem unfoldLines_plain {a : Bytes} (ha : (10 : UInt8) ∉ a) (r : Bytes) :
    unfoldLines (a ++ r) = a ++ unfoldLines r := by
  induction a with
  | nil => rfl
  | cons x a ih =>
    simp only [List.mem_cons, not_or] at ha
    rw [List.cons_append, List.cons_append, ← ih ha.2]
    cases h : a ++ r with
    | nil => rfl
    | cons y b =>
      rw [unfoldLines, if_neg (fun hh => ha.1 hh.1.symm)]

theorem unfoldLines_fold (r : Bytes) : unfoldLines (10 :: 32 :: r) = unfoldLines r := by
  rw [unfoldLines, if_pos ⟨rfl, rfl⟩]

theorem unfoldLines_lf {r : Bytes} (h : r.head? ≠ some 32) : unfoldLines (10 :: r) = 10 :: unfoldLines r := by
  cases r with
  | nil => rfl
  | cons x r =>
    rw [unfoldLines, if_neg]
    rintro ⟨-, rfl⟩
    simp at h

theorem contLines_unfold (fuel : Nat) (kv rest : Bytes) (hf : kv.length ≤ fuel)
    (hkv : (10 : UInt8) ∉ kv) :
    unfoldLines (contLines [10] fuel kv ++ rest) = kv ++ unfoldLines rest := by
  induction fuel generalizing kv with
  | zero =>
    have : kv = [] := List.length_eq_zero_iff.1 (by omega)
    subst this
    rfl
  | succ fuel ih =>
    unfold contLines
    split
    · rename_i h
      have : kv = [] := by simpa using h
      subst this
      rfl
    · rename_i h
      have hne : kv ≠ [] := by simpa using h
      have hlen : 0 < kv.length := List.length_pos_iff.2 hne
      have h1 : (10 : UInt8) ∉ kv.take 69 := fun hm => hkv (List.mem_of_mem_take hm)
      have h2 : (10 : UInt8) ∉ kv.drop 69 := fun hm => hkv (List.mem_of_mem_drop hm)
      simp only [List.cons_append, List.nil_append, List.append_assoc]
      rw [unfoldLines_fold, unfoldLines_plain h1, ih _ (by rw [List.length_drop]; omega) h2,
        ← List.append_assoc, List.take_append_drop]

/-- An attribute that stays in one line when folded text is joined. -/
structure SafeItem (i : Str × Str) : Prop where
  key_colon : ':' ∉ i.1
  key_space : i.1.head? ≠ some ' '
  key_lf : '\n' ∉ i.1
  key_cr : '\r' ∉ i.1
  val_lf : '\n' ∉ i.2
  val_cr : '\r' ∉ i.2

/-- A section of such attributes. -/
def SafeSection (s : Section) : Prop := ∀ i ∈ s, SafeItem i

/-- The unfolded line of an attribute. -/
def plainItem (i : Str × Str) : Bytes := encodeUtf8 i.1 ++ 58 :: 32 :: encodeUtf8 i.2 ++ [10]

theorem writeKeyVal_unfold {k v : Str} {b rest : Bytes} (hs : SafeItem (k, v))
    (h : writeKeyVal k v "\n".toList = .ok b) (hr : rest.head? ≠ some 32) :
    unfoldLines (b ++ rest) = plainItem (k, v) ++ unfoldLines rest := by
  have hk := lf_not_mem hs.key_lf
  have hv := lf_not_mem hs.val_lf
  have hkv : (10 : UInt8) ∉ encodeUtf8 k ++ [58, 32] ++ encodeUtf8 v := by
    simp only [List.mem_append, not_or]
    exact ⟨⟨hk, by decide⟩, hv⟩
  unfold writeKeyVal at h
  simp only [enc_lf] at h
  unfold plainItem
  split at h
  · simp at h
  · split at h
    · simp only [Except.ok.injEq] at h
      subst h
      have h1 : (10 : UInt8) ∉ (encodeUtf8 k ++ [58, 32] ++ encodeUtf8 v).take 70 :=
        fun hm => hkv (List.mem_of_mem_take hm)
      have h2 : (10 : UInt8) ∉ (encodeUtf8 k ++ [58, 32] ++ encodeUtf8 v).drop 70 :=
        fun hm => hkv (List.mem_of_mem_drop hm)
      rw [List.append_assoc, List.append_assoc, unfoldLines_plain h1,
        contLines_unfold _ _ _ (Nat.le_refl _) h2, ← List.append_assoc, List.take_append_drop]
      rw [List.singleton_append, unfoldLines_lf hr]
      simp
    · split at h
      · simp at h
      · simp only [Except.ok.injEq] at h
        subst h
        rw [List.append_assoc, unfoldLines_plain hkv, List.singleton_append, unfoldLines_lf hr]
        simp

/-! ### Carriage returns -/

def noCr (b : Bytes) : Bytes := b.filter fun x => x ≠ 13

theorem noCr_append (a b : Bytes) : noCr (a ++ b) = noCr a ++ noCr b := by simp [noCr]

theorem noCr_of_not_mem {a : Bytes} (h : (13 : UInt8) ∉ a) : noCr a = a := by
  unfold noCr
  rw [List.filter_eq_self]
  intro x hx
  simp only [decide_not, Bool.not_eq_eq_eq_not, Bool.not_true, decide_eq_false_iff_not]
  rintro rfl
  exact h hx

theorem noCr_sep {ls : Str} (h : IsSep ls) : noCr (encodeUtf8 ls) = [10] := by
  rcases h with rfl | rfl
  · rw [enc_lf]; decide
  · rw [enc_crlf]; decide

theorem noCr_contLines {ls : Str} (hls : IsSep ls) (fuel : Nat) (kv : Bytes) (h : (13 : UInt8) ∉ kv) :
    noCr (contLines (encodeUtf8 ls) fuel kv) = contLines [10] fuel kv := by
  induction fuel generalizing kv with
  | zero => rfl
  | succ fuel ih =>
    simp only [contLines]
    split
    · rfl
    · rw [noCr_append, noCr_append, ih _ fun hm => h (List.mem_of_mem_drop hm), noCr_sep hls,
        noCr_of_not_mem]
      simp only [List.mem_cons, not_or]
      exact ⟨by decide, fun hm => h (List.mem_of_mem_take hm)⟩

/-- Without the carriage returns, the separator does not matter. -/
theorem writeKeyVal_noCr {k v ls : Str} {b : Bytes} (hls : IsSep ls) (hs : SafeItem (k, v))
    (h : writeKeyVal k v ls = .ok b) : writeKeyVal k v "\n".toList = .ok (noCr b) := by
  have hk := cr_not_mem hs.key_cr
  have hv := cr_not_mem hs.val_cr
  have hkv : (13 : UInt8) ∉ encodeUtf8 k ++ [58, 32] ++ encodeUtf8 v := by
    simp only [List.mem_append, not_or]
    exact ⟨⟨hk, by decide⟩, hv⟩
  unfold writeKeyVal at h ⊢
  simp only [enc_lf] at h ⊢
  split at h
  · simp at h
  · rename_i h0
    rw [if_neg h0]
    split at h
    · rename_i h1
      rw [if_pos h1]
      simp only [Except.ok.injEq] at h ⊢
      subst h
      rw [noCr_append, noCr_append, noCr_sep hls, noCr_contLines hls _ _
        (fun hm => hkv (List.mem_of_mem_drop hm)), noCr_of_not_mem
        (fun hm => hkv (List.mem_of_mem_take hm))]
    · rename_i h1
      rw [if_neg h1]
      split at h
      · simp at h
      · rename_i h2
        rw [if_neg h2]
        simp only [Except.ok.injEq] at h ⊢
        subst h
        rw [noCr_append, noCr_sep hls, noCr_of_not_mem hkv]

theorem writeItems_noCr {s : Section} {ls : Str} {b : Bytes} (hls : IsSep ls) (hs : SafeSection s)
    (h : writeItems ls s = .ok b) : writeItems "\n".toList s = .ok (noCr b) := by
  induction s generalizing b with
  | nil => simp only [writeItems, Except.ok.injEq] at h ⊢; subst h; rfl
  | cons i s ih =>
    obtain ⟨k, v⟩ := i
    simp only [writeItems] at h ⊢
    split at h
    · simp at h
    · rename_i b1 h1
      rw [writeKeyVal_noCr hls (hs _ (by simp)) h1]
      split at h
      · simp at h
      · rename_i b2 h2
        simp only [Except.ok.injEq] at h
        subst h
        simp only [ih (fun i hi => hs i (by simp [hi])) h2, noCr_append]

theorem sectionData_noCr {s : Section} {ls : Str} {b : Bytes} (hls : IsSep ls) (hs : SafeSection s)
    (h : sectionData s ls = .ok b) : sectionData s "\n".toList = .ok (noCr b) := by
  unfold sectionData at h ⊢
  split at h
  · simp at h
  · rename_i b1 h1
    simp only [Except.ok.injEq] at h
    subst h
    rw [writeItems_noCr hls hs h1, noCr_append, noCr_sep hls, enc_lf]

theorem writeSections_noCr {ss : List Section} {ls : Str} {b : Bytes} (hls : IsSep ls)
    (hs : ∀ s ∈ ss, SafeSection s) (h : writeSections ls ss = .ok b) :
    writeSections "\n".toList ss = .ok (noCr b) := by
  induction ss generalizing b with
  | nil => simp only [writeSections, Except.ok.injEq] at h ⊢; subst h; rfl
  | cons s ss ih =>
    simp only [writeSections] at h ⊢
    split at h
    · simp at h
    · rename_i b1 h1
      rw [sectionData_noCr hls (hs _ (by simp)) h1]
      split at h
      · simp at h
      · rename_i b2 h2
        simp only [Except.ok.injEq] at h
        subst h
        simp only [ih (fun i hi => hs i (by simp [hi])) h2, noCr_append]

/-! ### Injectivity -/

/-- What the sections look like after unfolding. -/
def plainSection (s : Section) : Bytes := s.flatMap plainItem ++ [10]

theorem writeKeyVal_key {k v ls : Str} {b : Bytes} (h : writeKeyVal k v ls = .ok b) :
    0 < (encodeUtf8 k).length ∧ (encodeUtf8 k).length < 69 := by
  unfold writeKeyVal at h
  simp only at h
  split at h
  · simp at h
  · rename_i h0; simpa using h0

/-- What is written starts with the first byte of the key. -/
theorem writeKeyVal_head {k v ls : Str} {b : Bytes} (h : writeKeyVal k v ls = .ok b) :
    b.head? = (encodeUtf8 k).head? := by
  have hk := writeKeyVal_key h
  unfold writeKeyVal at h
  simp only at h
  cases he : encodeUtf8 k with
  | nil => rw [he] at hk; simp at hk
  | cons x t =>
    rw [he] at h
    split at h
    · simp at h
    · split at h
      · simp only [Except.ok.injEq] at h
        subst h
        rfl
      · split at h
        · simp at h
        · simp only [Except.ok.injEq] at h
          subst h
          rfl

theorem writeItems_head {s : Section} {b rest : Bytes} (hs : SafeSection s)
    (h : writeItems "\n".toList s = .ok b) (hr : rest.head? ≠ some 32) :
    (b ++ rest).head? ≠ some 32 := by
  cases s with
  | nil => simp only [writeItems, Except.ok.injEq] at h; subst h; exact hr
  | cons i s =>
    obtain ⟨k, v⟩ := i
    simp only [writeItems] at h
    split at h
    · simp at h
    · rename_i b1 h1
      split at h
      · simp at h
      · rename_i b2 h2
        simp only [Except.ok.injEq] at h
        subst h
        have hh := writeKeyVal_head h1
        have hk := writeKeyVal_key h1
        have hsp := head_encode_ne_space (hs _ (List.mem_cons_self ..)).key_space
        simp only at hsp
        cases hb : b1 with
        | nil =>
          rw [hb] at hh
          cases he : encodeUtf8 k with
          | nil => rw [he] at hk; simp at hk
          | cons x t => rw [he] at hh; simp at hh
        | cons x t =>
          rw [← hh, hb] at hsp
          simpa using hsp

theorem writeItems_unfold {s : Section} {b rest : Bytes} (hs : SafeSection s)
    (h : writeItems "\n".toList s = .ok b) (hr : rest.head? ≠ some 32) :
    unfoldLines (b ++ rest) = s.flatMap plainItem ++ unfoldLines rest := by
  induction s generalizing b with
  | nil => simp only [writeItems, Except.ok.injEq] at h; subst h; rfl
  | cons i s ih =>
    obtain ⟨k, v⟩ := i
    simp only [writeItems] at h
    split at h
    · simp at h
    · rename_i b1 h1
      split at h
      · simp at h
      · rename_i b2 h2
        simp only [Except.ok.injEq] at h
        subst h
        have hs2 : SafeSection s := fun i hi => hs i (by simp [hi])
        rw [List.append_assoc, writeKeyVal_unfold (hs _ (by simp)) h1 (writeItems_head hs2 h2 hr),
          ih hs2 h2, List.flatMap_cons, List.append_assoc]

theorem sectionData_unfold {s : Section} {b rest : Bytes} (hs : SafeSection s)
    (h : sectionData s "\n".toList = .ok b) (hr : rest.head? ≠ some 32) :
    unfoldLines (b ++ rest) = plainSection s ++ unfoldLines rest := by
  unfold sectionData at h
  split at h
  · simp at h
  · rename_i b1 h1
    simp only [Except.ok.injEq] at h
    subst h
    rw [enc_lf, List.append_assoc, writeItems_unfold hs h1 (by simp), List.singleton_append,
      unfoldLines_lf hr]
    simp [plainSection]

theorem sectionData_head {s : Section} {b rest : Bytes} (hs : SafeSection s)
    (h : sectionData s "\n".toList = .ok b) : (b ++ rest).head? ≠ some 32 := by
  unfold sectionData at h
  split at h
  · simp at h
  · rename_i b1 h1
    simp only [Except.ok.injEq] at h
    subst h
    rw [enc_lf, List.append_assoc]
    exact writeItems_head hs h1 (by simp)

theorem writeSections_unfold {ss : List Section} {b : Bytes} (hs : ∀ s ∈ ss, SafeSection s)
    (h : writeSections "\n".toList ss = .ok b) :
    unfoldLines b = ss.flatMap plainSection ∧ b.head? ≠ some 32 := by
  induction ss generalizing b with
  | nil => simp only [writeSections, Except.ok.injEq] at h; subst h; exact ⟨rfl, by simp⟩
  | cons s ss ih =>
    simp only [writeSections] at h
    split at h
    · simp at h
    · rename_i b1 h1
      split at h
      · simp at h
      · rename_i b2 h2
        simp only [Except.ok.injEq] at h
        subst h
        obtain ⟨h3, h4⟩ := ih (fun i hi => hs i (by simp [hi])) h2
        exact ⟨by rw [sectionData_unfold (hs _ (by simp)) h1 h4, h3, List.flatMap_cons],
          sectionData_head (hs _ (by simp)) h1⟩

theorem plainItem_inj {i j : Str × Str} {r1 r2 : Bytes} (hi : SafeItem i) (hj : SafeItem j)
    (h : plainItem i ++ r1 = plainItem j ++ r2) : i = j ∧ r1 = r2 := by
  unfold plainItem at h
  simp only [List.append_assoc, List.cons_append, List.nil_append] at h
  obtain ⟨h1, h2⟩ := append_cons_inj (colon_not_mem hi.key_colon) (colon_not_mem hj.key_colon) h
  simp only [List.cons.injEq, true_and] at h2
  obtain ⟨h3, h4⟩ := append_cons_inj (lf_not_mem hi.val_lf) (lf_not_mem hj.val_lf) h2
  exact ⟨Prod.ext (encodeUtf8_injective h1) (encodeUtf8_injective h3), h4⟩

theorem plainItem_head (i : Str × Str) (hi : SafeItem i) (r : Bytes) :
    (plainItem i ++ r).head? ≠ some 10 := by
  unfold plainItem
  have := lf_not_mem hi.key_lf
  cases h : encodeUtf8 i.1 with
  | nil => simp
  | cons x t =>
    rw [h] at this
    simp only [List.mem_cons, not_or] at this
    simp only [List.cons_append, List.head?_cons, ne_eq, Option.some.injEq]
    exact fun he => this.1 he.symm

theorem plainSection_inj {s t : Section} {r1 r2 : Bytes} (hs : SafeSection s) (ht : SafeSection t)
    (h : plainSection s ++ r1 = plainSection t ++ r2) : s = t ∧ r1 = r2 := by
  induction s generalizing t with
  | nil =>
    cases t with
    | nil => simpa [plainSection] using h
    | cons j t =>
      have := plainItem_head j (ht j (by simp)) (t.flatMap plainItem ++ [10] ++ r2)
      simp only [plainSection, List.flatMap_cons, List.append_assoc, List.flatMap_nil] at h this
      rw [← h] at this
      simp at this
  | cons i s ih =>
    cases t with
    | nil =>
      have := plainItem_head i (hs i (by simp)) (s.flatMap plainItem ++ [10] ++ r1)
      simp only [plainSection, List.flatMap_cons, List.append_assoc, List.flatMap_nil] at h this
      rw [h] at this
      simp at this
    | cons j t =>
      simp only [plainSection, List.flatMap_cons, List.append_assoc] at h
      obtain ⟨rfl, h⟩ := plainItem_inj (hs i (by simp)) (ht j (by simp)) h
      have := ih (t := t) (fun i hi => hs i (by simp [hi])) (fun i hi => ht i (by simp [hi]))
        (by simpa [plainSection] using h)
      exact ⟨by rw [this.1], this.2⟩

theorem plainSections_inj {ss ts : List Section} (hs : ∀ s ∈ ss, SafeSection s)
    (ht : ∀ s ∈ ts, SafeSection s) (h : ss.flatMap plainSection = ts.flatMap plainSection) :
    ss = ts := by
  induction ss generalizing ts with
  | nil =>
    cases ts with
    | nil => rfl
    | cons t ts =>
      simp only [List.flatMap_nil, List.flatMap_cons, plainSection] at h
      have := congrArg List.length h
      simp at this
  | cons s ss ih =>
    cases ts with
    | nil =>
      simp only [List.flatMap_nil, List.flatMap_cons, plainSection] at h
      have := congrArg List.length h
      simp at this
    | cons t ts =>
      simp only [List.flatMap_cons] at h
      obtain ⟨rfl, h2⟩ := plainSection_inj (hs s (by simp)) (ht t (by simp)) h
      rw [ih (ts := ts) (fun i hi => hs i (by simp [hi])) (fun i hi => ht i (by simp [hi])) h2]

/-- Equal bytes, equal sections: one after the other. -/
theorem writeSections_inj {ss ts : List Section} {ls1 ls2 : Str} {b : Bytes} (h1 : IsSep ls1)
    (h2 : IsSep ls2) (hs : ∀ s ∈ ss, SafeSection s) (ht : ∀ s ∈ ts, SafeSection s)
    (hb : writeSections ls1 ss = .ok b) (hc : writeSections ls2 ts = .ok b) : ss = ts := by
  apply plainSections_inj hs ht
  rw [← (writeSections_unfold hs (writeSections_noCr h1 hs hb)).1,
    ← (writeSections_unfold ht (writeSections_noCr h2 ht hc)).1]

theorem writeSections_single (ls : Str) (s : Section) :
    writeSections ls [s] = sectionData s ls := by
  simp only [writeSections]
  cases sectionData s ls <;> simp

theorem sectionData_inj {s t : Section} {ls1 ls2 : Str} {b : Bytes} (h1 : IsSep ls1)
    (h2 : IsSep ls2) (hs : SafeSection s) (ht : SafeSection t)
    (hb : sectionData s ls1 = .ok b) (hc : sectionData t ls2 = .ok b) : s = t := by
  have := writeSections_inj (ss := [s]) (ts := [t]) h1 h2 (by simpa using hs) (by simpa using ht)
    (by rw [writeSections_single]; exact hb) (by rw [writeSections_single]; exact hc)
  simpa using this

/-! ### The whole manifest -/

theorem insertSection_perm (x : Bytes × Section) (l : List (Bytes × Section)) :
    (insertSection x l).Perm (x :: l) := by
  induction l with
  | nil => exact .refl _
  | cons y l ih =>
    simp only [insertSection]
    split
    · exact .refl _
    · exact (List.Perm.cons y ih).trans (.swap x y l)

theorem sort_perm (l acc : List (Bytes × Section)) :
    (l.foldl (fun acc x => insertSection x acc) acc).Perm (l ++ acc) := by
  induction l generalizing acc with
  | nil => exact .refl _
  | cons x l ih =>
    refine (ih _).trans ?_
    refine ((insertSection_perm x acc).append_left l).trans ?_
    exact List.perm_middle

theorem allData_snd {ls : Str} {ss : List Section} {r : List (Bytes × Section)}
    (h : allData ls ss = .ok r) :
    r.map Prod.snd = ss ∧ ∀ p ∈ r, sectionData p.2 ls = .ok p.1 := by
  induction ss generalizing r with
  | nil => simp only [allData, Except.ok.injEq] at h; subst h; simp
  | cons s ss ih =>
    simp only [allData] at h
    split at h
    · simp at h
    · rename_i b hb
      split at h
      · simp at h
      · rename_i r' hr
        simp only [Except.ok.injEq] at h
        subst h
        obtain ⟨h1, h2⟩ := ih hr
        refine ⟨by simp [h1], ?_⟩
        intro p hp
        rcases List.mem_cons.1 hp with rfl | hp
        · exact hb
        · exact h2 p hp

theorem sortedSections_perm {subs : PyDict Str Section} {ss : List Section}
    (h : sortedSections subs = .ok ss) : ss.Perm (subs.map Prod.snd) := by
  unfold sortedSections at h
  split at h
  · simp at h
  · rename_i ds hd
    simp only [Except.ok.injEq] at h
    subst h
    rw [← (allData_snd hd).1]
    have := sort_perm ds []
    rw [List.append_nil] at this
    exact this.map _

/-- What `get_data` writes: the main section and the sections in some order. -/
theorem getData_sections {m : Manifest} {a : Option Str} {b : Bytes} (h : m.getData a = .ok b) :
    ∃ ss, sortedSections m.subs = .ok ss ∧
      writeSections (orLinesep a m.linesep) (m.main :: ss) = .ok b := by
  unfold Manifest.getData at h
  simp only at h
  split at h
  · simp at h
  · rename_i b1 h1
    split at h
    · simp at h
    · rename_i ss h2
      split at h
      · simp at h
      · rename_i b2 h3
        simp only [Except.ok.injEq] at h
        subst h
        exact ⟨ss, h2, by simp only [writeSections, h1, h3]⟩

/-! ### What parsing produces -/

/-- A character that `parse_sections` lets through. -/
def CleanChar (c : Char) : Prop := isLineBreak c = false ∧ c ≠ '\x00'

instance : DecidablePred CleanChar := fun c =>
  inferInstanceAs (Decidable (isLineBreak c = false ∧ c ≠ '\x00'))

structure CleanKey (k : Str) : Prop where
  colon : ':' ∉ k
  space : k.head? ≠ some ' '
  chars : ∀ c ∈ k, CleanChar c

def CleanRaw (i : RawItem) : Prop := CleanKey i.1 ∧ ∀ v ∈ i.2, ∀ c ∈ v, CleanChar c

structure CleanItem (i : Str × Str) : Prop where
  key : CleanKey i.1
  short : i.1.length ≤ 68
  val : ∀ c ∈ i.2, CleanChar c

theorem CleanItem.safe {i : Str × Str} (h : CleanItem i) : SafeItem i where
  key_colon := h.key.colon
  key_space := h.key.space
  key_lf := fun hm => absurd (h.key.chars _ hm).1 (by decide)
  key_cr := fun hm => absurd (h.key.chars _ hm).1 (by decide)
  val_lf := fun hm => absurd (h.val _ hm).1 (by decide)
  val_cr := fun hm => absurd (h.val _ hm).1 (by decide)

theorem splitLinesAux_noBreak (acc s : Str) (ha : ∀ c ∈ acc, isLineBreak c = false) :
    ∀ l ∈ splitLinesAux acc s, ∀ c ∈ l, isLineBreak c = false := by
  fun_induction splitLinesAux acc s with
  | case1 acc h => simp
  | case2 acc h => simpa using ha
  | case3 acc c h => simpa using ha
  | case4 acc c h =>
    intro l hl d hd
    simp only [List.mem_singleton] at hl
    subst hl
    simp only [List.mem_reverse, List.mem_cons] at hd
    rcases hd with rfl | hd
    · simpa using h
    · exact ha d hd
  | case5 acc c d cs h ih =>
    intro l hl
    rcases List.mem_cons.1 hl with rfl | hl
    · simpa using ha
    · exact ih (by simp) l hl
  | case6 acc c d cs h1 h2 ih =>
    intro l hl
    rcases List.mem_cons.1 hl with rfl | hl
    · simpa using ha
    · exact ih (by simp) l hl
  | case7 acc c d cs h1 h2 ih =>
    refine ih ?_
    intro e he
    rcases List.mem_cons.1 he with rfl | he
    · simpa using h2
    · exact ha e he

theorem splitLines_noBreak (s : Str) : ∀ l ∈ splitLines s, ∀ c ∈ l, isLineBreak c = false :=
  splitLinesAux_noBreak [] s (by simp)

theorem splitFirst_eq {x : Char} {s a b : Str} (h : splitFirst x s = some (a, b)) :
    s = a ++ x :: b ∧ x ∉ a := by
  induction s generalizing a with
  | nil => simp [splitFirst] at h
  | cons c s ih =>
    simp only [splitFirst] at h
    split at h
    · rename_i hc
      simp only [Option.some.injEq, Prod.mk.injEq] at h
      obtain ⟨rfl, rfl⟩ := h
      simp [hc]
    · rename_i hc
      rw [Option.map_eq_some_iff] at h
      obtain ⟨⟨p, q⟩, h1, h2⟩ := h
      simp only [Prod.mk.injEq] at h2
      obtain ⟨rfl, rfl⟩ := h2
      obtain ⟨rfl, h3⟩ := ih h1
      refine ⟨rfl, ?_⟩
      simp only [List.mem_cons, not_or]
      exact ⟨fun e => hc e.symm, h3⟩

theorem mem_appendLast {x : Str} {is : List RawItem} {i : RawItem} (h : i ∈ appendLast x is) :
    i ∈ is ∨ ∃ j ∈ is, i = (j.1, j.2 ++ [x]) := by
  fun_induction appendLast x is with
  | case1 => simp at h
  | case2 k vs =>
    simp only [List.mem_singleton] at h
    exact .inr ⟨(k, vs), by simp, h⟩
  | case3 j is _ ih =>
    rcases List.mem_cons.1 h with rfl | h
    · exact .inl (by simp)
    · rcases ih h with h | ⟨j', hj, h⟩
      · exact .inl (by simp [h])
      · exact .inr ⟨j', by simp [hj], h⟩

theorem parseLines_clean (lines : List Str) (curr : List RawItem)
    (hl : ∀ l ∈ lines, ∀ c ∈ l, isLineBreak c = false) (hc : ∀ i ∈ curr, CleanRaw i) :
    ∀ sec ∈ (parseLines curr lines).1, sec ≠ [] ∧ ∀ i ∈ sec, CleanRaw i := by
  induction lines generalizing curr with
  | nil =>
    intro sec hs
    simp only [parseLines] at hs
    split at hs
    · simp at hs
    · rename_i hne
      simp only [List.mem_singleton] at hs
      subst hs
      exact ⟨by simpa using hne, hc⟩
  | cons line lines ih =>
    have hl2 : ∀ l ∈ lines, ∀ c ∈ l, isLineBreak c = false := fun l h => hl l (by simp [h])
    have hline : ∀ c ∈ line.filter (fun c => c ≠ '\x00'), CleanChar c := by
      intro c hcm
      rw [List.mem_filter] at hcm
      exact ⟨hl line (by simp) c hcm.1, by simpa using hcm.2⟩
    intro sec hs
    simp only [parseLines] at hs
    split at hs
    · split at hs
      · exact ih [] hl2 (by simp) sec hs
      · rename_i hne
        rcases List.mem_cons.1 hs with rfl | hs
        · exact ⟨by simpa using hne, hc⟩
        · exact ih [] hl2 (by simp) sec hs
    · rename_i c cs hclean
      rw [hclean] at hline
      split at hs
      · split at hs
        · simp at hs
        · refine ih _ hl2 ?_ sec hs
          intro i hi
          rcases mem_appendLast hi with hi | ⟨j, hj, rfl⟩
          · exact hc i hi
          · refine ⟨(hc j hj).1, ?_⟩
            intro v hv
            rcases List.mem_append.1 hv with hv | hv
            · exact (hc j hj).2 v hv
            · simp only [List.mem_singleton] at hv
              subst hv
              intro d hd
              exact hline d (by simp [hd])
      · rename_i hsp
        split at hs
        · simp at hs
        · rename_i key val hsplit
          obtain ⟨h1, h2⟩ := splitFirst_eq hsplit
          refine ih _ hl2 ?_ sec hs
          intro i hi
          rcases List.mem_append.1 hi with hi | hi
          · exact hc i hi
          · simp only [List.mem_singleton] at hi
            subst hi
            refine ⟨⟨h2, ?_, ?_⟩, ?_⟩
            · cases key with
              | nil => simp
              | cons d key =>
                simp only [List.cons_append, List.cons.injEq] at h1
                simp only [List.head?_cons, ne_eq, Option.some.injEq]
                rw [← h1.1]
                exact hsp
            · intro d hd
              exact hline d (by rw [h1]; simp [hd])
            · intro v hv
              simp only [List.mem_singleton] at hv
              subst hv
              intro d hd
              exact hline d (by rw [h1]; simp [List.mem_of_mem_tail hd])

theorem mem_setItem {κ ν : Type} [DecidableEq κ] {d : PyDict κ ν} {k : κ} {v : ν} {p : κ × ν}
    (h : p ∈ PyDict.set d k v) : p ∈ d ∨ p = (k, v) := by
  induction d with
  | nil => simp only [PyDict.set, List.mem_singleton] at h; exact .inr h
  | cons q d ih =>
    obtain ⟨k', v'⟩ := q
    simp only [PyDict.set] at h
    split at h
    · rename_i hk
      rcases List.mem_cons.1 h with rfl | h
      · exact .inr (by rw [hk])
      · exact .inl (by simp [h])
    · rcases List.mem_cons.1 h with rfl | h
      · exact .inl (by simp)
      · rcases ih h with h | h
        · exact .inl (by simp [h])
        · exact .inr h

theorem setItem_ok {s t : Section} {k v : Str} (h : setItem s k v = .ok t) :
    k.length ≤ 68 ∧ t = PyDict.set s k v := by
  unfold setItem at h
  split at h
  · simp at h
  · simp only [Except.ok.injEq] at h
    exact ⟨by omega, h.symm⟩

/-- Loading keeps a section clean, keeps its keys distinct, and keeps the attributes it had. -/
theorem loadItems_clean {s t : Section} {items : List RawItem} (hs : ∀ i ∈ s, CleanItem i)
    (hn : (PyDict.keys s).Nodup) (hi : ∀ i ∈ items, CleanRaw i) (h : loadItems s items = .ok t) :
    (∀ i ∈ t, CleanItem i) ∧ (PyDict.keys t).Nodup ∧ ∃ more, PyDict.keys t = PyDict.keys s ++ more := by
  induction items generalizing s with
  | nil =>
    simp only [loadItems, Except.ok.injEq] at h
    subst h
    exact ⟨hs, hn, [], by simp⟩
  | cons i items ih =>
    obtain ⟨k, vs⟩ := i
    simp only [loadItems] at h
    split at h
    · simp at h
    · rename_i s' hset
      obtain ⟨hk, rfl⟩ := setItem_ok hset
      have hraw := hi (k, vs) (by simp)
      have := ih (s := PyDict.set s k vs.flatten) ?_ (PyDict.nodup_keys_set s k _ hn)
        (fun i h => hi i (by simp [h])) h
      · refine ⟨this.1, this.2.1, ?_⟩
        obtain ⟨more, hm⟩ := this.2.2
        rw [PyDict.keys_set] at hm
        split at hm
        · exact ⟨more, hm⟩
        · exact ⟨k :: more, by rw [hm]; simp⟩
      · intro j hj
        rcases mem_setItem hj with hj | rfl
        · exact hs j hj
        · refine ⟨hraw.1, hk, ?_⟩
          intro c hc
          simp only [List.mem_flatten] at hc
          obtain ⟨v, hv, hc⟩ := hc
          exact hraw.2 v hv c hc

/-- A clean section that has its name. -/
structure CleanSub (s : Section) : Prop where
  items : ∀ i ∈ s, CleanItem i
  nodup : (PyDict.keys s).Nodup
  named : ∃ v rest, s = (kName, v) :: rest

theorem cleanKey_name : CleanKey kName := ⟨by decide, by decide, by decide⟩

theorem cleanSub_new {name : Str} (h : ∀ c ∈ name, CleanChar c) : CleanSub (newSection name) where
  items := by
    intro i hi
    simp only [newSection, List.mem_singleton] at hi
    subst hi
    exact ⟨cleanKey_name, show kName.length ≤ 68 by decide, h⟩
  nodup := by simp [newSection, PyDict.keys]
  named := ⟨name, [], rfl⟩

theorem keys_head {κ ν : Type} {d e : PyDict κ ν} {k : κ} {v : ν} {rest : PyDict κ ν}
    {more : List κ} (hd : d = (k, v) :: rest) (he : PyDict.keys e = PyDict.keys d ++ more) :
    ∃ v' rest', e = (k, v') :: rest' := by
  subst hd
  cases e with
  | nil => simp [PyDict.keys] at he
  | cons p e =>
    obtain ⟨k', v'⟩ := p
    simp only [PyDict.keys, List.map_cons, List.cons_append, List.cons.injEq] at he
    exact ⟨v', e, by rw [he.1]⟩

/-- Sub sections of a parsed manifest. -/
structure CleanSubs (subs : PyDict Str Section) : Prop where
  nodup : (PyDict.keys subs).Nodup
  clean : ∀ p ∈ subs, CleanSub p.2 ∧ p.1 = primary p.2

theorem loadSubs_clean {subs subs' : PyDict Str Section} {secs : List (List RawItem)}
    (hs : CleanSubs subs) (hi : ∀ sec ∈ secs, ∀ i ∈ sec, CleanRaw i)
    (h : loadSubs subs secs = .ok subs') : CleanSubs subs' := by
  induction secs generalizing subs with
  | nil => simp only [loadSubs, Except.ok.injEq] at h; subst h; exact hs
  | cons items secs ih =>
    simp only [loadSubs] at h
    split at h
    · simp at h
    · rename_i s hload
      refine ih ?_ (fun sec h => hi sec (by simp [h])) h
      have hnew : CleanSub (newSection "None".toList) := cleanSub_new (by decide)
      obtain ⟨h1, h2, more, h3⟩ := loadItems_clean hnew.items hnew.nodup (hi items (by simp)) hload
      refine ⟨PyDict.nodup_keys_set _ _ _ hs.nodup, ?_⟩
      intro p hp
      rcases mem_setItem hp with hp | rfl
      · exact hs.clean p hp
      · exact ⟨⟨h1, h2, keys_head rfl h3⟩, rfl⟩

/-- A manifest as parsing leaves it. -/
structure CleanManifest (pk : Str) (m : Manifest) : Prop where
  items : ∀ i ∈ m.main, CleanItem i
  nodup : (PyDict.keys m.main).Nodup
  head : ∃ v rest, m.main = (pk, v) :: rest
  subs : CleanSubs m.subs
  sep : ∃ ls, m.linesep = some ls ∧ IsSep ls

theorem parse_clean {pk : Str} {m m' : Manifest} {data : Bytes} (hi : ∀ i ∈ m.main, CleanItem i)
    (hn : (PyDict.keys m.main).Nodup) (hh : ∃ v rest, m.main = (pk, v) :: rest)
    (hs : CleanSubs m.subs) (h : m.parse data = .ok m') : CleanManifest pk m' := by
  unfold Manifest.parse at h
  simp only at h
  have hclean := parseLines_clean (splitLines (decodeIgnore data)) []
    (splitLines_noBreak _) (by simp)
  unfold parseSections at h
  split at h
  · simp at h
  · simp at h
  · rename_i first rest err hp
    rw [hp] at hclean
    split at h
    · simp at h
    · rename_i main hmain
      split at h
      · simp at h
      · rename_i subs hsubs
        split at h
        · simp at h
        · simp only [Except.ok.injEq] at h
          subst h
          obtain ⟨h1, h2, more, h3⟩ := loadItems_clean hi hn (hclean first (by simp)).2 hmain
          obtain ⟨v, rest', hh⟩ := hh
          refine ⟨h1, h2, keys_head hh h3,
            loadSubs_clean hs (fun sec h => (hclean sec (by simp [h])).2) hsubs, ?_⟩
          refine ⟨_, rfl, ?_⟩
          unfold detectLinesep
          split
          · exact .inr rfl
          · exact .inl rfl

end Javatools
