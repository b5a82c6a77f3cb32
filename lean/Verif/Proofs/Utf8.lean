import Verif.Model.Utf8
import Verif.Spec.ClassFile
/-
Lemmas about the UTF-8 codec model.
-/
namespace Javatools

theorem utf8Step_shorter {bs r : Bytes} {c : Char} (h : utf8Step bs = some (c, r)) :
    r.length < bs.length := by
  unfold utf8Step at h
  split at h
  · simp at h
  · simp only at h
    repeat' split at h
    all_goals first
      | (simp at h; done)
      | (simp only [Option.some.injEq, Prod.mk.injEq] at h; obtain ⟨_, rfl⟩ := h; simp; done)
      | (simp only [Option.some.injEq, Prod.mk.injEq] at h; obtain ⟨_, rfl⟩ := h; simp; omega)

theorem decodeIgnoreAux_fuel (n m : Nat) (bs : Bytes) (hn : bs.length ≤ n) (hm : bs.length ≤ m) :
    decodeIgnoreAux n bs = decodeIgnoreAux m bs := by
  induction n generalizing m bs with
  | zero =>
    have : bs = [] := List.length_eq_zero_iff.1 (by omega)
    subst this; cases m <;> rfl
  | succ n ih =>
    cases bs with
    | nil => cases m <;> rfl
    | cons b r0 =>
      cases m with
      | zero => simp at hm
      | succ m =>
        simp only [decodeIgnoreAux]
        simp only [List.length_cons] at hn hm
        cases h : utf8Step (b :: r0) with
        | none => exact ih m r0 (by omega) (by omega)
        | some p =>
          obtain ⟨c, r⟩ := p
          have := utf8Step_shorter h
          simp only [List.length_cons] at this
          simp only [ih m r (by omega) (by omega)]

theorem decodeStrictAux_fuel (n m : Nat) (bs : Bytes) (hn : bs.length ≤ n) (hm : bs.length ≤ m) :
    decodeStrictAux n bs = decodeStrictAux m bs := by
  induction n generalizing m bs with
  | zero =>
    have : bs = [] := List.length_eq_zero_iff.1 (by omega)
    subst this; cases m <;> rfl
  | succ n ih =>
    cases bs with
    | nil => cases m <;> rfl
    | cons b r0 =>
      cases m with
      | zero => simp at hm
      | succ m =>
        simp only [decodeStrictAux]
        simp only [List.length_cons] at hn hm
        cases h : utf8Step (b :: r0) with
        | none => rfl
        | some p =>
          obtain ⟨c, r⟩ := p
          have := utf8Step_shorter h
          simp only [List.length_cons] at this
          simp only [ih m r (by omega) (by omega)]

@[simp] theorem decodeIgnore_nil : decodeIgnore [] = [] := rfl
@[simp] theorem decodeStrict_nil : decodeStrict [] = some [] := rfl

theorem decodeIgnore_some {bs r : Bytes} {c : Char} (h : utf8Step bs = some (c, r)) :
    decodeIgnore bs = c :: decodeIgnore r := by
  cases bs with
  | nil => simp [utf8Step] at h
  | cons b r0 =>
    have hl := utf8Step_shorter h
    simp only [List.length_cons] at hl
    simp only [decodeIgnore, List.length_cons, decodeIgnoreAux, h]
    rw [decodeIgnoreAux_fuel r0.length r.length r (by omega) (by omega)]

theorem decodeIgnore_none {b : UInt8} {r : Bytes} (h : utf8Step (b :: r) = none) :
    decodeIgnore (b :: r) = decodeIgnore r := by
  simp only [decodeIgnore, List.length_cons, decodeIgnoreAux, h]

theorem decodeStrict_some {bs r : Bytes} {c : Char} (h : utf8Step bs = some (c, r)) :
    decodeStrict bs = (decodeStrict r).map (c :: ·) := by
  cases bs with
  | nil => simp [utf8Step] at h
  | cons b r0 =>
    have hl := utf8Step_shorter h
    simp only [List.length_cons] at hl
    simp only [decodeStrict, List.length_cons, decodeStrictAux, h]
    rw [decodeStrictAux_fuel r0.length r.length r (by omega) (by omega)]

theorem decodeStrict_none {b : UInt8} {r : Bytes} (h : utf8Step (b :: r) = none) :
    decodeStrict (b :: r) = none := by
  simp only [decodeStrict, List.length_cons, decodeStrictAux, h]

theorem toNat_ofNat_lt {n : Nat} (h : n < 256) : (UInt8.ofNat n).toNat = n := by
  simp; omega

theorem char_ofNat_toNat (c : Char) : Char.ofNat c.toNat = c := Char.ofNat_toNat c

theorem char_valid (c : Char) : c.toNat < 0xD800 ∨ (0xDFFF < c.toNat ∧ c.toNat < 0x110000) := by
  have := c.valid
  simpa [UInt32.isValidChar, Nat.isValidChar] using this

/-- Decoding inverts encoding, one character at a time. -/
theorem utf8Step_encodeChar (c : Char) (r : Bytes) :
    utf8Step (encodeChar c ++ r) = some (c, r) := by
  have hv := char_valid c
  unfold encodeChar
  simp only
  generalize hn : c.toNat = n at *
  have hc : Char.ofNat n = c := by rw [← hn]; exact char_ofNat_toNat c
  split
  · have h1 : (UInt8.ofNat n).toNat = n := toNat_ofNat_lt (by omega)
    simp only [List.cons_append, List.nil_append, utf8Step, h1]
    rw [if_pos (by assumption), hc]
  · split
    · have h1 : (UInt8.ofNat (0xC0 + n / 64)).toNat = 0xC0 + n / 64 := toNat_ofNat_lt (by omega)
      have h2 : (UInt8.ofNat (0x80 + n % 64)).toNat = 0x80 + n % 64 := toNat_ofNat_lt (by omega)
      simp only [List.cons_append, List.nil_append, utf8Step, h1, isCont, h2]
      rw [if_neg (by omega), if_neg (by omega), if_pos (by omega), if_pos (by simp; omega)]
      have : (0xC0 + n / 64 - 0xC0) * 64 + (0x80 + n % 64 - 0x80) = n := by omega
      rw [this, hc]
    · split
      · have h1 : (UInt8.ofNat (0xE0 + n / 4096)).toNat = 0xE0 + n / 4096 := toNat_ofNat_lt (by omega)
        have h2 : (UInt8.ofNat (0x80 + n / 64 % 64)).toNat = 0x80 + n / 64 % 64 := toNat_ofNat_lt (by omega)
        have h3 : (UInt8.ofNat (0x80 + n % 64)).toNat = 0x80 + n % 64 := toNat_ofNat_lt (by omega)
        simp only [List.cons_append, List.nil_append, utf8Step, h1, isCont, h2, h3]
        have : (0xE0 + n / 4096 - 0xE0) * 4096 + (0x80 + n / 64 % 64 - 0x80) * 64
            + (0x80 + n % 64 - 0x80) = n := by omega
        rw [if_neg (by omega), if_neg (by omega), if_neg (by omega), if_pos (by omega), this,
          if_pos (by simp; omega), hc]
      · have h1 : (UInt8.ofNat (0xF0 + n / 262144)).toNat = 0xF0 + n / 262144 := toNat_ofNat_lt (by omega)
        have h2 : (UInt8.ofNat (0x80 + n / 4096 % 64)).toNat = 0x80 + n / 4096 % 64 := toNat_ofNat_lt (by omega)
        have h3 : (UInt8.ofNat (0x80 + n / 64 % 64)).toNat = 0x80 + n / 64 % 64 := toNat_ofNat_lt (by omega)
        have h4 : (UInt8.ofNat (0x80 + n % 64)).toNat = 0x80 + n % 64 := toNat_ofNat_lt (by omega)
        simp only [List.cons_append, List.nil_append, utf8Step, h1, isCont, h2, h3, h4]
        have : (0xF0 + n / 262144 - 0xF0) * 262144 + (0x80 + n / 4096 % 64 - 0x80) * 4096
            + (0x80 + n / 64 % 64 - 0x80) * 64 + (0x80 + n % 64 - 0x80) = n := by omega
        rw [if_neg (by omega), if_neg (by omega), if_neg (by omega), if_neg (by omega),
          if_pos (by omega), this, if_pos (by simp; omega), hc]

theorem decodeIgnore_encode_append (s : Str) (r : Bytes) :
    decodeIgnore (encodeUtf8 s ++ r) = s ++ decodeIgnore r := by
  induction s with
  | nil => rfl
  | cons c s ih =>
    simp only [encodeUtf8, List.flatMap_cons, List.append_assoc, List.cons_append] at *
    rw [decodeIgnore_some (utf8Step_encodeChar c _), ih]

theorem decodeIgnore_encode (s : Str) : decodeIgnore (encodeUtf8 s) = s := by
  have := decodeIgnore_encode_append s []
  simpa using this

theorem decodeStrict_encode (s : Str) : decodeStrict (encodeUtf8 s) = some s := by
  induction s with
  | nil => rfl
  | cons c s ih =>
    simp only [encodeUtf8, List.flatMap_cons] at *
    rw [decodeStrict_some (utf8Step_encodeChar c _), ih]
    rfl

theorem encodeUtf8_injective {a b : Str} (h : encodeUtf8 a = encodeUtf8 b) : a = b := by
  rw [← decodeIgnore_encode a, h, decodeIgnore_encode]

/-! ### Modified UTF-8 -/
open Spec

/-- A code unit that is neither NUL nor a surrogate is encoded as plain UTF-8. -/
theorem mutf8Unit_plain {u : Nat} (h0 : u ≠ 0) (h : u < 65536) (hs : ¬ isSurrogate u) :
    mutf8Unit u = encodeChar (Char.ofNat u) := by
  have hv : u.isValidChar := by
    unfold isSurrogate at hs; unfold Nat.isValidChar; omega
  have hn : (Char.ofNat u).toNat = u := by
    unfold Char.ofNat; rw [dif_pos hv]; rfl
  unfold mutf8Unit encodeChar
  simp only [hn]
  by_cases h1 : u < 0x80
  · rw [if_pos ⟨by omega, h1⟩, if_pos h1]
  · rw [if_neg (by omega), if_neg h1]
    by_cases h2 : u < 0x800
    · rw [if_pos h2, if_pos h2]
    · rw [if_neg h2, if_neg h2, if_pos h]

theorem utf8Step_nul (r : Bytes) : utf8Step (mutf8Unit 0 ++ r) = none := by
  simp [mutf8Unit, utf8Step]

theorem surrogate_unit {u : Nat} (hs : isSurrogate u) :
    ∃ a b : UInt8, mutf8Unit u = [0xED, a, b] ∧ 0xA0 ≤ a.toNat ∧ a.toNat ≤ 0xBF ∧ isCont b = true ∧
      a ≠ 0xC0 ∧ b ≠ 0xC0 := by
  unfold isSurrogate at hs
  refine ⟨UInt8.ofNat (0x80 + u / 64 % 64), UInt8.ofNat (0x80 + u % 64), ?_, ?_, ?_, ?_, ?_, ?_⟩
  · unfold mutf8Unit
    rw [if_neg (by omega), if_neg (by omega)]
    have : 0xE0 + u / 4096 = 0xED := by omega
    rw [this]; rfl
  · rw [toNat_ofNat_lt (by omega)]; omega
  · rw [toNat_ofNat_lt (by omega)]; omega
  · unfold isCont; rw [toNat_ofNat_lt (by omega)]; simp; omega
  · intro h; have := congrArg UInt8.toNat h; rw [toNat_ofNat_lt (by omega)] at this
    have h2 : (0xC0 : UInt8).toNat = 192 := rfl
    omega
  · intro h; have := congrArg UInt8.toNat h; rw [toNat_ofNat_lt (by omega)] at this
    have h2 : (0xC0 : UInt8).toNat = 192 := rfl
    omega

theorem utf8Step_cont {b : UInt8} (h : 0x80 ≤ b.toNat ∧ b.toNat ≤ 0xBF) (r : Bytes) :
    utf8Step (b :: r) = none := by
  simp only [utf8Step]
  rw [if_neg (by omega), if_pos (by omega)]

theorem utf8Step_ED {a b : UInt8} (ha : 0xA0 ≤ a.toNat ∧ a.toNat ≤ 0xBF) (hb : isCont b = true)
    (r : Bytes) : utf8Step (0xED :: a :: b :: r) = none := by
  have h0 : (0xED : UInt8).toNat = 0xED := rfl
  simp only [isCont, Bool.and_eq_true, decide_eq_true_eq] at hb
  simp only [utf8Step, h0]
  rw [if_neg (by omega), if_neg (by omega), if_neg (by omega), if_pos (by omega), if_neg]
  simp only [isCont, Bool.and_eq_true, decide_eq_true_eq, Bool.not_eq_true', Bool.and_eq_false_iff,
    decide_eq_false_iff_not]
  omega

theorem decodeIgnore_surrogate {u : Nat} (hs : isSurrogate u) (r : Bytes) :
    decodeIgnore (mutf8Unit u ++ r) = decodeIgnore r := by
  obtain ⟨a, b, h, h1, h2, h3, _, _⟩ := surrogate_unit hs
  have h3' := h3
  simp only [isCont, Bool.and_eq_true, decide_eq_true_eq] at h3'
  rw [h]
  simp only [List.cons_append, List.nil_append]
  rw [decodeIgnore_none (utf8Step_ED ⟨h1, h2⟩ h3 r), decodeIgnore_none (utf8Step_cont ⟨by omega, h2⟩ _),
    decodeIgnore_none (utf8Step_cont h3' _)]

/-- The plain-or-surrogate part of a replaced code unit. -/
def unit0 (u : Nat) : Bytes := if u = 0 then [0] else mutf8Unit u

theorem replace_cons_ne {b : UInt8} (r : Bytes) (h : b ≠ 0xC0) :
    replaceC080 (b :: r) = b :: replaceC080 r := by
  cases r with
  | nil => rfl
  | cons b1 r => rw [replaceC080, if_neg (by simp [h])]

theorem replace_list (l r : Bytes) (h : ∀ b ∈ l, b ≠ 0xC0) :
    replaceC080 (l ++ r) = l ++ replaceC080 r := by
  induction l with
  | nil => rfl
  | cons b l ih =>
    rw [List.cons_append, replace_cons_ne _ (h b (by simp)), ih (fun b hb => h b (by simp [hb]))]
    rfl

theorem mutf8Unit_noC0 {u : Nat} (h0 : u ≠ 0) (h : u < 65536) : ∀ b ∈ mutf8Unit u, b ≠ 0xC0 := by
  have key : ∀ n, n < 256 → n ≠ 0xC0 → UInt8.ofNat n ≠ 0xC0 := by
    intro n hn hne he
    have := congrArg UInt8.toNat he
    rw [toNat_ofNat_lt hn] at this
    exact hne this
  intro b hb
  unfold mutf8Unit at hb
  split at hb
  · simp at hb; subst hb; exact key _ (by omega) (by omega)
  · split at hb
    · simp only [List.mem_cons, List.not_mem_nil, or_false] at hb
      rcases hb with rfl | rfl
      · exact key _ (by omega) (by omega)
      · exact key _ (by omega) (by omega)
    · simp only [List.mem_cons, List.not_mem_nil, or_false] at hb
      rcases hb with rfl | rfl | rfl
      · exact key _ (by omega) (by omega)
      · exact key _ (by omega) (by omega)
      · exact key _ (by omega) (by omega)

theorem replace_mutf8 (us : List Nat) (h : ∀ u ∈ us, u < 65536) :
    replaceC080 (mutf8 us) = us.flatMap unit0 := by
  induction us with
  | nil => rfl
  | cons u us ih =>
    have ih' := ih (fun v hv => h v (by simp [hv]))
    simp only [mutf8, List.flatMap_cons] at *
    by_cases h0 : u = 0
    · subst h0
      have : mutf8Unit 0 = [0xC0, 0x80] := by decide
      rw [this]
      simp only [List.cons_append, List.nil_append, replaceC080, and_self, if_true, ih', unit0]
    · rw [replace_list _ _ (mutf8Unit_noC0 h0 (h u (by simp))), ih']
      simp [unit0, h0]

theorem decodeIgnore_units (us : List Nat) (h : ∀ u ∈ us, u < 65536) :
    decodeIgnore (us.flatMap unit0) =
      (us.filter (fun u => ¬ isSurrogate u)).map Char.ofNat := by
  induction us with
  | nil => rfl
  | cons u us ih =>
    have ih' := ih (fun v hv => h v (by simp [hv]))
    rw [List.flatMap_cons]
    by_cases h0 : u = 0
    · subst h0
      have h1 : utf8Step (unit0 0 ++ us.flatMap unit0) = some (Char.ofNat 0, us.flatMap unit0) := by
        simp [unit0, utf8Step]
      rw [decodeIgnore_some h1, ih', List.filter_cons_of_pos (by decide)]
      rfl
    · by_cases hs : isSurrogate u
      · have : unit0 u = mutf8Unit u := by simp [unit0, h0]
        rw [this, decodeIgnore_surrogate hs, ih', List.filter_cons_of_neg (by simpa using hs)]
      · have : unit0 u = encodeChar (Char.ofNat u) := by
          simp only [unit0, h0, if_false]
          exact mutf8Unit_plain h0 (h u (by simp)) hs
        rw [this, decodeIgnore_some (utf8Step_encodeChar _ _), ih',
          List.filter_cons_of_pos (by simpa using hs)]
        rfl

theorem decodeStrict_mutf8 (us : List Nat) (h : ∀ u ∈ us, u < 65536) :
    decodeStrict (mutf8 us) =
      if ∀ u ∈ us, u ≠ 0 ∧ ¬ isSurrogate u then some (us.map Char.ofNat) else none := by
  induction us with
  | nil => simp [mutf8]
  | cons u us ih =>
    have ih' := ih (fun v hv => h v (by simp [hv]))
    simp only [mutf8, List.flatMap_cons] at *
    by_cases h0 : u = 0
    · subst h0
      have h1 := utf8Step_nul (us.flatMap mutf8Unit)
      have h2 : mutf8Unit 0 = [0xC0, 0x80] := by decide
      rw [h2] at h1 ⊢
      simp only [List.cons_append, List.nil_append] at h1 ⊢
      rw [decodeStrict_none h1, if_neg]
      intro h3
      exact (h3 0 (by simp)).1 rfl
    · by_cases hs : isSurrogate u
      · obtain ⟨a, b, hu, h1, h2, h3, _, _⟩ := surrogate_unit hs
        rw [hu]
        simp only [List.cons_append, List.nil_append]
        rw [decodeStrict_none (utf8Step_ED ⟨h1, h2⟩ h3 _), if_neg]
        intro h4
        exact (h4 u (by simp)).2 hs
      · rw [mutf8Unit_plain h0 (h u (by simp)) hs, decodeStrict_some (utf8Step_encodeChar _ _), ih']
        by_cases hall : ∀ u ∈ us, u ≠ 0 ∧ ¬ isSurrogate u
        · rw [if_pos hall, if_pos]
          · rfl
          · intro v hv
            rcases List.mem_cons.1 hv with rfl | hv
            · exact ⟨h0, hs⟩
            · exact hall v hv
        · rw [if_neg hall, if_neg]
          · rfl
          · intro h4; exact hall (fun v hv => h4 v (by simp [hv]))

end Javatools
