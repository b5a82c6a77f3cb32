import Verif.Model.DistDiff
import Verif.Spec.TextLines
import Verif.Proofs.Utf8
/-
Lines of texts and their encoding.
-/
namespace Javatools
open Spec

theorem uint8_ofNat_toNat (b : UInt8) (n : Nat) (h : n = b.toNat) : UInt8.ofNat n = b := by
  subst h; simp

theorem char_toNat_ofNat {n : Nat} (h : n < 0xD800 ∨ (0xDFFF < n ∧ n < 0x110000)) :
    (Char.ofNat n).toNat = n := by
  have : n.isValidChar := by simpa [Nat.isValidChar] using h
  simp [Char.ofNat, this, Char.toNat, Char.ofNatAux]

/-- Decoding one character inverts its encoding. -/
theorem utf8Step_some {bs r : Bytes} {c : Char} (h : utf8Step bs = some (c, r)) :
    bs = encodeChar c ++ r := by
  cases bs with
  | nil => cases h
  | cons b0 r0 =>
  have hb0 := b0.toNat_lt
  simp only [utf8Step] at h
  by_cases c1 : b0.toNat < 0x80
  · rw [if_pos c1] at h
    simp only [Option.some.injEq, Prod.mk.injEq] at h
    obtain ⟨rfl, rfl⟩ := h
    have e := char_toNat_ofNat (n := b0.toNat) (by omega)
    unfold encodeChar
    simp only [e]
    rw [if_pos c1, uint8_ofNat_toNat b0 _ rfl]
    rfl
  rw [if_neg c1] at h
  by_cases c2 : b0.toNat < 0xC2
  · rw [if_pos c2] at h; cases h
  rw [if_neg c2] at h
  by_cases c3 : b0.toNat ≤ 0xDF
  · rw [if_pos c3] at h
    cases r0 with
    | nil => cases h
    | cons b1 r1 =>
      simp only at h
      by_cases hc : isCont b1 = true
      · rw [if_pos hc] at h
        simp only [isCont, Bool.and_eq_true, decide_eq_true_eq] at hc
        simp only [Option.some.injEq, Prod.mk.injEq] at h
        obtain ⟨rfl, rfl⟩ := h
        generalize hn : (b0.toNat - 0xC0) * 64 + (b1.toNat - 0x80) = n
        have e := char_toNat_ofNat (n := n) (by omega)
        unfold encodeChar
        simp only [e]
        rw [if_neg (by omega), if_pos (by omega), uint8_ofNat_toNat b0 _ (by omega),
          uint8_ofNat_toNat b1 _ (by omega)]
        rfl
      · rw [if_neg hc] at h; cases h
  rw [if_neg c3] at h
  by_cases c4 : b0.toNat ≤ 0xEF
  · rw [if_pos c4] at h
    match r0, h with
    | [], h => cases h
    | [_], h => cases h
    | b1 :: b2 :: r2, h =>
      simp only at h
      split at h
      · rename_i hc
        simp only [isCont, Bool.and_eq_true, decide_eq_true_eq, Bool.not_eq_true',
          Bool.and_eq_false_iff, decide_eq_false_iff_not] at hc
        simp only [Option.some.injEq, Prod.mk.injEq] at h
        obtain ⟨rfl, rfl⟩ := h
        generalize hn : (b0.toNat - 0xE0) * 4096 + (b1.toNat - 0x80) * 64 + (b2.toNat - 0x80) = n at *
        have e := char_toNat_ofNat (n := n) (by omega)
        unfold encodeChar
        simp only [e]
        rw [if_neg (by omega), if_neg (by omega), if_pos (by omega), uint8_ofNat_toNat b0 _ (by omega),
          uint8_ofNat_toNat b1 _ (by omega), uint8_ofNat_toNat b2 _ (by omega)]
        rfl
      · cases h
  rw [if_neg c4] at h
  by_cases c5 : b0.toNat ≤ 0xF4
  · rw [if_pos c5] at h
    match r0, h with
    | [], h => cases h
    | [_], h => cases h
    | [_, _], h => cases h
    | b1 :: b2 :: b3 :: r3, h =>
      simp only at h
      split at h
      · rename_i hc
        simp only [isCont, Bool.and_eq_true, decide_eq_true_eq] at hc
        simp only [Option.some.injEq, Prod.mk.injEq] at h
        obtain ⟨rfl, rfl⟩ := h
        generalize hn : (b0.toNat - 0xF0) * 262144 + (b1.toNat - 0x80) * 4096 + (b2.toNat - 0x80) * 64
          + (b3.toNat - 0x80) = n at *
        have e := char_toNat_ofNat (n := n) (by omega)
        unfold encodeChar
        simp only [e]
        rw [if_neg (by omega), if_neg (by omega), if_neg (by omega), uint8_ofNat_toNat b0 _ (by omega),
          uint8_ofNat_toNat b1 _ (by omega), uint8_ofNat_toNat b2 _ (by omega),
          uint8_ofNat_toNat b3 _ (by omega)]
        rfl
      · cases h
  · rw [if_neg c5] at h; cases h

/-- The strict decoder accepts exactly the encodings. -/
theorem decodeStrict_iff (bs : Bytes) (s : Str) : decodeStrict bs = some s ↔ bs = encodeUtf8 s := by
  refine ⟨fun h => ?_, fun h => by rw [h, decodeStrict_encode]⟩
  generalize hn : bs.length = n
  induction n using Nat.strongRecOn generalizing bs s with
  | ind n ih =>
    cases bs with
    | nil =>
      rw [decodeStrict_nil, Option.some.injEq] at h
      subst h; rfl
    | cons b bs =>
      cases hs : utf8Step (b :: bs) with
      | none => rw [decodeStrict_none hs] at h; cases h
      | some p =>
        obtain ⟨c, r⟩ := p
        rw [decodeStrict_some hs] at h
        have hlen := utf8Step_shorter hs
        cases hr : decodeStrict r with
        | none => rw [hr] at h; cases h
        | some t =>
          rw [hr] at h
          simp only [Option.map_some, Option.some.injEq] at h
          subst h
          rw [utf8Step_some hs, ih r.length (by omega) r t hr rfl]
          rfl

/-! ### Lines -/

/-- Every text has lines. -/
theorem isLines_exists (s : Str) : ∃ ls, IsLines s ls := by
  generalize hn : s.length = n
  induction n using Nat.strongRecOn generalizing s with
  | ind n ih =>
    by_cases h : ∀ c ∈ s, c ≠ '\n' ∧ c ≠ '\r'
    · exact ⟨_, .last s h⟩
    · -- the first separator
      have : ∃ x d t, s = x ++ d :: t ∧ (∀ c ∈ x, c ≠ '\n' ∧ c ≠ '\r') ∧ (d = '\n' ∨ d = '\r') := by
        clear ih hn
        induction s with
        | nil => simp at h
        | cons c s ih =>
          by_cases hc : c = '\n' ∨ c = '\r'
          · exact ⟨[], c, s, rfl, by simp, hc⟩
          · have hs : ¬ ∀ c ∈ s, c ≠ '\n' ∧ c ≠ '\r' := by
              intro hs
              apply h
              intro d hd
              rcases List.mem_cons.1 hd with rfl | hd
              · exact ⟨fun e => hc (.inl e), fun e => hc (.inr e)⟩
              · exact hs d hd
            obtain ⟨x, d, t, h1, h2, h3⟩ := ih hs
            refine ⟨c :: x, d, t, by rw [h1]; rfl, ?_, h3⟩
            intro e he
            rcases List.mem_cons.1 he with rfl | he
            · exact ⟨fun e => hc (.inl e), fun e => hc (.inr e)⟩
            · exact h2 e he
      obtain ⟨x, d, t, rfl, hx, hd⟩ := this
      simp only [List.length_append, List.length_cons] at hn
      rcases hd with rfl | rfl
      · obtain ⟨ls, hls⟩ := ih t.length (by omega) t rfl
        exact ⟨_, .lf x hx hls⟩
      · cases t with
        | nil =>
          obtain ⟨ls, hls⟩ := ih 0 (by omega) [] rfl
          exact ⟨_, .cr x hx hls (by simp)⟩
        | cons e t =>
          by_cases he : e = '\n'
          · subst he
            simp only [List.length_cons] at hn
            obtain ⟨ls, hls⟩ := ih t.length (by omega) t rfl
            exact ⟨_, .crlf x hx hls⟩
          · obtain ⟨ls, hls⟩ := ih (e :: t).length (by omega) (e :: t) rfl
            exact ⟨_, .cr x hx hls (by simpa using he)⟩

/-- Lines put back together. -/
def joinLines : List Str → Str
  | [] => []
  | [x] => x
  | x :: y :: ls => x ++ '\n' :: joinLines (y :: ls)

theorem universal_plain (x s : Str) (h : ∀ c ∈ x, c ≠ '\n' ∧ c ≠ '\r') :
    universalNewlines (x ++ s) = x ++ universalNewlines s := by
  induction x with
  | nil => rfl
  | cons c x ih =>
    have hc : c ≠ '\r' := (h c (by simp)).2
    have ih := ih fun d hd => h d (by simp [hd])
    cases hx : x ++ s with
    | nil =>
      have : x = [] ∧ s = [] := by simpa using hx
      obtain ⟨rfl, rfl⟩ := this
      simp [universalNewlines, hc]
    | cons d t =>
      rw [List.cons_append, hx, universalNewlines, if_neg hc, ← hx, ih]
      rfl

theorem isLines_ne {s : Str} {ls : List Str} (h : IsLines s ls) : ls ≠ [] := by cases h <;> simp

theorem joinLines_cons (x : Str) {ls : List Str} (h : ls ≠ []) :
    joinLines (x :: ls) = x ++ '\n' :: joinLines ls := by
  cases ls with
  | nil => exact absurd rfl h
  | cons y ls => rfl

/-- Reading in text mode gives the lines with LF in between. -/
theorem universal_lines {s : Str} {ls : List Str} (h : IsLines s ls) :
    universalNewlines s = joinLines ls := by
  induction h with
  | last x h =>
    have := universal_plain x [] h
    simpa [universalNewlines, joinLines] using this
  | @lf x h s ls hs ih =>
    rw [universal_plain x _ h, joinLines_cons x (isLines_ne hs), ← ih]
    cases s with
    | nil => simp [universalNewlines]
    | cons d t => rw [universalNewlines, if_neg (by decide)]
  | @crlf x h s ls hs ih =>
    rw [universal_plain x _ h, joinLines_cons x (isLines_ne hs), ← ih, universalNewlines, if_pos rfl,
      if_pos rfl]
  | @cr x h s ls hs hn ih =>
    rw [universal_plain x _ h, joinLines_cons x (isLines_ne hs), ← ih]
    cases s with
    | nil => simp [universalNewlines]
    | cons d t =>
      have : d ≠ '\n' := by simpa using hn
      rw [universalNewlines, if_pos rfl, if_neg this]

theorem isLines_noLf {s : Str} {ls : List Str} (h : IsLines s ls) : ∀ x ∈ ls, '\n' ∉ x := by
  induction h with
  | last x h => simp only [List.mem_singleton, forall_eq]; exact fun hm => (h _ hm).1 rfl
  | lf x h hs ih =>
    intro y hy
    rcases List.mem_cons.1 hy with rfl | hy
    · exact fun hm => (h _ hm).1 rfl
    · exact ih y hy
  | crlf x h hs ih =>
    intro y hy
    rcases List.mem_cons.1 hy with rfl | hy
    · exact fun hm => (h _ hm).1 rfl
    · exact ih y hy
  | cr x h hs hn ih =>
    intro y hy
    rcases List.mem_cons.1 hy with rfl | hy
    · exact fun hm => (h _ hm).1 rfl
    · exact ih y hy

theorem append_sep {x y s t : Str} (hx : '\n' ∉ x) (hy : '\n' ∉ y)
    (h : x ++ '\n' :: s = y ++ '\n' :: t) : x = y ∧ s = t := by
  induction x generalizing y with
  | nil =>
    cases y with
    | nil => simpa using h
    | cons d y =>
      simp only [List.nil_append, List.cons_append, List.cons.injEq] at h
      exact absurd (by rw [← h.1]; simp) hy
  | cons c x ih =>
    cases y with
    | nil =>
      simp only [List.nil_append, List.cons_append, List.cons.injEq] at h
      exact absurd (by simp [h.1]) hx
    | cons d y =>
      simp only [List.cons_append, List.cons.injEq] at h
      obtain ⟨h1, h2⟩ := ih (fun hm => hx (by simp [hm])) (fun hm => hy (by simp [hm])) h.2
      exact ⟨by rw [h.1, h1], h2⟩

theorem joinLines_inj {ls ms : List Str} (hl : ls ≠ []) (hm : ms ≠ []) (h1 : ∀ x ∈ ls, '\n' ∉ x)
    (h2 : ∀ x ∈ ms, '\n' ∉ x) (h : joinLines ls = joinLines ms) : ls = ms := by
  induction ls generalizing ms with
  | nil => exact absurd rfl hl
  | cons x ls ih =>
    cases ms with
    | nil => exact absurd rfl hm
    | cons y ms =>
      cases ls with
      | nil =>
        cases ms with
        | nil => simpa [joinLines] using h
        | cons z ms =>
          rw [joinLines_cons y (by simp)] at h
          refine absurd ?_ (h1 x (by simp))
          have : x = y ++ '\n' :: joinLines (z :: ms) := h
          rw [this]; simp
      | cons w ls =>
        cases ms with
        | nil =>
          rw [joinLines_cons x (by simp)] at h
          refine absurd ?_ (h2 y (by simp))
          have : x ++ '\n' :: joinLines (w :: ls) = y := h
          rw [← this]; simp
        | cons z ms =>
          rw [joinLines_cons x (by simp), joinLines_cons y (by simp)] at h
          obtain ⟨e1, e2⟩ := append_sep (h1 x (by simp)) (h2 y (by simp)) h
          rw [e1, ih (by simp) (by simp) (fun a ha => h1 a (by simp [ha])) (fun a ha => h2 a (by simp [ha])) e2]

/-- The lines of a text are determined. -/
theorem isLines_unique {s : Str} {ls ms : List Str} (h1 : IsLines s ls) (h2 : IsLines s ms) : ls = ms :=
  joinLines_inj (isLines_ne h1) (isLines_ne h2) (isLines_noLf h1) (isLines_noLf h2)
    (by rw [← universal_lines h1, ← universal_lines h2])

/-! ### White space -/

theorem isSpaceChar_iff (c : Char) : isSpaceChar c = true ↔ Space c := by
  unfold isSpaceChar Space
  simp only [Bool.or_eq_true, Bool.and_eq_true, decide_eq_true_eq, beq_iff_eq, List.mem_cons,
    List.not_mem_nil, or_false]
  omega

theorem takeWhile_all {α : Type} {p : α → Bool} {l : List α} : ∀ a ∈ l.takeWhile p, p a = true := by
  induction l with
  | nil => simp
  | cons x l ih =>
    intro a ha
    by_cases hx : p x = true
    · rw [List.takeWhile_cons_of_pos hx] at ha
      rcases List.mem_cons.1 ha with rfl | ha
      · exact hx
      · exact ih a ha
    · rw [List.takeWhile_cons_of_neg hx] at ha
      cases ha

theorem rstrip_decompose (s : Str) : ∃ p, s = rstripSpace s ++ p ∧ ∀ a ∈ p, Space a := by
  refine ⟨(s.reverse.takeWhile isSpaceChar).reverse, ?_, ?_⟩
  · unfold rstripSpace
    rw [← List.reverse_append, List.takeWhile_append_dropWhile, List.reverse_reverse]
  · intro a ha
    rw [List.mem_reverse] at ha
    exact (isSpaceChar_iff a).1 (takeWhile_all a ha)

theorem dropWhile_append_all {α : Type} {p : α → Bool} {a b : List α} (h : ∀ x ∈ a, p x = true) :
    (a ++ b).dropWhile p = b.dropWhile p := by
  induction a with
  | nil => rfl
  | cons x a ih =>
    rw [List.cons_append, List.dropWhile_cons_of_pos (h x (by simp)), ih fun y hy => h y (by simp [hy])]

theorem rstrip_append {c p : Str} (h : ∀ a ∈ p, Space a) : rstripSpace (c ++ p) = rstripSpace c := by
  unfold rstripSpace
  rw [List.reverse_append, dropWhile_append_all]
  intro a ha
  exact (isSpaceChar_iff a).2 (h a (by simpa using ha))

/-- Stripping decides equality up to trailing white space. -/
theorem rstrip_eq_iff (x y : Str) : rstripSpace x = rstripSpace y ↔ EqualLines x y := by
  constructor
  · intro h
    obtain ⟨p, h1, h2⟩ := rstrip_decompose x
    obtain ⟨q, h3, h4⟩ := rstrip_decompose y
    exact ⟨rstripSpace x, p, q, h1, by rw [h]; exact h3, h2, h4⟩
  · rintro ⟨c, p, q, rfl, rfl, hp, hq⟩
    rw [rstrip_append hp, rstrip_append hq]

/-! ### The loop over the lines -/

theorem fileLinesAux_plain (acc x s : Str) (h : '\n' ∉ x) :
    fileLinesAux acc (x ++ s) = fileLinesAux (x.reverse ++ acc) s := by
  induction x generalizing acc with
  | nil => rfl
  | cons c x ih =>
    have hc : c ≠ '\n' := fun e => h (by simp [e])
    rw [List.cons_append, fileLinesAux, if_neg hc, ih _ fun hm => h (by simp [hm])]
    simp

/-- The lines that iterating a file gives. -/
def withBreaks : List Str → List Str
  | [] => []
  | [x] => if x = [] then [] else [x]
  | x :: y :: ls => (x ++ ['\n']) :: withBreaks (y :: ls)

theorem fileLines_join {ls : List Str} (hl : ls ≠ []) (h : ∀ x ∈ ls, '\n' ∉ x) :
    fileLines (joinLines ls) = withBreaks ls := by
  induction ls with
  | nil => exact absurd rfl hl
  | cons x ls ih =>
    cases ls with
    | nil =>
      have := fileLinesAux_plain [] x [] (h x (by simp))
      rw [List.append_nil, List.append_nil] at this
      show fileLinesAux [] x = _
      rw [this]
      simp only [fileLinesAux, withBreaks]
      cases x <;> simp
    | cons y ls =>
      rw [joinLines_cons x (by simp)]
      show fileLinesAux [] _ = _
      rw [fileLinesAux_plain [] x _ (h x (by simp)), fileLinesAux, if_pos rfl]
      simp only [List.append_nil, List.reverse_cons, List.reverse_reverse, withBreaks]
      exact congrArg _ (ih (by simp) fun z hz => h z (by simp [hz]))

theorem linesAlike_iff (xs ys : List Str) : linesAlike xs ys = true ↔
    ∀ i : Nat, rstripSpace (xs.getD i []) = rstripSpace (ys.getD i []) := by
  unfold linesAlike
  induction xs generalizing ys with
  | nil =>
    induction ys with
    | nil => simp [zipLongest]
    | cons y ys ih =>
      simp only [zipLongest, List.map_cons, List.all_cons, Bool.and_eq_true] at ih ⊢
      rw [ih]
      constructor
      · rintro ⟨h1, h2⟩ i
        cases i with
        | zero => simpa using h1
        | succ i => simpa using h2 i
      · intro h
        exact ⟨by simpa using h 0, fun i => by simpa using h (i + 1)⟩
  | cons x xs ih =>
    rw [zipLongest, List.all_cons, Bool.and_eq_true, ih ys.tail]
    have e0 : ys.headD [] = ys.getD 0 [] := by cases ys <;> rfl
    have e1 : ∀ i, ys.tail.getD i [] = ys.getD (i + 1) [] := fun i => by cases ys <;> rfl
    simp only [e0, e1]
    constructor
    · rintro ⟨h1, h2⟩ i
      cases i with
      | zero => simpa using h1
      | succ i => simpa using h2 i
    · intro h
      exact ⟨by simpa using h 0, fun i => by simpa using h (i + 1)⟩

theorem withBreaks_getD (ls : List Str) (i : Nat) :
    rstripSpace ((withBreaks ls).getD i []) = rstripSpace (ls.getD i []) := by
  induction ls generalizing i with
  | nil => rfl
  | cons x ls ih =>
    cases ls with
    | nil =>
      unfold withBreaks
      split
      · rename_i hx
        subst hx
        cases i <;> rfl
      · rfl
    | cons y ls =>
      rw [withBreaks]
      cases i with
      | zero =>
        simp only [List.getD_cons_zero]
        exact rstrip_append fun a ha => by
          rw [List.mem_singleton] at ha; subst ha; exact (isSpaceChar_iff _).1 (by decide)
      | succ i => simpa using ih i

/-- The loop of `check` decides equality up to trailing white space, line by line. -/
theorem alike_iff {s t : Str} {ls ms : List Str} (h1 : IsLines s ls) (h2 : IsLines t ms) :
    linesAlike (fileLines (universalNewlines s)) (fileLines (universalNewlines t)) = true ↔
      EqualText ls ms := by
  rw [universal_lines h1, universal_lines h2, fileLines_join (isLines_ne h1) (isLines_noLf h1),
    fileLines_join (isLines_ne h2) (isLines_noLf h2), linesAlike_iff]
  unfold EqualText
  constructor
  · intro h i
    rw [← rstrip_eq_iff, ← withBreaks_getD, h i, withBreaks_getD]
  · intro h i
    rw [withBreaks_getD, withBreaks_getD, rstrip_eq_iff]
    exact h i

/-- Texts read in text mode are equal iff their lines are. -/
theorem universal_eq_iff {s t : Str} {ls ms : List Str} (h1 : IsLines s ls) (h2 : IsLines t ms) :
    universalNewlines s = universalNewlines t ↔ ls = ms := by
  rw [universal_lines h1, universal_lines h2]
  exact ⟨joinLines_inj (isLines_ne h1) (isLines_ne h2) (isLines_noLf h1) (isLines_noLf h2),
    fun h => by rw [h]⟩

end Javatools
