import Verif.Props.SignExact
import Verif.Proofs.TextLines
/-
C45, exactly: which legal manifests survive being written and parsed.

The idea: count the bytes over 127. Decoding loses such a byte for each place where a character is
broken, and parsing adds none, so a manifest with a broken character does not come back.
-/
namespace Javatools

/-! ### Counting bytes over 127 -/

/-- The number of bytes over 127. -/
def highBytes (b : Bytes) : Nat := b.countP fun x => decide (128 ≤ x.toNat)

/-- The number of bytes over 127 in the UTF-8 form of a text. -/
def highText (s : Str) : Nat := highBytes (encodeUtf8 s)

theorem highBytes_append (a b : Bytes) : highBytes (a ++ b) = highBytes a + highBytes b :=
  List.countP_append

theorem highText_append (a b : Str) : highText (a ++ b) = highText a + highText b := by
  unfold highText
  rw [encodeUtf8_append, highBytes_append]

theorem highText_cons (c : Char) (s : Str) : highText (c :: s) = highText [c] + highText s :=
  highText_append [c] s

@[simp] theorem highText_nil : highText [] = 0 := rfl

theorem highText_reverse (s : Str) : highText s.reverse = highText s := by
  induction s with
  | nil => rfl
  | cons c s ih =>
    rw [List.reverse_cons, highText_append, ih, highText_cons c s]
    omega

theorem highText_sublist {a b : Str} (h : a.Sublist b) : highText a ≤ highText b := by
  induction h with
  | slnil => simp
  | cons c _ ih => rw [highText_cons]; omega
  | @cons_cons l1 l2 c _ ih => rw [highText_cons c l1, highText_cons c l2]; omega

/-- Decoding loses exactly the bytes that are not part of a character, and they are over 127. -/
theorem decode_high (n : Nat) (b : Bytes) (hn : b.length ≤ n) :
    highText (decodeIgnore b) ≤ highBytes b ∧
      (highText (decodeIgnore b) = highBytes b → b = encodeUtf8 (decodeIgnore b)) := by
  induction n generalizing b with
  | zero =>
    have : b = [] := List.eq_nil_of_length_eq_zero (by omega)
    subst this
    simp [highText, highBytes, encodeUtf8]
  | succ n ih =>
    cases b with
    | nil => simp [highText, highBytes, encodeUtf8]
    | cons x r =>
      cases hs : utf8Step (x :: r) with
      | none =>
        rw [decodeIgnore_none hs]
        have hx : 128 ≤ x.toNat := by
          apply Classical.byContradiction
          intro h
          unfold utf8Step at hs
          simp only at hs
          rw [if_pos (by omega)] at hs
          cases hs
        obtain ⟨h1, _⟩ := ih r (by simp only [List.length_cons] at hn; omega)
        have hc : highBytes (x :: r) = highBytes r + 1 := by
          unfold highBytes
          rw [List.countP_cons_of_pos]
          simpa using hx
        rw [hc]
        exact ⟨by omega, fun h => by omega⟩
      | some p =>
        obtain ⟨c, r'⟩ := p
        rw [decodeIgnore_some hs]
        have hb := utf8Step_some hs
        have hlen := utf8Step_shorter hs
        simp only [List.length_cons] at hn hlen
        obtain ⟨h1, h2⟩ := ih r' (by omega)
        have e1 : highBytes (x :: r) = highText [c] + highBytes r' := by
          rw [hb, highBytes_append]
          simp [highText, encodeUtf8]
        rw [highText_cons, e1]
        refine ⟨by omega, fun h => ?_⟩
        rw [hb, encodeUtf8_cons, ← h2 (by omega)]

/-! ### What is written -/

theorem high_contLines (ls : Bytes) (hls : highBytes ls = 0) (fuel : Nat) (kv : Bytes)
    (h : kv.length ≤ fuel) : highBytes (contLines ls fuel kv) = highBytes kv := by
  induction fuel generalizing kv with
  | zero =>
    have : kv = [] := List.eq_nil_of_length_eq_zero (by omega)
    subst this
    rfl
  | succ fuel ih =>
    simp only [contLines]
    split
    · rename_i he
      have : kv = [] := by simpa using he
      subst this
      rfl
    · rename_i he
      have hpos : 0 < kv.length := by
        cases kv with
        | nil => exact absurd rfl he
        | cons => simp
      have h32 : ∀ y : Bytes, highBytes (32 :: y) = highBytes y := by
        intro y
        unfold highBytes
        rw [List.countP_cons_of_neg]
        decide
      rw [highBytes_append, highBytes_append, h32, hls, ih _ (by rw [List.length_drop]; omega)]
      have := highBytes_append (kv.take 69) (kv.drop 69)
      rw [List.take_append_drop] at this
      omega

theorem sep_high {ls : Str} (hls : IsSep ls) : highBytes (encodeUtf8 ls) = 0 := by
  rcases hls with rfl | rfl
  · decide
  · decide

theorem high_writeKeyVal {k v ls : Str} (hls : IsSep ls) {b : Bytes}
    (h : writeKeyVal k v ls = .ok b) : highBytes b = highText k + highText v := by
  have hsep := sep_high hls
  have hkv : highBytes (encodeUtf8 k ++ [58, 32] ++ encodeUtf8 v) = highText k + highText v := by
    rw [highBytes_append, highBytes_append]
    have : highBytes [58, 32] = 0 := by decide
    rw [this]
    rfl
  unfold writeKeyVal at h
  simp only at h
  split at h
  · cases h
  · split at h
    · rw [← Except.ok.inj h, highBytes_append, highBytes_append, hsep,
        high_contLines _ hsep _ _ (Nat.le_refl _), ← highBytes_append, List.take_append_drop, hkv]
      omega
    · split at h
      · cases h
      · rw [← Except.ok.inj h, highBytes_append, hsep, hkv]
        omega

/-- The number for a section. -/
def highSection (s : Section) : Nat := (s.map fun i => highText i.1 + highText i.2).sum

theorem high_writeItems {ls : Str} (hls : IsSep ls) {s : Section} {b : Bytes}
    (h : writeItems ls s = .ok b) : highBytes b = highSection s := by
  induction s generalizing b with
  | nil => rw [← Except.ok.inj h]; rfl
  | cons i s ih =>
    obtain ⟨k, v⟩ := i
    simp only [writeItems] at h
    split at h
    · cases h
    · rename_i c hc
      split at h
      · cases h
      · rename_i d hd
        rw [← Except.ok.inj h, highBytes_append, high_writeKeyVal hls hc, ih hd]
        simp [highSection]

theorem high_sectionData {ls : Str} (hls : IsSep ls) {s : Section} {b : Bytes}
    (h : sectionData s ls = .ok b) : highBytes b = highSection s := by
  unfold sectionData at h
  split at h
  · cases h
  · rename_i c hc
    rw [← Except.ok.inj h, highBytes_append, sep_high hls, high_writeItems hls hc]
    omega

theorem high_writeSections {ls : Str} (hls : IsSep ls) {ss : List Section} {b : Bytes}
    (h : writeSections ls ss = .ok b) : highBytes b = (ss.map highSection).sum := by
  induction ss generalizing b with
  | nil => rw [← Except.ok.inj h]; rfl
  | cons s ss ih =>
    simp only [writeSections] at h
    split at h
    · cases h
    · rename_i c hc
      split at h
      · cases h
      · rename_i d hd
        rw [← Except.ok.inj h, highBytes_append, high_sectionData hls hc, ih hd]
        simp

/-- The number for a manifest. -/
def highManifest (m : Manifest) : Nat :=
  highSection m.main + (m.subs.map fun p => highSection p.2).sum

theorem high_getData {m : Manifest} {a : Option Str} (hls : IsSep (orLinesep a m.linesep)) {b : Bytes}
    (h : m.getData a = .ok b) : highBytes b = highManifest m := by
  unfold Manifest.getData at h
  simp only at h
  split at h
  · cases h
  · rename_i c hc
    split at h
    · cases h
    · rename_i ss hss
      split at h
      · cases h
      · rename_i d hd
        rw [← Except.ok.inj h, highBytes_append, high_sectionData hls hc, high_writeSections hls hd]
        have hp := ((sortedSections_perm hss).map highSection).sum_nat
        rw [hp, List.map_map]
        rfl

/-! ### What is parsed -/

theorem high_splitLines (acc s : Str) :
    ((splitLinesAux acc s).map highText).sum ≤ highText acc + highText s := by
  have hrev : ∀ (l : List Str) (a : Str), ((a.reverse :: l).map highText).sum =
      highText a + (l.map highText).sum := by
    intro l a
    rw [List.map_cons, List.sum_cons, highText_reverse]
  fun_induction splitLinesAux acc s with
  | case1 => simp
  | case2 => rw [hrev]; simp
  | case3 => rw [hrev]; simp
  | case4 acc c => rw [hrev, highText_cons c acc]; simp; omega
  | case5 acc c d cs _ ih =>
    rw [hrev, highText_cons c, highText_cons d]
    rw [highText_nil] at ih
    omega
  | case6 acc c d cs _ _ ih =>
    rw [hrev, highText_cons c]
    rw [highText_nil] at ih
    omega
  | case7 acc c d cs _ _ ih =>
    rw [highText_cons c (d :: cs)]
    rw [highText_cons c acc] at ih
    omega

/-- The number for a parsed attribute. -/
def highRaw (i : RawItem) : Nat := highText i.1 + highText i.2.flatten

def highRaws (is : List RawItem) : Nat := (is.map highRaw).sum

theorem high_appendLast (x : Str) (is : List RawItem) :
    highRaws (appendLast x is) ≤ highRaws is + highText x := by
  fun_induction appendLast x is with
  | case1 => simp [highRaws]
  | case2 k vs => simp [highRaws, highRaw, highText_append]; omega
  | case3 i is _ ih =>
    simp only [highRaws, List.map_cons, List.sum_cons] at ih ⊢
    omega

theorem high_splitFirst {sep : Char} {s k v : Str} (h : splitFirst sep s = some (k, v)) :
    highText k + highText v ≤ highText s := by
  induction s generalizing k v with
  | nil => simp [splitFirst] at h
  | cons c s ih =>
    simp only [splitFirst] at h
    split at h
    · simp only [Option.some.injEq, Prod.mk.injEq] at h
      obtain ⟨rfl, rfl⟩ := h
      rw [highText_cons]
      simp
    · cases hs : splitFirst sep s with
      | none => rw [hs] at h; simp at h
      | some p =>
        rw [hs] at h
        simp only [Option.map_some, Option.some.injEq, Prod.mk.injEq] at h
        obtain ⟨rfl, rfl⟩ := h
        have := ih (k := p.1) (v := p.2) hs
        rw [highText_cons c p.1, highText_cons c s]
        omega

theorem high_parseLines (curr : List RawItem) (lines : List Str) :
    ((parseLines curr lines).1.map highRaws).sum ≤ highRaws curr + (lines.map highText).sum := by
  induction lines generalizing curr with
  | nil =>
    simp only [parseLines]
    split <;> simp
  | cons line lines ih =>
    simp only [parseLines, List.map_cons, List.sum_cons]
    have hf : highText (line.filter fun c => c ≠ '\x00') ≤ highText line :=
      highText_sublist List.filter_sublist
    split
    · split
      · have := ih []
        have h0 : highRaws [] = 0 := rfl
        omega
      · have := ih []
        have h0 : highRaws [] = 0 := rfl
        simp only [List.map_cons, List.sum_cons]
        omega
    · rename_i c cs he
      rw [he] at hf
      split
      · split
        · simp
        · have h1 := ih (appendLast cs curr)
          have h2 := high_appendLast cs curr
          rw [highText_cons] at hf
          omega
      · split
        · simp
        · rename_i key val hk
          have h1 := ih (curr ++ [(key, [val.tail])])
          have h2 := high_splitFirst hk
          have h3 : highText val.tail ≤ highText val := highText_sublist (List.tail_sublist val)
          have h4 : highRaws (curr ++ [(key, [val.tail])]) =
              highRaws curr + (highText key + highText val.tail) := by
            simp [highRaws, highRaw]
          omega

theorem high_set (s : Section) (k v : Str) :
    highSection (PyDict.set s k v) ≤ highSection s + (highText k + highText v) := by
  induction s with
  | nil => simp [PyDict.set, highSection]
  | cons i s ih =>
    obtain ⟨k', v'⟩ := i
    simp only [PyDict.set]
    split
    · simp only [highSection, List.map_cons, List.sum_cons]
      omega
    · simp only [highSection, List.map_cons, List.sum_cons] at ih ⊢
      omega

theorem high_loadItems {s t : Section} {is : List RawItem} (h : loadItems s is = .ok t) :
    highSection t ≤ highSection s + highRaws is := by
  induction is generalizing s with
  | nil => rw [Except.ok.inj h]; omega
  | cons i is ih =>
    obtain ⟨k, vs⟩ := i
    simp only [loadItems] at h
    split at h
    · cases h
    · rename_i s' hs'
      have h1 := ih h
      have h2 := high_set s k vs.flatten
      unfold setItem at hs'
      split at hs'
      · cases hs'
      · rw [← Except.ok.inj hs'] at h1
        simp only [highRaws, highRaw, List.map_cons, List.sum_cons] at h1 ⊢
        omega

theorem high_setSub (d : PyDict Str Section) (k : Str) (s : Section) :
    ((PyDict.set d k s).map fun p => highSection p.2).sum ≤
      (d.map fun p => highSection p.2).sum + highSection s := by
  induction d with
  | nil => simp [PyDict.set]
  | cons i d ih =>
    obtain ⟨k', v'⟩ := i
    simp only [PyDict.set]
    split
    · simp only [List.map_cons, List.sum_cons]
      omega
    · simp only [List.map_cons, List.sum_cons] at ih ⊢
      omega

theorem high_loadSubs {d e : PyDict Str Section} {raws : List (List RawItem)}
    (h : loadSubs d raws = .ok e) :
    (e.map fun p => highSection p.2).sum ≤
      (d.map fun p => highSection p.2).sum + (raws.map highRaws).sum := by
  induction raws generalizing d with
  | nil => rw [Except.ok.inj h]; simp
  | cons is raws ih =>
    simp only [loadSubs] at h
    split at h
    · cases h
    · rename_i s hs
      have h1 := ih h
      have h2 := high_setSub d (primary s) s
      have h3 := high_loadItems hs
      have h4 : highSection (newSection "None".toList) = 0 := by decide +kernel
      simp only [List.map_cons, List.sum_cons]
      omega

/-- Parsing adds no bytes over 127. -/
theorem high_parse {pk version : Str} {sep : Option Str} {data : Bytes} {m : Manifest}
    (h0 : highText pk = 0) (hv : highText version = 0)
    (h : (Manifest.new pk version sep).parse data = .ok m) :
    highManifest m ≤ highText (decodeIgnore data) := by
  unfold Manifest.parse parseSections at h
  simp only at h
  have hl := high_parseLines [] (splitLines (decodeIgnore data))
  have hs := high_splitLines [] (decodeIgnore data)
  have hnil : highRaws [] = 0 := rfl
  rw [hnil] at hl
  rw [highText_nil] at hs
  change ((splitLines (decodeIgnore data)).map highText).sum ≤ _ at hs
  split at h
  · cases h
  · cases h
  · rename_i first rest err hp
    rw [hp] at hl
    simp only [List.map_cons, List.sum_cons] at hl
    split at h
    · cases h
    · rename_i main hm
      split at h
      · cases h
      · rename_i subs hsub
        split at h
        · cases h
        · rw [← Except.ok.inj h]
          have h1 := high_loadItems hm
          have h2 := high_loadSubs hsub
          have h3 : highSection (Manifest.new pk version sep).main = 0 := by
            simp [Manifest.new, highSection, h0, hv]
          have h4 : ((Manifest.new pk version sep).subs.map fun p => highSection p.2).sum = 0 := rfl
          simp only [highManifest]
          omega

/-! ### Each attribute is text if all of it is -/

theorem split_lf {t : Str} {p q : Bytes} (h : encodeUtf8 t = p ++ 10 :: q) :
    ∃ u v, p = encodeUtf8 u ∧ q = encodeUtf8 v := by
  induction t generalizing p with
  | nil => simp [encodeUtf8] at h
  | cons c t ih =>
    rw [encodeUtf8_cons] at h
    rcases List.append_eq_append_iff.1 h with ⟨r, hr1, hr2⟩ | ⟨r, hr1, hr2⟩
    · obtain ⟨u, v, h1, h2⟩ := ih hr2
      exact ⟨c :: u, v, by rw [hr1, h1, encodeUtf8_cons], h2⟩
    · cases r with
      | nil =>
        simp only [List.append_nil, List.nil_append] at hr1 hr2
        obtain ⟨u, v, h1, h2⟩ := ih (p := []) (by simpa using hr2.symm)
        exact ⟨[c], v, by rw [← hr1]; simp [encodeUtf8], h2⟩
      | cons x r =>
        simp only [List.cons_append, List.cons.injEq] at hr2
        obtain ⟨rfl, hr2⟩ := hr2
        have hc : (10 : UInt8) ∈ encodeChar c := by rw [hr1]; simp
        have : encodeChar c = [10] := by
          by_cases hlt : c.toNat < 128
          · rw [encodeChar_ascii hlt] at hc ⊢
            rw [List.mem_singleton.1 hc]
          · exact absurd (encodeChar_high (by omega) _ hc) (by decide)
        rw [this] at hr1
        cases p with
        | nil =>
          simp only [List.nil_append, List.cons.injEq, true_and] at hr1
          exact ⟨[], t, rfl, by rw [hr2, ← hr1]; rfl⟩
        | cons y p => simp at hr1

theorem writeKeyVal_ends {k v ls : Str} (hls : IsSep ls) {b : Bytes}
    (h : writeKeyVal k v ls = .ok b) : ∃ p, b = p ++ [10] := by
  have hsep : ∃ p, encodeUtf8 ls = p ++ [10] := by
    rcases hls with rfl | rfl
    · exact ⟨[], enc_lf⟩
    · exact ⟨[13], enc_crlf⟩
  obtain ⟨p, hp⟩ := hsep
  unfold writeKeyVal at h
  simp only at h
  split at h
  · cases h
  · split at h
    · exact ⟨_, by rw [← Except.ok.inj h, hp, ← List.append_assoc]⟩
    · split at h
      · cases h
      · exact ⟨_, by rw [← Except.ok.inj h, hp, ← List.append_assoc]⟩

theorem items_fold {ls : Str} (hls : IsSep ls) {s : Section} {b rest : Bytes} {t : Str}
    (h : writeItems ls s = .ok b) (ht : encodeUtf8 t = b ++ rest) :
    (∀ i ∈ s, Foldable ls i.1 i.2) ∧ ∃ u, rest = encodeUtf8 u := by
  induction s generalizing b t with
  | nil =>
    rw [← Except.ok.inj h] at ht
    exact ⟨by simp, t, by simpa using ht.symm⟩
  | cons i s ih =>
    obtain ⟨k, v⟩ := i
    simp only [writeItems] at h
    split at h
    · cases h
    · rename_i c hc
      split at h
      · cases h
      · rename_i d hd
        rw [← Except.ok.inj h] at ht
        obtain ⟨p, hp⟩ := writeKeyVal_ends hls hc
        rw [hp] at ht
        obtain ⟨u, w, h1, h2⟩ := split_lf (t := t) (p := p) (q := d ++ rest) (by rw [ht]; simp)
        obtain ⟨g1, g2⟩ := ih hd h2.symm
        refine ⟨?_, g2⟩
        intro j hj
        rcases List.mem_cons.1 hj with rfl | hj
        · intro b' hb'
          rw [hc] at hb'
          refine ⟨u ++ ['\n'], ?_⟩
          rw [← Except.ok.inj hb', hp, h1, encodeUtf8_append]
          rfl
        · exact g1 j hj

theorem section_folds {ls : Str} (hls : IsSep ls) {s : Section} {b rest : Bytes} {t : Str}
    (h : sectionData s ls = .ok b) (ht : encodeUtf8 t = b ++ rest) :
    (∀ i ∈ s, Foldable ls i.1 i.2) ∧ ∃ u, rest = encodeUtf8 u := by
  unfold sectionData at h
  split at h
  · cases h
  · rename_i c hc
    rw [← Except.ok.inj h, List.append_assoc] at ht
    obtain ⟨h1, u, h2⟩ := items_fold hls hc ht
    refine ⟨h1, ?_⟩
    rcases hls with rfl | rfl
    · rw [enc_lf] at h2
      obtain ⟨_, w, _, hw⟩ := split_lf (t := u) (p := []) (q := rest) h2.symm
      exact ⟨w, hw⟩
    · rw [enc_crlf] at h2
      obtain ⟨_, w, _, hw⟩ := split_lf (t := u) (p := [13]) (q := rest) h2.symm
      exact ⟨w, hw⟩

theorem sections_fold {ls : Str} (hls : IsSep ls) {ss : List Section} {b : Bytes} {t : Str}
    (h : writeSections ls ss = .ok b) (ht : encodeUtf8 t = b) :
    ∀ s ∈ ss, ∀ i ∈ s, Foldable ls i.1 i.2 := by
  induction ss generalizing b t with
  | nil => simp
  | cons s ss ih =>
    simp only [writeSections] at h
    split at h
    · cases h
    · rename_i c hc
      split at h
      · cases h
      · rename_i d hd
        rw [← Except.ok.inj h] at ht
        obtain ⟨h1, u, h2⟩ := section_folds hls hc ht
        intro x hx
        rcases List.mem_cons.1 hx with rfl | hx
        · exact h1
        · exact ih hd h2.symm x hx

/-- All attributes of a manifest. -/
def Manifest.EachItem (m : Manifest) (P : Str × Str → Prop) : Prop :=
  (∀ i ∈ m.main, P i) ∧ ∀ p ∈ m.subs, ∀ i ∈ p.2, P i

/-- C45, exactly: a legal manifest survives if and only if no value is empty, no value contains one
of the characters at which `str.splitlines` breaks, and no line break that is put into a value falls
inside a character. -/
theorem C45_exact (pk : Str) (m : Manifest) (a : Option Str) (hpk : IsPrimaryKey pk)
    (hm : LegalManifest pk m) (hls : IsSep (orLinesep a m.linesep)) :
    Survives pk m a ↔ m.EachItem fun i => i.2 ≠ [] ∧ (∀ c ∈ i.2, isLineBreak c = false) ∧
      Foldable (orLinesep a m.linesep) i.1 i.2 := by
  have hround : ∀ i, LegalItem i → i.2 ≠ [] → (∀ c ∈ i.2, isLineBreak c = false) →
      Foldable (orLinesep a m.linesep) i.1 i.2 → RoundItem (orLinesep a m.linesep) i := by
    intro i hl h1 h2 h3
    have hk := legal_key hl.name.2.2
    have hlen := (ascii_encode (s := i.1) fun c hc => by have := hk.2 c hc; omega).2
    have hpos : 0 < i.1.length := List.length_pos_iff.2 hl.name.1
    have h68 := hl.name.2.1
    exact ⟨⟨hk.1, h68, fun c hc => ⟨h2 c hc, (hl.value c hc).1⟩⟩, ⟨by omega, by omega⟩, h1, h3⟩
  constructor
  · rintro ⟨b, m', h1, h2, h3, h4, _⟩
    have hc := parsed_clean hpk ⟨b, h2⟩
    have hpk0 : highText pk = 0 := by
      rcases hpk with rfl | rfl <;> decide +kernel
    have q1 := high_parse hpk0 (by decide) h2
    have q2 := decode_high _ b (Nat.le_refl _)
    have q3 := high_getData hls h1
    have q4 : highManifest m' = highManifest m := by
      unfold highManifest
      rw [h3, (h4.map fun p => highSection p.2).sum_nat]
    have hb := q2.2 (by omega)
    have hfold : (∀ i ∈ m.main, Foldable (orLinesep a m.linesep) i.1 i.2) ∧
        (∀ p ∈ m.subs, ∀ i ∈ p.2, Foldable (orLinesep a m.linesep) i.1 i.2) ∧
        (∀ i ∈ m.main, Writable i) ∧ ∀ p ∈ m.subs, ∀ i ∈ p.2, Writable i := by
      unfold Manifest.getData at h1
      simp only at h1
      split at h1
      · cases h1
      · rename_i c hcd
        split at h1
        · cases h1
        · rename_i ss hss
          split at h1
          · cases h1
          · rename_i d hd
            rw [← Except.ok.inj h1] at hb
            obtain ⟨g1, u, g2⟩ := section_folds hls hcd hb.symm
            have g3 := sections_fold hls hd g2.symm
            have hmem : ∀ p ∈ m.subs, p.2 ∈ ss := fun p hp =>
              (sortedSections_perm hss).mem_iff.2 (List.mem_map.2 ⟨p, hp, rfl⟩)
            refine ⟨g1, fun p hp => g3 _ (hmem p hp), sectionData_writable hcd, fun p hp => ?_⟩
            obtain ⟨e, he⟩ := writeSections_each hd _ (hmem p hp)
            exact sectionData_writable he
    obtain ⟨f1, f2, f3, f4⟩ := hfold
    constructor
    · intro i hi
      exact ⟨(f3 i hi).2.2, fun c hc' => ((hc.items i (by rw [h3]; exact hi)).val c hc').1, f1 i hi⟩
    · intro p hp i hi
      refine ⟨(f4 p hp i hi).2.2, fun c hc' => ?_, f2 p hp i hi⟩
      exact (((hc.subs.clean p (h4.mem_iff.2 hp)).1.items i hi).val c hc').1
  · rintro ⟨h1, h2⟩
    refine C45_partial pk m a hls ⟨⟨hm.main.1, hm.main.2.1, fun i hi => ?_⟩, hm.nodup, fun p hp => ?_⟩
    · exact hround i (hm.main.2.2 i hi) (h1 i hi).1 (h1 i hi).2.1 (h1 i hi).2.2
    · obtain ⟨⟨rest, hr⟩, hn, hi⟩ := hm.subs p hp
      refine ⟨⟨⟨p.1, rest, hr⟩, hn, fun i hi' => ?_⟩, ?_⟩
      · exact hround i (hi i hi') (h2 p hp i hi').1 (h2 p hp i hi').2.1 (h2 p hp i hi').2.2
      · rw [hr]
        simp [primary, PyDict.get?]

/-- A value in Latin-1 that fits on its line survives, and one that is broken inside 'é' does not. -/
example : Survives kManifestVersion (oneAttribute "café".toList) none ∧
    ¬ Survives kManifestVersion (oneAttribute (List.replicate 66 'x' ++ "é".toList)) none := by
  have hls : ∀ v, IsSep (orLinesep none (oneAttribute v).linesep) := fun v => .inl rfl
  constructor
  · rw [C45_exact _ _ _ (.inl rfl) (oneAttribute_legal _ (by decide)) (hls _)]
    refine ⟨?_, by simp [oneAttribute]⟩
    have hp : ∀ k v b : Str, writeKeyVal k v "\n".toList = .ok (encodeUtf8 b) →
        Foldable "\n".toList k v := by
      intro k v b h c hc
      rw [h] at hc
      exact ⟨_, (Except.ok.inj hc).symm⟩
    intro i hi
    simp only [oneAttribute, List.mem_cons, List.not_mem_nil, or_false] at hi
    rcases hi with rfl | rfl
    · exact ⟨by decide, by decide, hp _ _ "Manifest-Version: 1.0\n".toList (by decide +kernel)⟩
    · exact ⟨by decide, by decide, hp _ _ "K: café\n".toList (by decide +kernel)⟩
  · rw [C45_exact _ _ _ (.inl rfl) (oneAttribute_legal _ (by decide)) (hls _)]
    rintro ⟨h, _⟩
    obtain ⟨_, _, hf⟩ := h ("K".toList, List.replicate 66 'x' ++ "é".toList) (by simp [oneAttribute])
    obtain ⟨b, hb⟩ := (C44_written "K".toList (List.replicate 66 'x' ++ "é".toList) "\n".toList).2
      ⟨by decide, by decide, by simp⟩
    obtain ⟨t, rfl⟩ := hf b hb
    have : decodeStrict (match writeKeyVal "K".toList (List.replicate 66 'x' ++ "é".toList)
        "\n".toList with | .ok b => b | .error _ => []) = none := by decide +kernel
    rw [hb] at this
    simp only [decodeStrict_encode] at this
    cases this

end Javatools
