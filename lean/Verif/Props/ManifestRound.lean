import Verif.Props.Manifest
/-
C45: manifests survive store and parse.
-/
namespace Javatools

/-! ### Text of a written attribute -/

/-- The text of an attribute whose value is broken into `c0` and the continuation lines `cs`. -/
def itemText (ls k c0 : Str) (cs : List Str) : Str :=
  k ++ ": ".toList ++ c0 ++ cs.flatMap (fun c => ls ++ ' ' :: c) ++ ls

theorem encode_nil_iff (s : Str) : encodeUtf8 s = [] ↔ s = [] :=
  ⟨fun h => encodeUtf8_injective (by rw [h]; rfl), fun h => by rw [h]; rfl⟩

/-- Encoded text that contains a line separator is divided there. -/
theorem split_sep {ls t : Str} (hls : IsSep ls) {x y : Bytes} (h : encodeUtf8 t = x ++ encodeUtf8 ls ++ y) :
    ∃ t1 t2, t = t1 ++ ls ++ t2 ∧ x = encodeUtf8 t1 ∧ y = encodeUtf8 t2 := by
  rcases hls with rfl | rfl
  · rw [enc_lf, List.append_assoc, List.singleton_append] at h
    obtain ⟨t1, t2, rfl, h1, h2⟩ := encode_split (by decide) h
    exact ⟨t1, t2, by simp, h1, h2⟩
  · rw [enc_crlf, List.append_assoc] at h
    obtain ⟨t1, t2, rfl, h1, h2⟩ := encode_split (x := 13) (by decide) h
    have h2' : encodeUtf8 t2 = [] ++ 10 :: y := h2.symm
    obtain ⟨t3, t4, rfl, h3, h4⟩ := encode_split (by decide) h2'
    have : t3 = [] := (encode_nil_iff t3).1 h3.symm
    subst this
    exact ⟨t1, t4, by simp, h1, h4⟩

theorem cont_text {ls : Str} (hls : IsSep ls) (fuel : Nat) (x y : Bytes) (hf : y.length ≤ fuel) (t : Str)
    (h : encodeUtf8 t = x ++ contLines (encodeUtf8 ls) fuel y ++ encodeUtf8 ls) :
    ∃ x' ys, x = encodeUtf8 x' ∧ y = encodeUtf8 (List.flatten ys) ∧
      t = x' ++ ys.flatMap (fun c => ls ++ ' ' :: c) ++ ls := by
  induction fuel generalizing x y t with
  | zero =>
    have hy : y = [] := List.length_eq_zero_iff.1 (by omega)
    subst hy
    simp only [contLines, List.append_nil] at h
    obtain ⟨t1, t2, rfl, h1, h2⟩ := split_sep (y := []) hls (by rw [List.append_nil]; exact h)
    have : t2 = [] := (encode_nil_iff t2).1 h2.symm
    subst this
    exact ⟨t1, [], h1, rfl, by simp⟩
  | succ fuel ih =>
    simp only [contLines] at h
    split at h
    · rename_i he
      have hy : y = [] := by simpa using he
      subst hy
      simp only [List.append_nil] at h
      obtain ⟨t1, t2, rfl, h1, h2⟩ := split_sep (y := []) hls (by rw [List.append_nil]; exact h)
      have : t2 = [] := (encode_nil_iff t2).1 h2.symm
      subst this
      exact ⟨t1, [], h1, rfl, by simp⟩
    · rename_i he
      have hlen : 0 < y.length := List.length_pos_iff.2 (by simpa using he)
      have h' : encodeUtf8 t = x ++ encodeUtf8 ls ++
          (32 :: (y.take 69 ++ contLines (encodeUtf8 ls) fuel (y.drop 69) ++ encodeUtf8 ls)) := by
        rw [h]; simp [List.append_assoc]
      obtain ⟨t1, t2, rfl, h1, h2⟩ := split_sep hls h'
      have h2' : encodeUtf8 t2 = [] ++ 32 :: (y.take 69 ++ contLines (encodeUtf8 ls) fuel (y.drop 69) ++
          encodeUtf8 ls) := by rw [← h2]; rfl
      obtain ⟨t3, t4, rfl, h3, h4⟩ := encode_split (by decide) h2'
      have : t3 = [] := (encode_nil_iff t3).1 h3.symm
      subst this
      obtain ⟨x', ys, h5, h6, rfl⟩ := ih (y.take 69) (y.drop 69) (by rw [List.length_drop]; omega) t4
        h4.symm
      have hsp : Char.ofNat (32 : UInt8).toNat = ' ' := by decide
      refine ⟨t1, x' :: ys, h1, ?_, ?_⟩
      · rw [List.flatten_cons, encodeUtf8_append, ← h5, ← h6, List.take_append_drop]
      · simp [hsp]

/-- If the bytes written for an attribute are valid UTF-8, they are the text of the attribute with
its value broken into lines. -/
theorem written_text {k v ls : Str} (hls : IsSep ls) {b : Bytes} (h : writeKeyVal k v ls = .ok b)
    {t : Str} (ht : b = encodeUtf8 t) :
    ∃ c0 cs, v = c0 ++ List.flatten cs ∧ t = itemText ls k c0 cs := by
  have hk := writeKeyVal_key h
  have hcs : encodeUtf8 ": ".toList = [58, 32] := by decide
  unfold writeKeyVal at h
  simp only at h
  split at h
  · simp at h
  · split at h
    · rename_i hlong
      simp only [Except.ok.injEq] at h
      rw [ht] at h
      have hkv : encodeUtf8 k ++ [58, 32] ++ encodeUtf8 v = encodeUtf8 (k ++ ": ".toList ++ v) := by
        rw [encodeUtf8_append, encodeUtf8_append, hcs]
      rw [hkv] at h
      obtain ⟨x', ys, h1, h2, h3⟩ := cont_text hls _ _ _ (Nat.le_refl _) t h.symm
      have h4 : k ++ ": ".toList ++ v = x' ++ ys.flatten := by
        apply encodeUtf8_injective
        rw [encodeUtf8_append x', ← h1, ← h2, List.take_append_drop]
      have hlen : (encodeUtf8 x').length = 70 := by
        rw [← h1, List.length_take, ← hkv]
        simp only [List.length_append, List.length_cons, List.length_nil]
        omega
      rcases List.append_eq_append_iff.1 h4 with ⟨a, h5, h6⟩ | ⟨c, h5, h6⟩
      · exact ⟨a, ys, h6, by rw [h3, h5]; simp [itemText]⟩
      · have h7 := congrArg (fun s => (encodeUtf8 s).length) h5
        simp only [encodeUtf8_append, List.length_append, hcs, List.length_cons,
          List.length_nil] at h7
        have hc : (encodeUtf8 c).length = 0 := by omega
        have hc2 : c = [] := (encode_nil_iff c).1 (List.length_eq_zero_iff.1 hc)
        subst hc2
        simp only [List.append_nil, List.nil_append] at h5 h6
        exact ⟨[], ys, by simpa using h6.symm, by rw [h3, ← h5]; simp [itemText]⟩
    · split at h
      · simp at h
      · simp only [Except.ok.injEq] at h
        rw [ht] at h
        refine ⟨v, [], by simp, ?_⟩
        apply encodeUtf8_injective
        rw [← h]
        simp only [itemText, encodeUtf8_append, hcs, List.flatMap_nil, List.append_nil]

/-! ### Reading it back -/

theorem splitLinesAux_line {ls l : Str} (hls : IsSep ls) (hl : ∀ c ∈ l, isLineBreak c = false)
    (acc rest : Str) :
    splitLinesAux acc (l ++ ls ++ rest) = (acc.reverse ++ l) :: splitLinesAux [] rest := by
  induction l generalizing acc with
  | nil =>
    simp only [List.nil_append, List.append_nil]
    rcases hls with rfl | rfl
    · show splitLinesAux acc ('\n' :: rest) = _
      cases rest with
      | nil => simp [splitLinesAux, isLineBreak]
      | cons d rest =>
        rw [splitLinesAux, if_neg (by rintro ⟨h, _⟩; exact absurd h (by decide)), if_pos (by decide)]
    · show splitLinesAux acc ('\r' :: '\n' :: rest) = _
      rw [splitLinesAux, if_pos ⟨rfl, rfl⟩]
  | cons c l ih =>
    have hc := hl c (by simp)
    have hl' : ∀ c ∈ l, isLineBreak c = false := fun d hd => hl d (by simp [hd])
    cases hr : l ++ ls ++ rest with
    | nil =>
      exfalso
      have := congrArg List.length hr
      simp only [List.length_append, List.length_nil] at this
      rcases hls with rfl | rfl <;> simp at this
    | cons d r =>
      rw [List.cons_append, List.cons_append, hr, splitLinesAux, if_neg, if_neg (by simp [hc]), ← hr,
        ih hl']
      · simp
      · rintro ⟨rfl, _⟩
        exact absurd hc (by decide)

theorem splitLines_line {ls l : Str} (hls : IsSep ls) (hl : ∀ c ∈ l, isLineBreak c = false)
    (rest : Str) : splitLines (l ++ ls ++ rest) = l :: splitLines rest := by
  unfold splitLines
  rw [splitLinesAux_line hls hl]
  rfl

/-- The lines of an attribute. -/
def itemLines (k c0 : Str) (cs : List Str) : List Str :=
  (k ++ ": ".toList ++ c0) :: cs.map (' ' :: ·)

theorem splitLines_conts {ls : Str} (hls : IsSep ls) (cs : List Str)
    (hcs : ∀ c ∈ cs, ∀ d ∈ c, isLineBreak d = false) (l : Str) (hl : ∀ c ∈ l, isLineBreak c = false)
    (rest : Str) :
    splitLines (l ++ cs.flatMap (fun c => ls ++ ' ' :: c) ++ ls ++ rest) =
      l :: cs.map (' ' :: ·) ++ splitLines rest := by
  induction cs generalizing l with
  | nil =>
    simp only [List.flatMap_nil, List.append_nil, List.map_nil]
    exact splitLines_line hls hl rest
  | cons c cs ih =>
    have h1 : l ++ (c :: cs).flatMap (fun c => ls ++ ' ' :: c) ++ ls ++ rest =
        l ++ ls ++ ((' ' :: c) ++ cs.flatMap (fun c => ls ++ ' ' :: c) ++ ls ++ rest) := by
      simp
    rw [h1, splitLines_line hls hl, ih (fun x hx => hcs x (by simp [hx]))]
    · simp
    · intro d hd
      rcases List.mem_cons.1 hd with rfl | hd
      · decide
      · exact hcs c (by simp) d hd

theorem splitLines_item {ls k c0 : Str} {cs : List Str} (hls : IsSep ls)
    (hk : ∀ c ∈ k, CleanChar c) (hv : ∀ c ∈ c0 ++ cs.flatten, CleanChar c) (rest : Str) :
    splitLines (itemText ls k c0 cs ++ rest) = itemLines k c0 cs ++ splitLines rest := by
  unfold itemText itemLines
  refine splitLines_conts hls cs ?_ _ ?_ rest
  · intro c hc d hd
    exact (hv d (List.mem_append_right _ (List.mem_flatten.2 ⟨c, hc, hd⟩))).1
  · intro c hc
    simp only [List.mem_append] at hc
    rcases hc with (hc | hc) | hc
    · exact (hk c hc).1
    · revert c
      decide
    · exact (hv c (by simp [hc])).1

theorem filter_clean {s : Str} (h : ∀ c ∈ s, CleanChar c) : (s.filter fun c => c ≠ '\x00') = s := by
  rw [List.filter_eq_self]
  intro c hc
  simpa using (h c hc).2

theorem appendLast_append (x k : Str) (vs : List Str) (is : List RawItem) :
    appendLast x (is ++ [(k, vs)]) = is ++ [(k, vs ++ [x])] := by
  induction is with
  | nil => rfl
  | cons i is ih =>
    cases is with
    | nil => rfl
    | cons j is =>
      simp only [List.cons_append] at ih ⊢
      rw [appendLast]
      · rw [ih]
      · intro k vs h; simp

theorem parseLines_conts (cs : List Str) (hcs : ∀ c ∈ cs, ∀ d ∈ c, CleanChar d) (curr : List RawItem)
    (k : Str) (vs : List Str) (rest : List Str) :
    parseLines (curr ++ [(k, vs)]) (cs.map (' ' :: ·) ++ rest) =
      parseLines (curr ++ [(k, vs ++ cs)]) rest := by
  induction cs generalizing vs with
  | nil => simp
  | cons c cs ih =>
    have hf : ((' ' :: c).filter fun c => c ≠ '\x00') = ' ' :: c := by
      apply filter_clean
      intro d hd
      rcases List.mem_cons.1 hd with rfl | hd
      · decide
      · exact hcs c (by simp) d hd
    simp only [List.map_cons, List.cons_append, parseLines, hf, if_true]
    rw [if_neg (by simp), appendLast_append, ih (fun x hx => hcs x (by simp [hx]))]
    simp

theorem parseLines_item {k c0 : Str} {cs : List Str} (hne : k ≠ []) (hk : CleanKey k)
    (hv : ∀ c ∈ c0 ++ cs.flatten, CleanChar c) (curr : List RawItem) (rest : List Str) :
    parseLines curr (itemLines k c0 cs ++ rest) = parseLines (curr ++ [(k, c0 :: cs)]) rest := by
  unfold itemLines
  have hf : ((k ++ ": ".toList ++ c0).filter fun c => c ≠ '\x00') = k ++ ": ".toList ++ c0 := by
    apply filter_clean
    intro c hc
    simp only [List.mem_append] at hc
    rcases hc with (hc | hc) | hc
    · exact hk.chars c hc
    · revert c; decide
    · exact hv c (by simp [hc])
  cases k with
  | nil => exact absurd rfl hne
  | cons x k =>
    have hx : x ≠ ' ' := by
      have := hk.space
      simpa using this
    have hsplit : splitFirst ':' (x :: k ++ ": ".toList ++ c0) = some (x :: k, ' ' :: c0) := by
      have : x :: k ++ ": ".toList ++ c0 = (x :: k) ++ ':' :: (' ' :: c0) := by
        simp only [List.append_assoc]
        rfl
      rw [this, splitFirst_some hk.colon]
    rw [List.cons_append, parseLines, hf]
    simp only [List.cons_append] at hsplit ⊢
    rw [if_neg hx, hsplit]
    simp only [List.tail_cons]
    rw [parseLines_conts cs (fun c hc d hd => hv d (List.mem_append_right _
      (List.mem_flatten.2 ⟨c, hc, hd⟩)))]
    simp

/-! ### Sections -/

/-- An attribute that survives: the name and the value have no character that `parse_sections`
treats specially, the name has 1 to 68 bytes, the value is not empty, and the line breaks put into
the value do not fall inside a character. -/
structure RoundItem (ls : Str) (i : Str × Str) : Prop where
  clean : CleanItem i
  size : 0 < (encodeUtf8 i.1).length ∧ (encodeUtf8 i.1).length < 69
  value : i.2 ≠ []
  folds : ∀ b, writeKeyVal i.1 i.2 ls = .ok b → ∃ t, b = encodeUtf8 t

/-- The raw form of a section. -/
def RawOf (s : Section) (raw : List RawItem) : Prop := raw.map (fun r => (r.1, r.2.flatten)) = s

theorem items_text {ls : Str} (hls : IsSep ls) (s : Section) (hs : ∀ i ∈ s, RoundItem ls i) :
    ∃ b t raw lines, writeItems ls s = .ok b ∧ b = encodeUtf8 t ∧ RawOf s raw ∧
      (∀ rest, splitLines (t ++ rest) = lines ++ splitLines rest) ∧
      (∀ curr rest, parseLines curr (lines ++ rest) = parseLines (curr ++ raw) rest) ∧
      ('\r' ∈ t → ls = "\r\n".toList) := by
  induction s with
  | nil => exact ⟨[], [], [], [], rfl, rfl, rfl, by simp, by simp, by simp⟩
  | cons i s ih =>
    obtain ⟨k, v⟩ := i
    have hi := hs (k, v) (by simp)
    obtain ⟨b2, t2, raw2, lines2, h1, h2, h3, h4, h5, h6⟩ := ih fun j hj => hs j (by simp [hj])
    obtain ⟨b1, hb1⟩ := (C44_written k v ls).2 ⟨hi.size.1, hi.size.2, hi.value⟩
    obtain ⟨t1, ht1⟩ := hi.folds b1 hb1
    obtain ⟨c0, cs, hv, rfl⟩ := written_text hls hb1 ht1
    have hval : ∀ c ∈ c0 ++ cs.flatten, CleanChar c := by rw [← hv]; exact hi.clean.val
    have hkne : k ≠ [] := by
      rintro rfl
      have := hi.size.1
      simp [encodeUtf8_nil] at this
    refine ⟨b1 ++ b2, itemText ls k c0 cs ++ t2, (k, c0 :: cs) :: raw2, itemLines k c0 cs ++ lines2,
      ?_, ?_, ?_, ?_, ?_, ?_⟩
    · simp only [writeItems, hb1, h1]
    · rw [ht1, h2, encodeUtf8_append]
    · unfold RawOf at h3 ⊢
      rw [List.map_cons, h3, hv]
      rfl
    · intro rest
      rw [List.append_assoc, splitLines_item hls hi.clean.key.chars hval, h4, List.append_assoc]
    · intro curr rest
      rw [List.append_assoc, parseLines_item hkne hi.clean.key hval, h5, List.append_assoc]
      rfl
    · intro hcr
      rcases hls with rfl | rfl
      · exfalso
        rcases List.mem_append.1 hcr with hcr | hcr
        · simp only [itemText, List.mem_append, List.mem_flatMap, List.mem_cons] at hcr
          rcases hcr with (((hcr | hcr) | hcr) | ⟨c, hc, hcr⟩) | hcr
          · exact absurd (hi.clean.key.chars _ hcr).1 (by decide)
          · revert hcr; decide
          · exact absurd (hval '\r' (List.mem_append_left _ hcr)).1 (by decide)
          · rcases hcr with hcr | hcr | hcr
            · revert hcr; decide
            · revert hcr; decide
            · exact absurd (hval _ (List.mem_append_right _ (List.mem_flatten.2 ⟨c, hc, hcr⟩))).1
                (by decide)
          · revert hcr; decide
        · have := h6 hcr
          revert this; decide
      · rfl

theorem section_text {ls : Str} (hls : IsSep ls) (s : Section) (hne : s ≠ [])
    (hs : ∀ i ∈ s, RoundItem ls i) :
    ∃ b t raw lines, sectionData s ls = .ok b ∧ b = encodeUtf8 t ∧ RawOf s raw ∧
      (∀ rest, splitLines (t ++ rest) = lines ++ splitLines rest) ∧
      (∀ rest, parseLines [] (lines ++ rest) = (raw :: (parseLines [] rest).1, (parseLines [] rest).2)) ∧
      ('\r' ∈ t ↔ ls = "\r\n".toList) ∧ (ls = "\r\n".toList → hasSub "\r\n".toList t = true) := by
  obtain ⟨b, t, raw, lines, h1, h2, h3, h4, h5, h6⟩ := items_text hls s hs
  have hrne : raw ≠ [] := by
    rintro rfl
    unfold RawOf at h3
    exact hne h3.symm
  refine ⟨b ++ encodeUtf8 ls, t ++ ls, raw, lines ++ [[]], ?_, ?_, h3, ?_, ?_, ?_, ?_⟩
  · simp only [sectionData, h1]
  · rw [h2, encodeUtf8_append]
  · intro rest
    rw [List.append_assoc, h4, List.append_assoc]
    congr 1
    have := splitLines_line hls (l := []) (by simp) rest
    simpa using this
  · intro rest
    rw [List.append_assoc, h5, List.nil_append, List.singleton_append, parseLines]
    simp only [List.filter_nil]
    rw [if_neg (by simpa using hrne)]
  · rw [List.mem_append]
    constructor
    · rintro (h | h)
      · exact h6 h
      · rcases hls with rfl | rfl
        · revert h; decide
        · rfl
    · rintro rfl
      exact .inr (by decide)
  · rintro rfl
    rw [hasSub_iff]
    exact ⟨t, [], by simp⟩

theorem sections_text {ls : Str} (hls : IsSep ls) (ss : List Section)
    (hs : ∀ s ∈ ss, s ≠ [] ∧ ∀ i ∈ s, RoundItem ls i) :
    ∃ b t raws, writeSections ls ss = .ok b ∧ b = encodeUtf8 t ∧
      raws.map (fun raw => raw.map fun (r : RawItem) => (r.1, r.2.flatten)) = ss ∧
      parseLines [] (splitLines t) = (raws, none) ∧
      (ss ≠ [] → detectLinesep t = ls) ∧ ('\r' ∈ t → ls = "\r\n".toList) := by
  induction ss with
  | nil => exact ⟨[], [], [], rfl, rfl, rfl, rfl, by simp, by simp⟩
  | cons s ss ih =>
    obtain ⟨b2, t2, raws, h1, h2, h3, h4, h5, h6⟩ := ih fun x hx => hs x (by simp [hx])
    obtain ⟨b1, t1, raw, lines, g1, g2, g3, g4, g5, g6, g7⟩ :=
      section_text hls s (hs s (by simp)).1 (hs s (by simp)).2
    refine ⟨b1 ++ b2, t1 ++ t2, raw :: raws, ?_, ?_, ?_, ?_, ?_, ?_⟩
    · simp only [writeSections, g1, h1]
    · rw [g2, h2, encodeUtf8_append]
    · rw [List.map_cons, h3]
      unfold RawOf at g3
      rw [g3]
    · rw [g4, g5, h4]
    · intro _
      unfold detectLinesep
      rcases hls with rfl | rfl
      · rw [if_neg]
        rw [hasSub_iff]
        rintro ⟨x, y, hxy⟩
        have hcr : '\r' ∈ t1 ++ t2 := by rw [hxy]; simp
        rcases List.mem_append.1 hcr with h | h
        · have := g6.1 h
          revert this; decide
        · have := h6 h
          revert this; decide
      · rw [if_pos]
        have := g7 rfl
        rw [hasSub_iff] at this ⊢
        obtain ⟨x, y, rfl⟩ := this
        exact ⟨x, y ++ t2, by simp⟩
    · intro hcr
      rcases List.mem_append.1 hcr with h | h
      · exact g6.1 h
      · exact h6 h

/-! ### Loading -/

theorem loadItems_fold (s : Section) (raw : List RawItem) (h : ∀ r ∈ raw, r.1.length ≤ 68) :
    loadItems s raw =
      .ok ((raw.map fun r => (r.1, r.2.flatten)).foldl (fun d p => PyDict.set d p.1 p.2) s) := by
  induction raw generalizing s with
  | nil => rfl
  | cons r raw ih =>
    obtain ⟨k, vs⟩ := r
    have hk : k.length ≤ 68 := h (k, vs) (by simp)
    simp only [loadItems, setItem]
    rw [if_neg (by omega)]
    simp only
    rw [ih _ fun x hx => h x (by simp [hx])]
    rfl

/-- Loading a section over its preset primary attribute gives the section. -/
theorem load_preset {pk v0 v : Str} {rest : Section} {raw : List RawItem}
    (hraw : RawOf ((pk, v) :: rest) raw) (hn : (PyDict.keys ((pk, v) :: rest : Section)).Nodup)
    (hl : ∀ i ∈ (pk, v) :: rest, i.1.length ≤ 68) :
    loadItems [(pk, v0)] raw = .ok ((pk, v) :: rest) := by
  unfold RawOf at hraw
  rw [loadItems_fold, hraw]
  · simp only [List.foldl_cons, PyDict.set, if_true]
    rw [PyDict.foldl_set_nodup rest [(pk, v)] (by simpa [PyDict.keys] using hn)]
    rfl
  · intro r hr
    have : (r.1, r.2.flatten) ∈ (pk, v) :: rest := by
      rw [← hraw]
      exact List.mem_map.2 ⟨r, hr, rfl⟩
    exact hl _ this

/-- A section that survives. -/
structure RoundSection (ls pk : Str) (s : Section) : Prop where
  head : ∃ v rest, s = (pk, v) :: rest
  nodup : (PyDict.keys s).Nodup
  items : ∀ i ∈ s, RoundItem ls i

theorem loadSubs_round {ls : Str} (raws : List (List RawItem)) (ss : List Section)
    (hraw : raws.map (fun raw => raw.map fun (r : RawItem) => (r.1, r.2.flatten)) = ss)
    (hs : ∀ s ∈ ss, RoundSection ls kName s) (subs : PyDict Str Section)
    (hn : ((PyDict.keys subs) ++ ss.map primary).Nodup) :
    loadSubs subs raws = .ok (subs ++ ss.map fun s => (primary s, s)) := by
  induction raws generalizing ss subs with
  | nil =>
    simp only [List.map_nil] at hraw
    subst hraw
    simp [loadSubs]
  | cons raw raws ih =>
    simp only [List.map_cons] at hraw
    subst hraw
    have h0 := hs (raw.map fun r => (r.1, r.2.flatten)) (by simp)
    obtain ⟨v, rest, hv⟩ := h0.head
    have hload : loadItems (newSection "None".toList) raw =
        .ok (raw.map fun r => (r.1, r.2.flatten)) := by
      rw [hv]
      exact load_preset hv (hv ▸ h0.nodup) (fun i hi => (h0.items i (hv ▸ hi)).clean.short)
    simp only [loadSubs, hload]
    have hnot : primary (raw.map fun r => (r.1, r.2.flatten)) ∉ PyDict.keys subs := by
      rw [List.map_cons] at hn
      have := (List.nodup_append.1 hn).2.2
      intro hm
      exact this _ hm _ (by simp) rfl
    rw [PyDict.set_of_not_mem _ _ _ hnot, ih _ rfl (fun s h => hs s (by simp [h]))]
    · simp
    · have : PyDict.keys (subs ++ [(primary (raw.map fun r => (r.1, r.2.flatten)),
          raw.map fun r => (r.1, r.2.flatten))]) =
          PyDict.keys subs ++ [primary (raw.map fun r => (r.1, r.2.flatten))] := by
        simp [PyDict.keys]
      rw [this, List.append_assoc]
      simpa using hn

/-! ### Sorting -/

theorem bytesGt_asymm (a b : Bytes) (h : bytesGt a b = true) : bytesGt b a = false := by
  induction a generalizing b with
  | nil => simp [bytesGt] at h
  | cons x a ih =>
    cases b with
    | nil => rfl
    | cons y b =>
      simp only [bytesGt] at h ⊢
      by_cases hxy : x = y
      · subst hxy
        simp only [if_true] at h ⊢
        exact ih b h
      · rw [if_neg hxy, decide_eq_true_eq] at h
        rw [if_neg (fun e => hxy e.symm), decide_eq_false_iff_not]
        rw [UInt8.lt_iff_toNat_lt] at h ⊢
        omega

theorem bytesGt_trans (a b c : Bytes) (h1 : bytesGt a b = false) (h2 : bytesGt b c = false) :
    bytesGt a c = false := by
  induction a generalizing b c with
  | nil => rfl
  | cons x a ih =>
    cases b with
    | nil => simp [bytesGt] at h1
    | cons y b =>
      cases c with
      | nil => simp [bytesGt] at h2
      | cons z c =>
        simp only [bytesGt] at h1 h2 ⊢
        by_cases hxy : x = y
        · subst hxy
          simp only [if_true] at h1
          by_cases hxz : x = z
          · subst hxz
            simp only [if_true] at h2 ⊢
            exact ih b c h1 h2
          · rw [if_neg hxz] at h2 ⊢
            exact h2
        · rw [if_neg hxy, decide_eq_false_iff_not, UInt8.lt_iff_toNat_lt] at h1
          have hne : x.toNat ≠ y.toNat := fun e => hxy (UInt8.toNat_inj.1 e)
          by_cases hyz : y = z
          · subst hyz
            rw [if_neg hxy, decide_eq_false_iff_not, UInt8.lt_iff_toNat_lt]
            exact h1
          · rw [if_neg hyz, decide_eq_false_iff_not, UInt8.lt_iff_toNat_lt] at h2
            have hxz : x ≠ z := by
              rintro rfl
              omega
            rw [if_neg hxz, decide_eq_false_iff_not, UInt8.lt_iff_toNat_lt]
            omega

/-- In the order of the bytes. -/
def Ordered (l : List (Bytes × Section)) : Prop := l.Pairwise fun a b => bytesGt a.1 b.1 = false

theorem insert_ordered (x : Bytes × Section) (l : List (Bytes × Section)) (h : Ordered l) :
    Ordered (insertSection x l) := by
  induction l with
  | nil => simp [insertSection, Ordered]
  | cons y l ih =>
    unfold Ordered at h ih ⊢
    rw [List.pairwise_cons] at h
    simp only [insertSection]
    split
    · rename_i hgt
      have hxy := bytesGt_asymm _ _ hgt
      rw [List.pairwise_cons, List.pairwise_cons]
      refine ⟨?_, h⟩
      intro z hz
      rcases List.mem_cons.1 hz with rfl | hz
      · exact hxy
      · exact bytesGt_trans _ _ _ hxy (h.1 z hz)
    · rename_i hgt
      rw [List.pairwise_cons]
      refine ⟨?_, ih h.2⟩
      intro z hz
      rcases List.mem_cons.1 ((insertSection_perm x l).mem_iff.1 hz) with rfl | hz
      · simpa using hgt
      · exact h.1 z hz

theorem sort_ordered (l acc : List (Bytes × Section)) (h : Ordered acc) :
    Ordered (l.foldl (fun acc x => insertSection x acc) acc) := by
  induction l generalizing acc with
  | nil => exact h
  | cons x l ih => exact ih _ (insert_ordered x acc h)

theorem insert_last (x : Bytes × Section) (l : List (Bytes × Section))
    (h : ∀ y ∈ l, bytesGt y.1 x.1 = false) : insertSection x l = l ++ [x] := by
  induction l with
  | nil => rfl
  | cons y l ih =>
    simp only [insertSection, h y (by simp), Bool.false_eq_true, if_false, List.cons_append]
    rw [ih fun z hz => h z (by simp [hz])]

theorem sort_sorted (l acc : List (Bytes × Section)) (h : Ordered (acc ++ l)) :
    l.foldl (fun acc x => insertSection x acc) acc = acc ++ l := by
  induction l generalizing acc with
  | nil => simp
  | cons x l ih =>
    have h2 := List.pairwise_append.1 h
    rw [List.foldl_cons, insert_last x acc fun y hy => h2.2.2 y hy x (by simp), ih]
    · simp
    · simpa using h

theorem allData_ok_of {ls : Str} (r : List (Bytes × Section))
    (h : ∀ p ∈ r, sectionData p.2 ls = .ok p.1) : allData ls (r.map Prod.snd) = .ok r := by
  induction r with
  | nil => rfl
  | cons p r ih =>
    simp only [List.map_cons, allData, h p (by simp), ih fun q hq => h q (by simp [hq])]

/-- Sorting sorted sections changes nothing. -/
theorem sortedSections_idem {subs : PyDict Str Section} {ss : List Section}
    (h : sortedSections subs = .ok ss) (f : Section → Str) :
    sortedSections (ss.map fun s => (f s, s)) = .ok ss := by
  unfold sortedSections at h
  split at h
  · simp at h
  · rename_i ds hd
    simp only [Except.ok.injEq] at h
    have hperm := sort_perm ds []
    rw [List.append_nil] at hperm
    have hord := sort_ordered ds [] List.Pairwise.nil
    generalize hr : ds.foldl (fun acc x => insertSection x acc) [] = r at *
    have hall : allData "\n".toList (r.map Prod.snd) = .ok r :=
      allData_ok_of r fun p hp => (allData_snd hd).2 p (hperm.mem_iff.1 hp)
    have hsnd : (ss.map fun s => (f s, s)).map Prod.snd = r.map Prod.snd := by
      rw [← h]
      simp
    unfold sortedSections
    rw [hsnd, hall]
    simp only
    rw [sort_sorted r [] (by simpa using hord), List.nil_append, h]

/-! ### Whole manifests -/

theorem allData_ok {ls : Str} (ss : List Section) (h : ∀ s ∈ ss, ∃ b, sectionData s ls = .ok b) :
    ∃ r, allData ls ss = .ok r := by
  induction ss with
  | nil => exact ⟨[], rfl⟩
  | cons s ss ih =>
    obtain ⟨b, hb⟩ := h s (by simp)
    obtain ⟨r, hr⟩ := ih fun x hx => h x (by simp [hx])
    exact ⟨(b, s) :: r, by simp only [allData, hb, hr]⟩

theorem sectionData_ok (s : Section) (ls : Str)
    (h : ∀ i ∈ s, 0 < (encodeUtf8 i.1).length ∧ (encodeUtf8 i.1).length < 69 ∧ i.2 ≠ []) :
    ∃ b, sectionData s ls = .ok b := by
  have : ∃ b, writeItems ls s = .ok b := by
    induction s with
    | nil => exact ⟨[], rfl⟩
    | cons i s ih =>
      obtain ⟨k, v⟩ := i
      obtain ⟨b1, h1⟩ := (C44_written k v ls).2 (h (k, v) (by simp))
      obtain ⟨b2, h2⟩ := ih fun j hj => h j (by simp [hj])
      exact ⟨b1 ++ b2, by simp only [writeItems, h1, h2]⟩
  obtain ⟨b, hb⟩ := this
  exact ⟨b ++ encodeUtf8 ls, by simp only [sectionData, hb]⟩

/-- A manifest that survives: the primary attribute comes first, sections are known by their
names. -/
structure RoundManifest (ls pk : Str) (m : Manifest) : Prop where
  main : RoundSection ls pk m.main
  nodup : (PyDict.keys m.subs).Nodup
  subs : ∀ p ∈ m.subs, RoundSection ls kName p.2 ∧ primary p.2 = p.1

/-- Serialising and parsing, in general. -/
theorem round_trip {ls pk : Str} (hls : IsSep ls) {m : Manifest} (hm : RoundManifest ls pk m)
    (a : Option Str) (ha : orLinesep a m.linesep = ls) (version : Str) (sep0 : Option Str) :
    ∃ b m', m.getData a = .ok b ∧ (Manifest.new pk version sep0).parse b = .ok m' ∧
      m'.main = m.main ∧ m'.subs.Perm m.subs ∧ m'.linesep = some ls ∧ m'.getData = .ok b ∧
      sortedSections m.subs = .ok (m'.subs.map Prod.snd) := by
  have hok : ∀ s ∈ m.subs.map Prod.snd, ∃ b, sectionData s "\n".toList = .ok b := by
    intro s hs
    obtain ⟨p, hp, rfl⟩ := List.mem_map.1 hs
    exact sectionData_ok _ _ fun i hi =>
      ⟨((hm.subs p hp).1.items i hi).size.1, ((hm.subs p hp).1.items i hi).size.2,
        ((hm.subs p hp).1.items i hi).value⟩
  obtain ⟨r, hr⟩ := allData_ok _ hok
  obtain ⟨ss, hss⟩ : ∃ ss, sortedSections m.subs = .ok ss := by
    unfold sortedSections
    rw [hr]
    exact ⟨_, rfl⟩
  have hperm := sortedSections_perm hss
  have hsub : ∀ s ∈ ss, ∃ p ∈ m.subs, p.2 = s := by
    intro s hs
    obtain ⟨p, hp, rfl⟩ := List.mem_map.1 (hperm.mem_iff.1 hs)
    exact ⟨p, hp, rfl⟩
  have hround : ∀ s ∈ ss, RoundSection ls kName s := by
    intro s hs
    obtain ⟨p, hp, rfl⟩ := hsub s hs
    exact (hm.subs p hp).1
  have hne : ∀ {pk : Str} {s : Section}, RoundSection ls pk s → s ≠ [] := by
    intro pk s h
    obtain ⟨v, rest, rfl⟩ := h.head
    simp
  obtain ⟨b, t, raws, h1, h2, h3, h4, h5, _⟩ := sections_text hls (m.main :: ss) (by
    intro s hs
    rcases List.mem_cons.1 hs with rfl | hs
    · exact ⟨hne hm.main, hm.main.items⟩
    · exact ⟨hne (hround s hs), (hround s hs).items⟩)
  cases raws with
  | nil => simp at h3
  | cons raw raws =>
    simp only [List.map_cons, List.cons.injEq] at h3
    obtain ⟨hrm, hrs⟩ := h3
    obtain ⟨v, rest, hv⟩ := hm.main.head
    have hload : loadItems (Manifest.new pk version sep0).main raw = .ok m.main := by
      rw [hv]
      exact load_preset (hrm.trans hv) (hv ▸ hm.main.nodup)
        fun i hi => (hm.main.items i (hv ▸ hi)).clean.short
    have hprim : ss.map (fun s => (primary s, s)) |>.Perm m.subs := by
      have key : m.subs = (m.subs.map Prod.snd).map fun s => (primary s, s) := by
        rw [List.map_map]
        conv => lhs; rw [← List.map_id m.subs]
        apply List.map_congr_left
        intro p hp
        exact Prod.ext (hm.subs p hp).2.symm rfl
      conv => rhs; rw [key]
      exact hperm.map _
    have hnodup : (ss.map primary).Nodup := by
      have h6 : (ss.map fun s => (primary s, s)).map Prod.fst = ss.map primary := by
        rw [List.map_map]; rfl
      rw [← h6]
      exact (hprim.map Prod.fst).nodup_iff.2 hm.nodup
    have hsubs : loadSubs (Manifest.new pk version sep0).subs raws =
        .ok (ss.map fun s => (primary s, s)) := by
      have := loadSubs_round (ls := ls) raws ss hrs hround []
        (by simpa [PyDict.keys] using hnodup)
      simpa [Manifest.new] using this
    have hgetm : ∀ m'' : Manifest, m''.main = m.main → sortedSections m''.subs = .ok ss →
        ∀ a', orLinesep a' m''.linesep = ls → m''.getData a' = .ok b := by
      intro m'' e1 e2 a' e3
      unfold Manifest.getData
      simp only [e1, e2, e3]
      exact h1
    refine ⟨b, { main := m.main, subs := ss.map fun s => (primary s, s), linesep := some ls },
      hgetm m rfl hss a ha, ?_, rfl, hprim, rfl, ?_, ?_⟩
    · unfold Manifest.parse parseSections
      simp only
      rw [h2, decodeIgnore_encode, h4]
      simp only [hload, hsubs, h5 (by simp)]
    · refine hgetm { main := m.main, subs := ss.map fun s => (primary s, s), linesep := some ls } rfl
        (sortedSections_idem hss primary) none ?_
      rcases hls with rfl | rfl
      · rfl
      · rfl
    · rw [hss, List.map_map]
      exact congrArg _ (List.map_id ss).symm

/-! ### C45 -/

/-- The characters of attribute names (JAR file specification). -/
def NameChar (c : Char) : Prop := c.isAlphanum = true ∨ c = '-' ∨ c = '_'

/-- Legal attributes (JAR file specification): names of 1 to 70 letters, digits, `-` and `_`
starting with a letter or digit (javatools allows 68), values without NUL, CR and LF. -/
structure LegalItem (i : Str × Str) : Prop where
  name : i.1 ≠ [] ∧ i.1.length ≤ 68 ∧ ∀ c ∈ i.1, NameChar c
  value : ∀ c ∈ i.2, c ≠ '\x00' ∧ c ≠ '\r' ∧ c ≠ '\n'

/-- A manifest of legal attributes, built by the API: primary attributes first, distinct names,
sections known by their names. -/
structure LegalManifest (pk : Str) (m : Manifest) : Prop where
  main : (∃ v rest, m.main = (pk, v) :: rest) ∧ (PyDict.keys m.main).Nodup ∧ ∀ i ∈ m.main, LegalItem i
  nodup : (PyDict.keys m.subs).Nodup
  subs : ∀ p ∈ m.subs, (∃ rest, p.2 = (kName, p.1) :: rest) ∧ (PyDict.keys p.2).Nodup ∧
    ∀ i ∈ p.2, LegalItem i

/-- What surviving means. -/
def Survives (pk : Str) (m : Manifest) (a : Option Str) : Prop :=
  ∃ b m', m.getData a = .ok b ∧ (Manifest.new pk "1.0".toList none).parse b = .ok m' ∧
    m'.main = m.main ∧ m'.subs.Perm m.subs ∧ m'.getData = .ok b

/-- C45 as stated. -/
def C45_full : Prop :=
  ∀ (pk : Str) (m : Manifest) (a : Option Str), IsPrimaryKey pk → LegalManifest pk m →
    IsSep (orLinesep a m.linesep) → Survives pk m a

/-- C45 for manifests whose values are not empty, contain none of the other characters at which
`str.splitlines` breaks, and are not broken inside a character. Missing: exactly those values, see
the counterexamples below. -/
theorem C45_partial (pk : Str) (m : Manifest) (a : Option Str) (hls : IsSep (orLinesep a m.linesep))
    (hm : RoundManifest (orLinesep a m.linesep) pk m) : Survives pk m a := by
  obtain ⟨b, m', h1, h2, h3, h4, _, h6, _⟩ := round_trip hls hm a rfl "1.0".toList none
  exact ⟨b, m', h1, h2, h3, h4, h6⟩

/-- Printable ASCII text. -/
def Printable (s : Str) : Prop := ∀ c ∈ s, 32 ≤ c.toNat ∧ c.toNat < 127

theorem ascii_bytes (b : Bytes) (h : ∀ x ∈ b, x.toNat < 128) : ∃ t, b = encodeUtf8 t := by
  induction b with
  | nil => exact ⟨[], rfl⟩
  | cons x b ih =>
    obtain ⟨t, rfl⟩ := ih fun y hy => h y (by simp [hy])
    have hx := h x (by simp)
    refine ⟨Char.ofNat x.toNat :: t, ?_⟩
    have hc : (Char.ofNat x.toNat).toNat = x.toNat := by
      have : ∀ n : Fin 128, (Char.ofNat n.1).toNat = n.1 := by decide +kernel
      exact this ⟨x.toNat, hx⟩
    rw [encodeUtf8_cons, encodeChar_ascii (by omega), hc]
    simp

theorem contLines_bytes (ls : Bytes) (fuel : Nat) (kv : Bytes) :
    ∀ x ∈ contLines ls fuel kv, x ∈ ls ∨ x = 32 ∨ x ∈ kv := by
  induction fuel generalizing kv with
  | zero => simp [contLines]
  | succ fuel ih =>
    intro x hx
    simp only [contLines] at hx
    split at hx
    · simp at hx
    · simp only [List.mem_append, List.mem_cons] at hx
      rcases hx with (hx | hx | hx) | hx
      · exact .inl hx
      · exact .inr (.inl hx)
      · exact .inr (.inr (List.mem_of_mem_take hx))
      · rcases ih _ x hx with h | h | h
        · exact .inl h
        · exact .inr (.inl h)
        · exact .inr (.inr (List.mem_of_mem_drop h))

theorem ascii_encode {s : Str} (h : ∀ c ∈ s, c.toNat < 128) :
    (∀ x ∈ encodeUtf8 s, x.toNat < 128) ∧ (encodeUtf8 s).length = s.length := by
  induction s with
  | nil => simp [encodeUtf8_nil]
  | cons c s ih =>
    have hc := h c (by simp)
    obtain ⟨h1, h2⟩ := ih fun d hd => h d (by simp [hd])
    rw [encodeUtf8_cons, encodeChar_ascii hc]
    constructor
    · intro x hx
      simp only [List.singleton_append, List.mem_cons] at hx
      rcases hx with rfl | hx
      · rw [toNat_ofNat_lt (by omega)]; exact hc
      · exact h1 x hx
    · simp [h2]

/-- Attributes of printable characters survive. -/
theorem printable_round {ls : Str} (hls : IsSep ls) (i : Str × Str) (hk : CleanKey i.1)
    (hkp : Printable i.1) (hn : i.1 ≠ []) (hl : i.1.length ≤ 68) (hv : Printable i.2) (hne : i.2 ≠ []) :
    RoundItem ls i := by
  have hka := ascii_encode (s := i.1) fun c hc => by have := hkp c hc; omega
  have hva := ascii_encode (s := i.2) fun c hc => by have := hv c hc; omega
  have hpos : 0 < i.1.length := List.length_pos_iff.2 hn
  refine ⟨⟨hk, hl, ?_⟩, ⟨by omega, by omega⟩, hne, ?_⟩
  · intro c hc
    have h := hv c hc
    constructor
    · unfold isLineBreak
      simp only [Bool.or_eq_false_iff, beq_eq_false_iff_ne]
      omega
    · rintro rfl
      revert h
      decide
  · intro b hb
    apply ascii_bytes
    have hsep : ∀ x ∈ encodeUtf8 ls, x.toNat < 128 := by
      rcases hls with rfl | rfl
      · rw [enc_lf]; decide
      · rw [enc_crlf]; decide
    have hcs : ∀ x ∈ ([58, 32] : Bytes), x.toNat < 128 := by decide
    have hkv : ∀ x ∈ encodeUtf8 i.1 ++ [58, 32] ++ encodeUtf8 i.2, x.toNat < 128 := by
      intro x hx
      simp only [List.mem_append] at hx
      rcases hx with (hx | hx) | hx
      · exact hka.1 x hx
      · exact hcs x hx
      · exact hva.1 x hx
    unfold writeKeyVal at hb
    simp only at hb
    split at hb
    · simp at hb
    · split at hb
      · simp only [Except.ok.injEq] at hb
        subst hb
        intro x hx
        rcases List.mem_append.1 hx with hx | hx
        · rcases List.mem_append.1 hx with hx | hx
          · exact hkv x (List.mem_of_mem_take hx)
          · rcases contLines_bytes _ _ _ x hx with h | h | h
            · exact hsep x h
            · rw [h]; decide
            · exact hkv x (List.mem_of_mem_drop h)
        · exact hsep x hx
      · split at hb
        · simp at hb
        · simp only [Except.ok.injEq] at hb
          subst hb
          intro x hx
          rcases List.mem_append.1 hx with hx | hx
          · exact hkv x hx
          · exact hsep x hx

theorem nameChar_table : ∀ n : Fin 128, (Char.ofNat n.1).isAlphanum = true →
    33 ≤ n.1 ∧ n.1 < 127 ∧ n.1 ≠ 58 := by decide +kernel

theorem nameChar_spec {c : Char} (h : NameChar c) : 33 ≤ c.toNat ∧ c.toNat < 127 ∧ c.toNat ≠ 58 := by
  rcases h with h | rfl | rfl
  · by_cases hc : c.toNat < 128
    · have := nameChar_table ⟨c.toNat, hc⟩
      simp only [char_ofNat_toNat] at this
      exact this h
    · exfalso
      have hup : c.isUpper = false := by
        rw [Bool.eq_false_iff]
        intro h2
        have h3 : c.toNat ≤ 90 := by
          simp only [Char.isUpper, Bool.and_eq_true, decide_eq_true_eq] at h2
          exact h2.2
        omega
      have hlo : c.isLower = false := by
        rw [Bool.eq_false_iff]
        intro h2
        have h3 : c.toNat ≤ 122 := by
          simp only [Char.isLower, Bool.and_eq_true, decide_eq_true_eq] at h2
          exact h2.2
        omega
      have hdi : c.isDigit = false := by
        rw [Bool.eq_false_iff]
        intro h2
        have h3 : c.toNat ≤ 57 := by
          simp only [Char.isDigit, Bool.and_eq_true, decide_eq_true_eq] at h2
          exact h2.2
        omega
      simp [Char.isAlphanum, Char.isAlpha, hup, hlo, hdi] at h
  · decide
  · decide

theorem legal_key {k : Str} (h : ∀ c ∈ k, NameChar c) : CleanKey k ∧ Printable k := by
  have hs := fun c hc => nameChar_spec (h c hc)
  refine ⟨⟨?_, ?_, ?_⟩, fun c hc => by have := hs c hc; omega⟩
  · intro hm
    have := hs _ hm
    revert this
    decide
  · cases k with
    | nil => simp
    | cons c k =>
      have := hs c (by simp)
      simp only [List.head?_cons, ne_eq, Option.some.injEq]
      rintro rfl
      revert this
      decide
  · intro c hc
    have := hs c hc
    constructor
    · unfold isLineBreak
      simp only [Bool.or_eq_false_iff, beq_eq_false_iff_ne]
      omega
    · rintro rfl
      revert this
      decide

/-- C45 for legal manifests whose values are printable ASCII text that is not empty. -/
theorem C45_ascii_partial (pk : Str) (m : Manifest) (a : Option Str) (hm : LegalManifest pk m)
    (hls : IsSep (orLinesep a m.linesep))
    (hmain : ∀ i ∈ m.main, Printable i.2 ∧ i.2 ≠ [])
    (hsubs : ∀ p ∈ m.subs, ∀ i ∈ p.2, Printable i.2 ∧ i.2 ≠ []) : Survives pk m a := by
  refine C45_partial pk m a hls ⟨⟨hm.main.1, hm.main.2.1, ?_⟩, hm.nodup, ?_⟩
  · intro i hi
    have hl := hm.main.2.2 i hi
    have hk := legal_key hl.name.2.2
    exact printable_round hls i hk.1 hk.2 hl.name.1 hl.name.2.1 (hmain i hi).1 (hmain i hi).2
  · intro p hp
    obtain ⟨⟨rest, hr⟩, hn, hit⟩ := hm.subs p hp
    refine ⟨⟨⟨_, rest, hr⟩, hn, ?_⟩, ?_⟩
    · intro i hi
      have hl := hit i hi
      have hk := legal_key hl.name.2.2
      exact printable_round hls i hk.1 hk.2 hl.name.1 hl.name.2.1 (hsubs p hp i hi).1
        (hsubs p hp i hi).2
    · rw [hr]
      simp [primary, PyDict.get?]

/-- A manifest with one more attribute. -/
def oneAttribute (v : Str) : Manifest :=
  { main := [(kManifestVersion, "1.0".toList), ("K".toList, v)], subs := [], linesep := none }

instance (i : Str × Str) : Decidable (i.1 ≠ [] ∧ i.1.length ≤ 68 ∧ ∀ c ∈ i.1, NameChar c) := by
  unfold NameChar
  infer_instance

theorem oneAttribute_legal (v : Str) (hv : ∀ c ∈ v, c ≠ '\x00' ∧ c ≠ '\r' ∧ c ≠ '\n') :
    LegalManifest kManifestVersion (oneAttribute v) where
  main := by
    refine ⟨⟨_, _, rfl⟩, by simp [oneAttribute, PyDict.keys]; try decide, ?_⟩
    intro i hi
    simp only [oneAttribute, List.mem_cons, List.not_mem_nil, or_false] at hi
    rcases hi with rfl | rfl
    · exact ⟨by unfold NameChar; decide, by decide⟩
    · exact ⟨by unfold NameChar; simp, hv⟩
  nodup := by simp [oneAttribute, PyDict.keys]
  subs := by simp [oneAttribute]

/-- An empty value makes `store` raise TypeError. -/
theorem C45_empty_value : (oneAttribute []).getData = .error .typeError := by decide +kernel

/-- U+0085 and similar characters cut the value: here the rest of the line is taken for another
attribute. -/
theorem C45_line_break : ∃ b m', (oneAttribute "a\u0085X: b".toList).getData = .ok b ∧
    emptyManifest.parse b = .ok m' ∧
    m'.main = [(kManifestVersion, "1.0".toList), ("K".toList, "a".toList), ("X".toList, "b".toList)] :=
  ⟨_, _, rfl, by rfl, by decide +kernel⟩

/-- A character that straddles the end of a line is lost. -/
theorem C45_broken_character : ∃ b m',
    (oneAttribute (List.replicate 66 'x' ++ "é".toList)).getData = .ok b ∧
    emptyManifest.parse b = .ok m' ∧
    m'.main = [(kManifestVersion, "1.0".toList), ("K".toList, List.replicate 66 'x')] :=
  ⟨_, _, rfl, by rfl, by decide +kernel⟩

theorem C45_full_fails : ¬ C45_full := by
  intro h
  obtain ⟨b, m', h1, _⟩ := h kManifestVersion (oneAttribute []) none (.inl rfl)
    (oneAttribute_legal [] (by simp)) (.inl rfl)
  rw [C45_empty_value] at h1
  simp at h1

/-- A legal manifest with two sections, one value folded. -/
example : LegalManifest kManifestVersion exampleManifest ∧
    exampleManifest.getData ≠ .ok exampleText := by
  refine ⟨⟨⟨⟨_, _, rfl⟩, by simp [exampleManifest, PyDict.keys]; decide, ?_⟩, by
    simp [exampleManifest, PyDict.keys], ?_⟩, by decide +kernel⟩
  · intro i hi
    simp only [exampleManifest, List.mem_cons, List.not_mem_nil, or_false] at hi
    rcases hi with rfl | rfl <;> exact ⟨by unfold NameChar; decide, by decide⟩
  · intro p hp
    simp only [exampleManifest, List.mem_cons, List.not_mem_nil, or_false] at hp
    rcases hp with rfl | rfl
    · refine ⟨⟨_, rfl⟩, by simp [PyDict.keys]; decide, ?_⟩
      intro i hi
      simp only [List.mem_cons, List.not_mem_nil, or_false] at hi
      rcases hi with rfl | rfl <;> exact ⟨by unfold NameChar; decide, by decide⟩
    · refine ⟨⟨_, rfl⟩, by simp [PyDict.keys], ?_⟩
      intro i hi
      simp only [List.mem_cons, List.not_mem_nil, or_false] at hi
      rcases hi with rfl
      exact ⟨by unfold NameChar; decide, by decide⟩

end Javatools
