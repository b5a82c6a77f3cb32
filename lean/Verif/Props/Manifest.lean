import Verif.Proofs.Manifest
import Verif.Proofs.Text
/-
C44, C46, C47, C48: manifest files.
-/
namespace Javatools

/-! ### C44 -/

/-- No line is longer than `n` bytes, its terminator included: a stretch of bytes whose line feed,
if it has one, is its last byte, has at most `n` bytes. -/
def ShortLines (n : Nat) (b : Bytes) : Prop :=
  ∀ p l s : Bytes, b = p ++ l ++ s → (10 : UInt8) ∉ l.dropLast → l.length ≤ n

theorem Pieces.short {n : Nat} {b : Bytes} (h : Pieces n b) : ShortLines n b := by
  induction h with
  | nil =>
    intro p l s hb _
    have : l = [] := by
      have := congrArg List.length hb
      simp only [List.length_nil, List.length_append] at this
      exact List.length_eq_zero_iff.1 (by omega)
    simp [this]
  | cons q rest hq _ ih =>
    intro p l s hb hl
    have hb' : (q ++ [10]) ++ rest = p ++ (l ++ s) := by simpa [List.append_assoc] using hb
    rcases List.append_eq_append_iff.1 hb' with ⟨a, h1, h2⟩ | ⟨c, h1, h2⟩
    · exact ih a l s (by rw [h2, List.append_assoc]) hl
    · rcases List.append_eq_append_iff.1 h2 with ⟨d, h3, h4⟩ | ⟨d, h3, h4⟩
      · have hlen := congrArg List.length h1
        have hlen3 := congrArg List.length h3
        simp only [List.length_append] at hlen hlen3 hq
        omega
      · by_cases hc : c = []
        · subst hc
          simp only [List.nil_append] at h3
          subst h3
          exact ih [] l s (by simpa using h4) hl
        · by_cases hd : d = []
          · have hlen := congrArg List.length h1
            subst hd
            simp only [List.append_nil] at h3
            subst h3
            simp only [List.length_append] at hlen hq
            omega
          · exfalso
            have h10 : (10 : UInt8) ∈ c := by
              have h5 : c.getLast? = some 10 := by
                have := congrArg List.getLast? h1
                rw [List.getLast?_append, List.getLast?_append] at this
                cases hcl : c.getLast? with
                | none => exact absurd (List.getLast?_eq_none_iff.1 hcl) hc
                | some x => rw [hcl] at this; simpa using this.symm
              exact List.mem_of_getLast? h5
            apply hl
            rw [h3, List.dropLast_append_of_ne_nil hd]
            exact List.mem_append_left _ h10

/-- C44: no line written for an attribute has more than 72 bytes, the terminator included. -/
theorem C44_item (k v ls : Str) (b : Bytes) (hls : IsSep ls) (h : writeKeyVal k v ls = .ok b) :
    ShortLines 72 b := (writeKeyVal_pieces hls h).short

/-- C44: keys of no or more than 68 bytes are refused, and only those. -/
theorem C44_refused (k v ls : Str) :
    writeKeyVal k v ls = .error .manifestKey ↔
      (encodeUtf8 k).length = 0 ∨ 68 < (encodeUtf8 k).length := by
  unfold writeKeyVal
  simp only
  constructor
  · intro h
    split at h
    · omega
    · split at h
      · simp at h
      · split at h <;> simp at h
  · intro h
    rw [if_pos (by omega)]

/-- C44 for sections and whole manifests. -/
theorem C44_section (s : Section) (ls : Str) (b : Bytes) (hls : IsSep ls)
    (h : sectionData s ls = .ok b) : ShortLines 72 b := (sectionData_pieces hls h).short

theorem C44_manifest (m : Manifest) (a : Option Str) (b : Bytes) (hls : IsSep (orLinesep a m.linesep))
    (h : m.getData a = .ok b) : ShortLines 72 b := by
  obtain ⟨ss, _, h2⟩ := getData_sections h
  exact (writeSections_pieces hls h2).short

/-- Apart from refused keys, the only failure is the empty value. -/
theorem C44_written (k v ls : Str) :
    (∃ b, writeKeyVal k v ls = .ok b) ↔
      0 < (encodeUtf8 k).length ∧ (encodeUtf8 k).length < 69 ∧ v ≠ [] := by
  have hv : encodeUtf8 v = [] ↔ v = [] := by
    constructor
    · intro h
      exact encodeUtf8_injective (by rw [h]; rfl)
    · rintro rfl; rfl
  unfold writeKeyVal
  simp only
  constructor
  · rintro ⟨b, h⟩
    split at h
    · simp at h
    · rename_i h0
      split at h
      · rename_i h1
        refine ⟨by omega, by omega, ?_⟩
        rintro rfl
        rw [encodeUtf8_nil] at h1
        simp at h1
        omega
      · split at h
        · simp at h
        · rename_i h2
          refine ⟨by omega, by omega, ?_⟩
          rw [List.isEmpty_iff, hv] at h2
          exact h2
  · rintro ⟨h1, h2, h3⟩
    rw [if_neg (by omega)]
    split
    · exact ⟨_, rfl⟩
    · rw [if_neg (by rw [List.isEmpty_iff, hv]; exact h3)]
      exact ⟨_, rfl⟩

/-- A value of 196 characters takes three full lines of 72 bytes. -/
example : (writeKeyVal "Class-Path".toList (List.replicate 196 'x') "\r\n".toList).map List.length =
    .ok 216 ∧ writeKeyVal [] "x".toList "\n".toList = .error .manifestKey ∧
    writeKeyVal "K".toList [] "\n".toList = .error .typeError := by decide +kernel

/-! ### C46 -/

/-- A manifest (or signature manifest, according to the primary key) as produced by parsing. -/
def Parsed (pk : Str) (m : Manifest) : Prop :=
  ∃ data : Bytes, (Manifest.new pk "1.0".toList none).parse data = .ok m

/-- The primary keys of the two classes. -/
def IsPrimaryKey (pk : Str) : Prop := pk = kManifestVersion ∨ pk = kSignatureVersion

theorem parsed_clean {pk : Str} (hpk : IsPrimaryKey pk) {m : Manifest} (h : Parsed pk m) :
    CleanManifest pk m := by
  obtain ⟨data, h⟩ := h
  refine parse_clean ?_ (by simp [Manifest.new, PyDict.keys]) ⟨_, [], rfl⟩
    ⟨by simp [Manifest.new, PyDict.keys], by simp [Manifest.new]⟩ h
  intro i hi
  simp only [Manifest.new, List.mem_singleton] at hi
  subst hi
  rcases hpk with rfl | rfl
  · exact ⟨⟨by decide, by decide, by decide⟩, by decide, by decide⟩
  · exact ⟨⟨by decide, by decide, by decide⟩, by decide, by decide⟩

/-- A section of a parsed manifest: the main section or one of the others. -/
def ParsedSection (s : Section) : Prop :=
  ∃ pk m, IsPrimaryKey pk ∧ Parsed pk m ∧ (s = m.main ∨ ∃ name, (name, s) ∈ m.subs)

theorem parsedSection_safe {s : Section} (h : ParsedSection s) : SafeSection s := by
  obtain ⟨pk, m, hpk, hm, hs⟩ := h
  have hc := parsed_clean hpk hm
  rcases hs with rfl | ⟨name, hs⟩
  · exact fun i hi => (hc.items i hi).safe
  · exact fun i hi => ((hc.subs.clean _ hs).1.items i hi).safe

/-- C46, sections: equal bytes, equal attributes in the same order, whatever the separators. -/
theorem C46_sections (s t : Section) (hs : ParsedSection s) (ht : ParsedSection t) (ls1 ls2 : Str)
    (h1 : IsSep ls1) (h2 : IsSep ls2) (b : Bytes) (hb : sectionData s ls1 = .ok b)
    (hc : sectionData t ls2 = .ok b) : s = t :=
  sectionData_inj h1 h2 (parsedSection_safe hs) (parsedSection_safe ht) hb hc

theorem orLinesep_isSep {a l : Option Str} (ha : ∀ x, a = some x → IsSep x)
    (hl : ∃ ls, l = some ls ∧ IsSep ls) : IsSep (orLinesep a l) := by
  obtain ⟨ls, rfl, hls⟩ := hl
  unfold orLinesep
  split
  · rename_i c cs
    exact ha _ rfl
  · split
    · rename_i h
      cases h
      exact hls
    · exact .inl rfl

theorem nodup_subs_perm {a b : PyDict Str Section} (ha : CleanSubs a) (hb : CleanSubs b)
    (h : (a.map Prod.snd).Perm (b.map Prod.snd)) : a.Perm b := by
  have key : ∀ d : PyDict Str Section, CleanSubs d →
      d = (d.map Prod.snd).map fun s => (primary s, s) := by
    intro d hd
    rw [List.map_map]
    conv => lhs; rw [← List.map_id d]
    apply List.map_congr_left
    intro p hp
    have := (hd.clean p hp).2
    exact Prod.ext this rfl
  rw [key a ha, key b hb]
  exact h.map _

theorem get?_perm {a b : PyDict Str Section} (ha : (PyDict.keys a).Nodup) (h : a.Perm b) (k : Str) :
    PyDict.get? a k = PyDict.get? b k := by
  have hb : (PyDict.keys b).Nodup := (h.map Prod.fst).nodup_iff.1 ha
  cases hk : PyDict.get? a k with
  | some v => exact (PyDict.get?_of_mem_nodup hb (h.mem_iff.1 (PyDict.mem_of_get? hk))).symm
  | none =>
    symm
    rw [PyDict.get?_eq_none_iff] at hk ⊢
    exact fun hm => hk ((h.map Prod.fst).mem_iff.2 hm)

/-- What two manifests have in common when they have the same attributes: the main section, and
the same sections under the same names. -/
def SameAttributes (m n : Manifest) : Prop :=
  m.main = n.main ∧ ∀ name, PyDict.get? m.subs name = PyDict.get? n.subs name

/-- Equality of the bytes, for clean manifests. -/
theorem getData_inj {pk1 pk2 : Str} {m n : Manifest} (hm : CleanManifest pk1 m)
    (hn : CleanManifest pk2 n) {a1 a2 : Option Str} (h1 : ∀ x, a1 = some x → IsSep x)
    (h2 : ∀ x, a2 = some x → IsSep x) {b : Bytes} (hb : m.getData a1 = .ok b)
    (hc : n.getData a2 = .ok b) : SameAttributes m n ∧ m.subs.Perm n.subs := by
  obtain ⟨ss, hs1, hs2⟩ := getData_sections hb
  obtain ⟨ts, ht1, ht2⟩ := getData_sections hc
  have p1 := sortedSections_perm hs1
  have p2 := sortedSections_perm ht1
  have safe : ∀ {pk : Str} {m : Manifest} {ss : List Section}, CleanManifest pk m →
      ss.Perm (m.subs.map Prod.snd) → ∀ s ∈ m.main :: ss, SafeSection s := by
    intro pk m ss hm hp s hs
    rcases List.mem_cons.1 hs with rfl | hs
    · exact fun i hi => (hm.items i hi).safe
    · obtain ⟨p, hp, rfl⟩ := List.mem_map.1 (hp.mem_iff.1 hs)
      exact fun i hi => ((hm.subs.clean _ hp).1.items i hi).safe
  have := writeSections_inj (orLinesep_isSep h1 hm.sep) (orLinesep_isSep h2 hn.sep) (safe hm p1)
    (safe hn p2) hs2 ht2
  simp only [List.cons.injEq] at this
  obtain ⟨e1, rfl⟩ := this
  have hperm := nodup_subs_perm hm.subs hn.subs (p1.symm.trans p2)
  exact ⟨⟨e1, get?_perm hm.subs.nodup hperm⟩, hperm⟩

/-- C46, manifests. -/
theorem C46_manifests (pk1 pk2 : Str) (hpk1 : IsPrimaryKey pk1) (hpk2 : IsPrimaryKey pk2)
    (m n : Manifest) (hm : Parsed pk1 m) (hn : Parsed pk2 n) (a1 a2 : Option Str)
    (h1 : ∀ x, a1 = some x → IsSep x) (h2 : ∀ x, a2 = some x → IsSep x) (b : Bytes)
    (hb : m.getData a1 = .ok b) (hc : n.getData a2 = .ok b) : SameAttributes m n :=
  (getData_inj (parsed_clean hpk1 hm) (parsed_clean hpk2 hn) h1 h2 hb hc).1

/-- Two inputs with the same digest. -/
def Collision (h : Bytes → Bytes) : Prop := ∃ x y, x ≠ y ∧ h x = h y

/-- C46: equal recorded digests of serialised sections mean equal sections, or a collision. -/
theorem C46_digest (h : Bytes → Bytes) (s t : Section) (hs : ParsedSection s) (ht : ParsedSection t)
    (ls1 ls2 : Str) (h1 : IsSep ls1) (h2 : IsSep ls2) (b c : Bytes) (hb : sectionData s ls1 = .ok b)
    (hc : sectionData t ls2 = .ok c) (hd : b64encode (h b) = b64encode (h c)) :
    s = t ∨ Collision h := by
  by_cases he : b = c
  · subst he
    exact .inl (C46_sections s t hs ht ls1 ls2 h1 h2 b hb hc)
  · exact .inr ⟨b, c, he, b64encode_injective hd⟩

theorem C46_digest_manifest (h : Bytes → Bytes) (pk1 pk2 : Str) (hpk1 : IsPrimaryKey pk1)
    (hpk2 : IsPrimaryKey pk2) (m n : Manifest) (hm : Parsed pk1 m) (hn : Parsed pk2 n) (b c : Bytes)
    (hb : m.getData = .ok b) (hc : n.getData = .ok c) (hd : b64encode (h b) = b64encode (h c)) :
    SameAttributes m n ∨ Collision h := by
  by_cases he : b = c
  · subst he
    exact .inl (C46_manifests pk1 pk2 hpk1 hpk2 m n hm hn none none (by simp) (by simp) b hb hc)
  · exact .inr ⟨b, c, he, b64encode_injective hd⟩

/-- A small manifest with two sections, used in the examples. -/
def exampleText : Bytes :=
  encodeUtf8 "Manifest-Version: 1.0\r\nX: a: b\r\n\r\nName: q\r\nK: v\r\n w\r\n\r\nName: p\r\n".toList

def exampleManifest : Manifest :=
  { main := [(kManifestVersion, "1.0".toList), ("X".toList, "a: b".toList)]
    subs := [("q".toList, [(kName, "q".toList), ("K".toList, "vw".toList)]),
      ("p".toList, [(kName, "p".toList)])]
    linesep := some "\r\n".toList }

theorem example_parsed : Parsed kManifestVersion exampleManifest :=
  ⟨exampleText, by decide +kernel⟩

/-- The sections are written in the order of their bytes. -/
example : exampleManifest.getData = .ok (encodeUtf8
    "Manifest-Version: 1.0\r\nX: a: b\r\n\r\nName: p\r\n\r\nName: q\r\nK: vw\r\n\r\n".toList) := by
  decide +kernel

/-- Without the condition on keys the claim is false: these sections are not equal. -/
example : sectionData [("A".toList, "b: c".toList)] "\n".toList =
    sectionData [("A: b".toList, "c".toList)] "\n".toList := by decide +kernel

/-! ### C47 -/

/-- The line without its NUL characters. -/
def cleaned (l : Str) : Str := l.filter fun c => c ≠ '\x00'

/-- Nothing is left of the line. -/
def BlankLine (l : Str) : Prop := cleaned l = []

/-- The line starts with a space: a continuation. -/
def ContLine (l : Str) : Prop := ∃ r, cleaned l = ' ' :: r

/-- Not blank, not a continuation and without a colon, or a continuation with no line before it in
its section. -/
def BadAt (pre : List Str) (l : Str) : Prop :=
  (¬ BlankLine l ∧ ¬ ContLine l ∧ ':' ∉ cleaned l) ∨
    (ContLine l ∧ (pre = [] ∨ ∃ b, pre.getLast? = some b ∧ BlankLine b))

def BadLines (lines : List Str) : Prop := ∃ pre l post, lines = pre ++ l :: post ∧ BadAt pre l

/-- Some attribute name has more than 68 characters. -/
def LongKey (lines : List Str) : Prop :=
  ∃ l ∈ lines, ¬ ContLine l ∧ ∃ k v, cleaned l = k ++ ':' :: v ∧ ':' ∉ k ∧ 68 < k.length

def AllBlank (lines : List Str) : Prop := ∀ l ∈ lines, BlankLine l

theorem splitFirst_none {x : Char} {s : Str} : splitFirst x s = none ↔ x ∉ s := by
  induction s with
  | nil => simp [splitFirst]
  | cons c s ih =>
    simp only [splitFirst]
    split
    · rename_i h; simp [h]
    · rename_i h
      simp only [Option.map_eq_none_iff, ih, List.mem_cons, not_or]
      exact ⟨fun h2 => ⟨fun e => h e.symm, h2⟩, fun h2 => h2.2⟩

theorem splitFirst_some {x : Char} {a b : Str} (h : x ∉ a) : splitFirst x (a ++ x :: b) = some (a, b) := by
  induction a with
  | nil => simp [splitFirst]
  | cons c a ih =>
    simp only [List.mem_cons, not_or] at h
    simp only [List.cons_append, splitFirst]
    rw [if_neg (fun e => h.1 e.symm), ih h.2]
    rfl

/-- Bad lines after the first line, given whether a section is open before it. -/
def BadFrom (isOpen : Bool) (lines : List Str) : Prop :=
  ∃ pre l post, lines = pre ++ l :: post ∧
    ((¬ BlankLine l ∧ ¬ ContLine l ∧ ':' ∉ cleaned l) ∨
      (ContLine l ∧ ((pre = [] ∧ isOpen = false) ∨ ∃ b, pre.getLast? = some b ∧ BlankLine b)))

theorem badFrom_false (lines : List Str) : BadFrom false lines ↔ BadLines lines := by
  simp [BadFrom, BadLines, BadAt]

theorem badFrom_cons (o : Bool) (l : Str) (lines : List Str) (o' : Bool)
    (ho : o' = false ↔ BlankLine l) :
    BadFrom o (l :: lines) ↔
      ((¬ BlankLine l ∧ ¬ ContLine l ∧ ':' ∉ cleaned l) ∨ (ContLine l ∧ o = false)) ∨
        BadFrom o' lines := by
  constructor
  · rintro ⟨pre, x, post, h, hb⟩
    cases pre with
    | nil =>
      simp only [List.nil_append, List.cons.injEq] at h
      obtain ⟨rfl, rfl⟩ := h
      rcases hb with hb | ⟨hc, hb⟩
      · exact .inl (.inl hb)
      · rcases hb with hb | ⟨b, hb, _⟩
        · exact .inl (.inr ⟨hc, hb.2⟩)
        · simp at hb
    | cons p pre =>
      simp only [List.cons_append, List.cons.injEq] at h
      obtain ⟨rfl, rfl⟩ := h
      refine .inr ⟨pre, x, post, rfl, ?_⟩
      rcases hb with hb | ⟨hc, hb⟩
      · exact .inl hb
      · refine .inr ⟨hc, ?_⟩
        rcases hb with hb | ⟨b, hb, hbl⟩
        · simp at hb
        · cases pre with
          | nil =>
            simp only [List.getLast?_singleton, Option.some.injEq] at hb
            subst hb
            exact .inl ⟨rfl, ho.2 hbl⟩
          | cons q pre =>
            rw [List.getLast?_cons_cons] at hb
            exact .inr ⟨b, hb, hbl⟩
  · rintro (hb | ⟨pre, x, post, rfl, hb⟩)
    · refine ⟨[], l, lines, rfl, ?_⟩
      rcases hb with hb | ⟨hc, hb⟩
      · exact .inl hb
      · exact .inr ⟨hc, .inl ⟨rfl, hb⟩⟩
    · refine ⟨l :: pre, x, post, rfl, ?_⟩
      rcases hb with hb | ⟨hc, hb⟩
      · exact .inl hb
      · refine .inr ⟨hc, .inr ?_⟩
        rcases hb with ⟨rfl, hb⟩ | ⟨b, hb, hbl⟩
        · exact ⟨l, by simp, ho.1 hb⟩
        · cases pre with
          | nil => simp at hb
          | cons q pre => exact ⟨b, by rw [List.getLast?_cons_cons]; exact hb, hbl⟩

theorem appendLast_isEmpty (x : Str) (is : List RawItem) : (appendLast x is).isEmpty = is.isEmpty := by
  fun_cases appendLast x is <;> simp

theorem appendLast_keys (x : Str) (is : List RawItem) :
    (appendLast x is).map Prod.fst = is.map Prod.fst := by
  fun_induction appendLast x is with
  | case1 => rfl
  | case2 => rfl
  | case3 i is _ ih => simp [ih]

/-- The name that a line gives to an attribute. -/
def lineKey (l : Str) : Option Str :=
  match cleaned l with
  | [] => none
  | c :: cs => if c = ' ' then none else (splitFirst ':' (c :: cs)).map Prod.fst

/-- What the generator yields and how it ends. -/
theorem parseLines_spec (lines : List Str) (curr : List RawItem) :
    ((parseLines curr lines).2 = none ∧ ¬ BadFrom (!curr.isEmpty) lines ∧
        (parseLines curr lines).1.flatten.map Prod.fst = curr.map Prod.fst ++ lines.filterMap lineKey) ∨
      ((parseLines curr lines).2 = some .malformedManifest ∧ BadFrom (!curr.isEmpty) lines ∧
        ∀ k ∈ (parseLines curr lines).1.flatten.map Prod.fst,
          k ∈ curr.map Prod.fst ++ lines.filterMap lineKey) := by
  induction lines generalizing curr with
  | nil =>
    left
    refine ⟨rfl, ?_, ?_⟩
    · rintro ⟨pre, l, post, h, _⟩
      simp at h
    · simp only [parseLines]
      split
      · rename_i h
        have : curr = [] := by simpa using h
        simp [this]
      · simp
  | cons l lines ih =>
    have hcl : l.filter (fun c => c ≠ '\x00') = cleaned l := rfl
    simp only [parseLines, hcl]
    cases hc : cleaned l with
    | nil =>
      have hb : BlankLine l := hc
      have hnc : ¬ ContLine l := by rintro ⟨r, hr⟩; simp [hc] at hr
      have hkey : lineKey l = none := by simp [lineKey, hc]
      have key := badFrom_cons (!curr.isEmpty) l lines false (by simp [hb])
      have ih0 := ih []
      simp only [List.isEmpty_nil, Bool.not_true, List.map_nil, List.nil_append] at ih0
      have hbad : BadFrom (!curr.isEmpty) (l :: lines) ↔ BadFrom false lines := by
        rw [key]
        simp [hb, hnc]
      simp only [List.filterMap_cons, hkey]
      rw [hbad]
      by_cases he : curr.isEmpty = true
      · have hce : curr = [] := by simpa using he
        subst hce
        simpa using ih0
      · simp only [if_neg he]
        rcases ih0 with ⟨h1, h2, h3⟩ | ⟨h1, h2, h3⟩
        · exact .inl ⟨h1, h2, by simp [h3]⟩
        · refine .inr ⟨h1, h2, ?_⟩
          intro k hk
          simp only [List.flatten_cons, List.map_append, List.mem_append] at hk ⊢
          rcases hk with hk | hk
          · exact .inl hk
          · exact .inr (h3 k hk)
    | cons c cs =>
      have hb : ¬ BlankLine l := by intro h; unfold BlankLine at h; simp [hc] at h
      have key := badFrom_cons (!curr.isEmpty) l lines true (by simp [hb])
      simp only
      by_cases hsp : c = ' '
      · subst hsp
        have hcont : ContLine l := ⟨cs, hc⟩
        have hkey : lineKey l = none := by simp [lineKey, hc]
        simp only [if_true, List.filterMap_cons, hkey]
        by_cases he : curr.isEmpty = true
        · simp only [he, if_true, Bool.not_true]
          refine .inr ⟨trivial, ?_, by simp⟩
          have := key
          rw [he] at this
          rw [Bool.not_true] at this
          rw [this]
          exact .inl (.inr ⟨hcont, rfl⟩)
        · simp only [if_neg he]
          have ih1 := ih (appendLast cs curr)
          rw [appendLast_isEmpty, appendLast_keys] at ih1
          have he2 : (!curr.isEmpty) = true := by simp only [Bool.not_eq_true] at he; rw [he]; rfl
          rw [he2] at ih1 key ⊢
          have hbad : BadFrom true (l :: lines) ↔ BadFrom true lines := by
            rw [key]
            simp [hcont]
          rw [hbad]
          exact ih1
      · have hncont : ¬ ContLine l := by
          rintro ⟨r, hr⟩
          rw [hc] at hr
          simp only [List.cons.injEq] at hr
          exact hsp hr.1
        rw [if_neg hsp]
        cases hs : splitFirst ':' (c :: cs) with
        | none =>
          refine .inr ⟨rfl, ?_, by simp⟩
          rw [key]
          exact .inl (.inl ⟨hb, hncont, by rw [hc]; exact splitFirst_none.1 hs⟩)
        | some kv =>
          obtain ⟨k, v⟩ := kv
          have hkey : lineKey l = some k := by simp [lineKey, hc, if_neg hsp, hs]
          have hcolon : ':' ∈ cleaned l := by
            rw [hc, (splitFirst_eq hs).1]; simp
          simp only [List.filterMap_cons, hkey]
          have ih1 := ih (curr ++ [(k, [v.tail])])
          have he : (!(curr ++ [(k, [v.tail])]).isEmpty) = true := by simp
          rw [he] at ih1
          have hbad : BadFrom (!curr.isEmpty) (l :: lines) ↔ BadFrom true lines := by
            rw [key]
            simp [hncont, hcolon]
          rw [hbad]
          simpa [List.append_assoc] using ih1

theorem lineKey_long (lines : List Str) :
    LongKey lines ↔ ∃ k ∈ lines.filterMap lineKey, 68 < k.length := by
  simp only [LongKey, List.mem_filterMap]
  constructor
  · rintro ⟨l, hl, hc, k, v, h1, h2, h3⟩
    refine ⟨k, ⟨l, hl, ?_⟩, h3⟩
    unfold lineKey
    cases hcl : cleaned l with
    | nil => rw [hcl] at h1; simp at h1
    | cons c cs =>
      simp only
      rw [if_neg (fun e => hc ⟨cs, by rw [hcl, e]⟩), ← hcl, h1, splitFirst_some h2]
      rfl
  · rintro ⟨k, ⟨l, hl, hk⟩, h3⟩
    refine ⟨l, hl, ?_⟩
    unfold lineKey at hk
    split at hk
    · simp at hk
    · rename_i c cs hcl
      split at hk
      · simp at hk
      · rename_i hsp
        rw [Option.map_eq_some_iff] at hk
        obtain ⟨⟨a, b⟩, h1, rfl⟩ := hk
        obtain ⟨h4, h5⟩ := splitFirst_eq h1
        refine ⟨?_, a, b, by rw [hcl, h4], h5, h3⟩
        rintro ⟨r, hr⟩
        rw [hcl] at hr
        simp only [List.cons.injEq] at hr
        exact hsp hr.1

theorem loadItems_outcome (s : Section) (items : List RawItem) :
    (∃ t, loadItems s items = .ok t ∧ ∀ i ∈ items, i.1.length ≤ 68) ∨
      (loadItems s items = .error .manifestKey ∧ ∃ i ∈ items, 68 < i.1.length) := by
  induction items generalizing s with
  | nil => exact .inl ⟨s, rfl, by simp⟩
  | cons i items ih =>
    obtain ⟨k, vs⟩ := i
    simp only [loadItems, setItem]
    by_cases hk : k.length > 68
    · simp only [if_pos hk]
      exact .inr ⟨trivial, (k, vs), by simp, hk⟩
    · simp only [if_neg hk]
      rcases ih (PyDict.set s k vs.flatten) with ⟨t, h1, h2⟩ | ⟨h1, i, hi, h2⟩
      · refine .inl ⟨t, h1, ?_⟩
        intro j hj
        rcases List.mem_cons.1 hj with rfl | hj
        · simp only; omega
        · exact h2 j hj
      · exact .inr ⟨h1, i, by simp [hi], h2⟩

theorem loadSubs_outcome (subs : PyDict Str Section) (secs : List (List RawItem)) :
    (∃ t, loadSubs subs secs = .ok t ∧ ∀ i ∈ secs.flatten, i.1.length ≤ 68) ∨
      (loadSubs subs secs = .error .manifestKey ∧ ∃ i ∈ secs.flatten, 68 < i.1.length) := by
  induction secs generalizing subs with
  | nil => exact .inl ⟨subs, rfl, by simp⟩
  | cons items secs ih =>
    simp only [loadSubs]
    rcases loadItems_outcome (newSection "None".toList) items with ⟨t, h1, h2⟩ | ⟨h1, i, hi, h2⟩
    · rw [h1]
      simp only
      rcases ih (PyDict.set subs (primary t) t) with ⟨u, h3, h4⟩ | ⟨h3, i, hi, h4⟩
      · refine .inl ⟨u, h3, ?_⟩
        intro j hj
        simp only [List.flatten_cons, List.mem_append] at hj
        rcases hj with hj | hj
        · exact h2 j hj
        · exact h4 j hj
      · exact .inr ⟨h3, i, by simp only [List.flatten_cons, List.mem_append]; exact .inr hi, h4⟩
    · rw [h1]
      exact .inr ⟨rfl, i, by simp only [List.flatten_cons, List.mem_append]; exact .inl hi, h2⟩

theorem parseLines_nil_blank (lines : List Str) (h : parseLines [] lines = ([], none)) :
    AllBlank lines := by
  have hs := parseLines_spec lines []
  rw [h] at hs
  simp only [List.isEmpty_nil, Bool.not_true, List.flatten_nil, List.map_nil, List.nil_append] at hs
  rcases hs with ⟨_, hbad, hkeys⟩ | ⟨h1, _⟩
  · rw [badFrom_false] at hbad
    intro l hl
    obtain ⟨pre, post, rfl⟩ := List.append_of_mem hl
    by_cases hb : BlankLine l
    · exact hb
    · exfalso
      -- the first line that is not blank is bad or gives an attribute
      have hk : lineKey l = none := by
        cases hk : lineKey l with
        | none => rfl
        | some k =>
          have : k ∈ (pre ++ l :: post).filterMap lineKey := List.mem_filterMap.2 ⟨l, by simp, hk⟩
          rw [← hkeys] at this
          simp at this
      -- take the first such line
      have key : ∀ (pre post : List Str), ¬ BadLines (pre ++ post) →
          (pre ++ post).filterMap lineKey = [] → AllBlank pre → ∀ l ∈ post, BlankLine l := by
        intro pre post
        induction post generalizing pre with
        | nil => intro _ _ _ l hl; simp at hl
        | cons x post ih =>
          intro h1 h2 h3 l hl
          have hx : BlankLine x := by
            by_cases hx : BlankLine x
            · exact hx
            · exfalso
              by_cases hc : ContLine x
              · apply h1
                refine ⟨pre, x, post, rfl, .inr ⟨hc, ?_⟩⟩
                cases hp : pre.getLast? with
                | none => exact .inl (List.getLast?_eq_none_iff.1 hp)
                | some b => exact .inr ⟨b, rfl, h3 b (List.mem_of_getLast? hp)⟩
              · by_cases hcol : ':' ∈ cleaned x
                · have hkx : lineKey x = none := by
                    cases hkx : lineKey x with
                    | none => rfl
                    | some k =>
                      have : k ∈ (pre ++ x :: post).filterMap lineKey :=
                        List.mem_filterMap.2 ⟨x, by simp, hkx⟩
                      rw [h2] at this
                      simp at this
                  unfold lineKey at hkx
                  cases hcx : cleaned x with
                  | nil => exact hx hcx
                  | cons c cs =>
                    rw [hcx] at hkx
                    simp only at hkx
                    split at hkx
                    · rename_i hsp
                      exact hc ⟨cs, by rw [hcx, hsp]⟩
                    · rw [Option.map_eq_none_iff, splitFirst_none] at hkx
                      rw [hcx] at hcol
                      exact hkx hcol
                · exact h1 ⟨pre, x, post, rfl, .inl ⟨hx, hc, hcol⟩⟩
          rcases List.mem_cons.1 hl with rfl | hl
          · exact hx
          · have h1' : ¬ BadLines ((pre ++ [x]) ++ post) := by simpa [List.append_assoc] using h1
            have h2' : ((pre ++ [x]) ++ post).filterMap lineKey = [] := by
              simpa [List.append_assoc] using h2
            refine ih (pre ++ [x]) h1' h2' ?_ l hl
            intro y hy
            rcases List.mem_append.1 hy with hy | hy
            · exact h3 y hy
            · simp only [List.mem_singleton] at hy; subst hy; exact hx
      exact hb (key [] (pre ++ l :: post) hbad hkeys.symm (by intro l hl; simp at hl) l (by simp))
  · simp at h1

theorem parseLines_blank (lines : List Str) (h : AllBlank lines) : parseLines [] lines = ([], none) := by
  induction lines with
  | nil => rfl
  | cons l lines ih =>
    have hl : l.filter (fun c => c ≠ '\x00') = [] := h l (by simp)
    simp only [parseLines, hl, List.isEmpty_nil, if_true]
    exact ih fun x hx => h x (by simp [hx])

theorem blank_not_bad (lines : List Str) (h : AllBlank lines) : ¬ BadLines lines ∧ ¬ LongKey lines := by
  constructor
  · rintro ⟨pre, l, post, rfl, hb⟩
    have hl := h l (by simp)
    rcases hb with ⟨h1, _⟩ | ⟨⟨r, hr⟩, _⟩
    · exact h1 hl
    · rw [hl] at hr; simp at hr
  · rintro ⟨l, hl, _, k, v, h1, _⟩
    have := h l hl
    rw [this] at h1
    simp at h1

/-- The lines of the text that `parse` sees. -/
def linesOf (data : Bytes) : List Str := splitLines (decodeIgnore data)

/-- C47, exactly: when parsing succeeds, and what the exceptions mean. -/
theorem C47_exact (m : Manifest) (data : Bytes) :
    ((∃ m', m.parse data = .ok m') ↔
        ¬ AllBlank (linesOf data) ∧ ¬ BadLines (linesOf data) ∧ ¬ LongKey (linesOf data)) ∧
      ∀ e, m.parse data = .error e →
        (e = .malformedManifest ∧ BadLines (linesOf data)) ∨
        (e = .manifestKey ∧ LongKey (linesOf data)) ∨
        (e = .stopIteration ∧ AllBlank (linesOf data)) := by
  have hs := parseLines_spec (linesOf data) []
  simp only [List.isEmpty_nil, Bool.not_true, List.map_nil, List.nil_append, badFrom_false] at hs
  have hbl := parseLines_nil_blank (linesOf data)
  have hbl2 := parseLines_blank (linesOf data)
  unfold Manifest.parse parseSections
  simp only
  change _ at hs
  have hl : splitLines (decodeIgnore data) = linesOf data := rfl
  rw [hl]
  generalize linesOf data = lines at *
  generalize hp : parseLines [] lines = r at *
  obtain ⟨secs, err⟩ := r
  simp only at hs
  cases secs with
  | nil =>
    cases err with
    | some e =>
      rcases hs with ⟨h1, _⟩ | ⟨h1, h2, _⟩
      · simp at h1
      · simp only [Option.some.injEq] at h1
        subst h1
        simp [h2]
    | none =>
      have hb := hbl rfl
      simp [hb]
  | cons first rest =>
    have hnb : ¬ AllBlank lines := by
      intro h
      have := hbl2 h
      simp at this
    simp only
    rcases loadItems_outcome m.main first with ⟨t, h1, h2⟩ | ⟨h1, i, hi, h2⟩
    · rw [h1]
      simp only
      rcases loadSubs_outcome m.subs rest with ⟨u, h3, h4⟩ | ⟨h3, i, hi, h4⟩
      · rw [h3]
        simp only
        cases err with
        | some e =>
          rcases hs with ⟨h5, _⟩ | ⟨h5, h6, _⟩
          · simp at h5
          · simp only [Option.some.injEq] at h5
            subst h5
            simp [h6]
        | none =>
          rcases hs with ⟨_, h6, h7⟩ | ⟨h5, _⟩
          · simp only [hnb, h6, not_false_eq_true, true_and, reduceCtorEq, false_implies,
              implies_true, and_true]
            constructor
            · intro _
              rw [lineKey_long, ← h7]
              rintro ⟨k, hk, hlen⟩
              obtain ⟨i, hi, rfl⟩ := List.mem_map.1 hk
              simp only [List.flatten_cons, List.mem_append] at hi
              rcases hi with hi | hi
              · have := h2 i hi; omega
              · have := h4 i hi; omega
            · intro _; exact ⟨_, rfl⟩
          · simp at h5
      · rw [h3]
        have hlong : LongKey lines := by
          rw [lineKey_long]
          refine ⟨i.1, ?_, h4⟩
          have hmem : i.1 ∈ (first :: rest).flatten.map Prod.fst :=
            List.mem_map.2 ⟨i, by simp only [List.flatten_cons, List.mem_append]; exact .inr hi, rfl⟩
          rcases hs with ⟨_, _, h7⟩ | ⟨_, _, h7⟩
          · rw [← h7]; exact hmem
          · exact h7 _ hmem
        simp [hlong]
    · rw [h1]
      have hlong : LongKey lines := by
        rw [lineKey_long]
        refine ⟨i.1, ?_, h2⟩
        have hmem : i.1 ∈ (first :: rest).flatten.map Prod.fst :=
          List.mem_map.2 ⟨i, by simp only [List.flatten_cons, List.mem_append]; exact .inl hi, rfl⟩
        rcases hs with ⟨_, _, h7⟩ | ⟨_, _, h7⟩
        · rw [← h7]; exact hmem
        · exact h7 _ hmem
      simp [hlong]

/-- C47 as stated. -/
def C47_full : Prop :=
  ∀ (m : Manifest) (data : Bytes) (e : PyErr), m.parse data = .error e →
    (e = .malformedManifest ∧ BadLines (linesOf data)) ∨
      (e = .manifestKey ∧ LongKey (linesOf data))

/-- C47 holds for every text that has a line that is not blank. Missing: the empty text, where
`next(sections)` raises StopIteration. -/
theorem C47_partial (m : Manifest) (data : Bytes) (hne : ¬ AllBlank (linesOf data)) (e : PyErr)
    (h : m.parse data = .error e) :
    (e = .malformedManifest ∧ BadLines (linesOf data)) ∨
      (e = .manifestKey ∧ LongKey (linesOf data)) := by
  rcases (C47_exact m data).2 e h with h | h | h
  · exact .inl h
  · exact .inr h
  · exact absurd h.2 hne

theorem C47_full_fails : ¬ C47_full := by
  intro h
  have := h emptyManifest [] .stopIteration (by decide)
  simp at this

theorem hasSub_iff (sub s : Str) : hasSub sub s = true ↔ ∃ a b, s = a ++ sub ++ b := by
  induction s with
  | nil =>
    simp only [hasSub, List.isEmpty_iff]
    constructor
    · rintro rfl; exact ⟨[], [], rfl⟩
    · rintro ⟨a, b, h⟩
      have := congrArg List.length h
      simp only [List.length_nil, List.length_append] at this
      exact List.length_eq_zero_iff.1 (by omega)
  | cons c s ih =>
    simp only [hasSub, Bool.or_eq_true, ih, List.isPrefixOf_iff_prefix]
    constructor
    · rintro (⟨b, h⟩ | ⟨a, b, rfl⟩)
      · exact ⟨[], b, by simpa using h.symm⟩
      · exact ⟨c :: a, b, by simp⟩
    · rintro ⟨a, b, h⟩
      cases a with
      | nil => exact .inl ⟨b, by simpa using h.symm⟩
      | cons d a =>
        simp only [List.cons_append, List.cons.injEq] at h
        exact .inr ⟨a, b, h.2⟩

/-- C47: the separator kept is CR LF exactly when the text contains it, and LF otherwise. -/
theorem C47_linesep (m m' : Manifest) (data : Bytes) (h : m.parse data = .ok m') :
    (m'.linesep = some "\r\n".toList ∧ ∃ a b, decodeIgnore data = a ++ "\r\n".toList ++ b) ∨
      (m'.linesep = some "\n".toList ∧ ¬ ∃ a b, decodeIgnore data = a ++ "\r\n".toList ++ b) := by
  have hl : m'.linesep = some (detectLinesep (decodeIgnore data)) := by
    unfold Manifest.parse at h
    simp only at h
    repeat' split at h
    all_goals first
      | (simp at h; done)
      | (simp only [Except.ok.injEq] at h; subst h; rfl)
  rw [hl, ← hasSub_iff]
  unfold detectLinesep
  split
  · rename_i h; exact .inl ⟨rfl, h⟩
  · rename_i h; exact .inr ⟨rfl, h⟩

/-- The three kinds of failure, and a value whose line has no space after the colon. -/
example : emptyManifest.parse (encodeUtf8 " x".toList) = .error .malformedManifest ∧
    emptyManifest.parse (encodeUtf8 "Name".toList) = .error .malformedManifest ∧
    emptyManifest.parse (encodeUtf8 (List.replicate 69 'k' ++ ": v".toList)) = .error .manifestKey ∧
    emptyManifest.parse (encodeUtf8 "\n\n".toList) = .error .stopIteration ∧
    (emptyManifest.parse (encodeUtf8 "X:abc".toList)).map (·.main) =
      .ok [(kManifestVersion, "1.0".toList), ("X".toList, "bc".toList)] := by decide +kernel

end Javatools
