import Verif.Model.JarUtil
import Verif.Props.ManifestDigest
import Verif.Props.ManifestOps
/-
C54 (choice of the signature file) and C49 (what a successful verification means).
-/
namespace Javatools

variable (up : Char → Str)

/-! ### C54 -/

/-- A signature file: directly in META-INF, with the extension `.SF` in any letter case. -/
def IsSf (f : Str) : Prop :=
  ∃ x, f = sMetaInfDir ++ x ∧ '/' ∉ x ∧ ∃ r, upperWith up f = r ++ ".SF".toList

/-- `f` is the only signature file among the names. -/
def OnlySf (names : List Str) (f : Str) : Prop :=
  ∃ a b, names = a ++ f :: b ∧ IsSf up f ∧ ∀ n ∈ a ++ b, ¬ IsSf up n

/-- There are at least two signature files. -/
def SeveralSf (names : List Str) : Prop :=
  ∃ a b c f g, names = a ++ f :: (b ++ g :: c) ∧ IsSf up f ∧ IsSf up g

/-- Specification: the signature file to be used. -/
def Chosen (names : List Str) (sfName : Option Str) (f : Str) : Prop :=
  (OnlySf up names f ∧ ∀ n, sfName = some n → f = sMetaInfDir ++ n) ∨
    (SeveralSf up names ∧ ∃ n, sfName = some n ∧ f = sMetaInfDir ++ n ∧ f ∈ names ∧ IsSf up f)

/-- Specification: the block file for an alias: the first of RSA, DSA, EC. -/
def BlockFor (names : List Str) (alias b : Str) : Prop :=
  ∃ pre e post, ["RSA".toList, "DSA".toList, "EC".toList] = pre ++ e :: post ∧
    b = sMetaInfDir ++ alias ++ '.' :: e ∧ b ∈ names ∧
    ∀ d ∈ pre, sMetaInfDir ++ alias ++ '.' :: d ∉ names

theorem matchesSigfile_iff (f : Str) : matchesSigfile up f = true ↔ IsSf up f := by
  unfold matchesSigfile IsSf
  rw [Bool.and_eq_true, inSigDir_iff, fnmatches_sf]
  have hd : ∀ x, sMetaInfDir ++ x = sMetaInf ++ '/' :: x := by
    intro x
    have : sMetaInfDir = sMetaInf ++ ['/'] := by decide
    rw [this, List.append_assoc]
    rfl
  constructor
  · rintro ⟨⟨x, h1, h2⟩, h3⟩
    exact ⟨x, by rw [hd]; exact h1, h2, h3⟩
  · rintro ⟨x, h1, h2, h3⟩
    exact ⟨⟨x, by rw [← hd]; exact h1, h2⟩, h3⟩

theorem filter_nil_iff (names : List Str) :
    names.filter (matchesSigfile up) = [] ↔ ∀ n ∈ names, ¬ IsSf up n := by
  rw [List.filter_eq_nil_iff]
  simp only [matchesSigfile_iff]

theorem filter_one_iff (names : List Str) (f : Str) :
    names.filter (matchesSigfile up) = [f] ↔ OnlySf up names f := by
  constructor
  · intro h
    obtain ⟨a, b, h1, h2, h3, h4⟩ := List.filter_eq_cons_iff.1 h
    refine ⟨a, b, h1, (matchesSigfile_iff up f).1 h3, ?_⟩
    intro n hn
    rcases List.mem_append.1 hn with hn | hn
    · have := h2 n hn
      rw [matchesSigfile_iff] at this
      exact this
    · exact (filter_nil_iff up b).1 h4 n hn
  · rintro ⟨a, b, rfl, h2, h3⟩
    rw [List.filter_append, (filter_nil_iff up a).2 fun n hn => h3 n (by simp [hn]),
      List.filter_cons_of_pos ((matchesSigfile_iff up f).2 h2),
      (filter_nil_iff up b).2 fun n hn => h3 n (by simp [hn])]
    rfl

theorem filter_several_iff (names : List Str) :
    2 ≤ (names.filter (matchesSigfile up)).length ↔ SeveralSf up names := by
  constructor
  · intro h
    match hf : names.filter (matchesSigfile up), h with
    | f :: g :: r, _ =>
      obtain ⟨a, b, h1, h2, h3, h4⟩ := List.filter_eq_cons_iff.1 hf
      obtain ⟨a', b', h1', h2', h3', h4'⟩ := List.filter_eq_cons_iff.1 h4
      refine ⟨a, a', b', f, g, by rw [h1, h1'], (matchesSigfile_iff up f).1 h3,
        (matchesSigfile_iff up g).1 h3'⟩
  · rintro ⟨a, b, c, f, g, rfl, h1, h2⟩
    rw [List.filter_append, List.filter_cons_of_pos ((matchesSigfile_iff up f).2 h1),
      List.filter_append, List.filter_cons_of_pos ((matchesSigfile_iff up g).2 h2)]
    simp only [List.length_append, List.length_cons]
    omega

/-- The choice made by the code is the specified one. -/
theorem chooseSf_spec (names : List Str) (sfName : Option Str) (f : Str) :
    chooseSf (names.filter (matchesSigfile up)) sfName = .ok f ↔ Chosen up names sfName f := by
  unfold Chosen
  rw [← filter_one_iff, ← filter_several_iff]
  have hmem : ∀ n, n ∈ names.filter (matchesSigfile up) ↔ n ∈ names ∧ IsSf up n := by
    intro n
    rw [List.mem_filter, matchesSigfile_iff]
  have hmem' : ∀ n, (n ∈ names ∧ IsSf up n) ↔ n ∈ names.filter (matchesSigfile up) :=
    fun n => (hmem n).symm
  simp only [hmem']
  generalize names.filter (matchesSigfile up) = fs
  match fs with
  | [] => simp [chooseSf]
  | [g] =>
    cases sfName with
    | none => simp [chooseSf]
    | some n =>
      simp only [chooseSf, List.cons.injEq, and_true, Option.some.injEq, forall_eq',
        List.length_singleton]
      by_cases hg : g = sMetaInfDir ++ n
      · rw [if_pos hg]
        simp only [Except.ok.injEq]
        constructor
        · rintro rfl; exact .inl ⟨rfl, hg⟩
        · rintro (⟨h, _⟩ | ⟨h, _⟩)
          · exact h
          · omega
      · rw [if_neg hg]
        simp only [reduceCtorEq, false_iff, not_or]
        refine ⟨?_, by omega⟩
        rintro ⟨rfl, h⟩
        exact hg h
  | g :: g' :: r =>
    cases sfName with
    | none => simp [chooseSf]
    | some n =>
      simp only [chooseSf]
      by_cases hg : sMetaInfDir ++ n ∈ g :: g' :: r
      · rw [if_pos hg]
        simp only [Except.ok.injEq]
        constructor
        · rintro rfl
          exact .inr ⟨by simp only [List.length_cons]; omega, n, rfl, rfl, hg⟩
        · rintro (⟨h, _⟩ | ⟨_, m, h1, h2, _⟩)
          · simp at h
          · rw [h2, Option.some.inj h1]
      · rw [if_neg hg]
        simp only [reduceCtorEq, false_iff, not_or]
        refine ⟨by simp, ?_⟩
        rintro ⟨_, m, h1, h2, h3⟩
        rw [Option.some.inj h1] at hg
        exact hg (h2 ▸ h3)

theorem findBlock_spec (names : List Str) (alias b : Str) :
    findBlock names alias ["RSA".toList, "DSA".toList, "EC".toList] = some b ↔
      BlockFor names alias b := by
  unfold BlockFor
  generalize ["RSA".toList, "DSA".toList, "EC".toList] = exts
  induction exts with
  | nil => simp [findBlock]
  | cons e es ih =>
    simp only [findBlock]
    split
    · rename_i he
      constructor
      · intro h
        have h := Option.some.inj h
        exact ⟨[], e, es, rfl, h.symm, h ▸ he, by simp⟩
      · rintro ⟨pre, e', post, h1, h2, h3, h4⟩
        cases pre with
        | nil =>
          simp only [List.nil_append, List.cons.injEq] at h1
          rw [h2, h1.1]
        | cons d pre =>
          simp only [List.cons_append, List.cons.injEq] at h1
          exact absurd (h1.1 ▸ he) (h4 d (by simp))
    · rename_i he
      rw [ih]
      constructor
      · rintro ⟨pre, e', post, h1, h2, h3, h4⟩
        refine ⟨e :: pre, e', post, by rw [h1]; rfl, h2, h3, ?_⟩
        intro d hd
        rcases List.mem_cons.1 hd with rfl | hd
        · exact he
        · exact h4 d hd
      · rintro ⟨pre, e', post, h1, h2, h3, h4⟩
        cases pre with
        | nil =>
          simp only [List.nil_append, List.cons.injEq] at h1
          rw [h2, ← h1.1] at h3
          exact absurd h3 he
        | cons d pre =>
          simp only [List.cons_append, List.cons.injEq] at h1
          exact ⟨pre, e', post, h1.2, h2, h3, fun x hx => h4 x (by simp [hx])⟩

theorem zipRead_mem {z : Zip} {n : Str} (h : n ∈ namelist z) : ∃ b, zipRead z n = .ok b ∧ (n, b) ∈ z := by
  unfold zipRead
  have h1 : n ∈ PyDict.keys z.reverse := by
    simpa [PyDict.keys, namelist] using h
  cases hg : PyDict.get? z.reverse n with
  | none => exact absurd h1 ((PyDict.get?_eq_none_iff _ _).1 hg)
  | some b => exact ⟨b, rfl, List.mem_reverse.1 (PyDict.mem_of_get? hg)⟩

theorem chosen_mem {names : List Str} {sfName : Option Str} {f : Str} (h : Chosen up names sfName f) :
    f ∈ names ∧ IsSf up f := by
  rcases h with ⟨⟨a, b, rfl, h, _⟩, _⟩ | ⟨_, n, _, _, h1, h2⟩
  · exact ⟨by simp, h⟩
  · exact ⟨h1, h2⟩

/-- C54: the name of the alias is the name of the signature file without directory and
extension. -/
theorem C54_alias (a s : Str) (hs : s.length = 3) : keyAlias (sMetaInfDir ++ a ++ s) = a := by
  unfold keyAlias
  have h1 : (sMetaInfDir ++ a ++ s).length - 3 = (sMetaInfDir ++ a).length := by
    rw [List.length_append, hs]
    omega
  rw [h1, List.take_append_of_le_length (Nat.le_refl _), List.take_length]
  have h2 : sMetaInfDir.length = 9 := by decide
  rw [List.drop_append_of_le_length (by omega)]
  have h3 : sMetaInfDir.drop 9 = [] := by decide
  rw [h3, List.nil_append]

/-- C54: without a signature file the archive is refused with `JarSignatureMissingError`. -/
theorem C54_no_sf (C : Crypto) (H : Hashes) (cert : Str) (z : Zip) (sfName : Option Str)
    (h : ∀ n ∈ namelist z, ¬ IsSf up n) : verify up C H cert z sfName = .error eSignatureMissing := by
  unfold verify
  rw [(filter_nil_iff up _).2 h]
  rfl

/-- C54: if there are signature files but none can be chosen, verification fails with
`VerificationError`. -/
theorem C54_not_chosen (C : Crypto) (H : Hashes) (cert : Str) (z : Zip) (sfName : Option Str)
    (hex : ∃ n ∈ namelist z, IsSf up n) (h : ∀ f, ¬ Chosen up (namelist z) sfName f) :
    verify up C H cert z sfName = .error eVerification := by
  have hne : (namelist z).filter (matchesSigfile up) ≠ [] := by
    intro he
    obtain ⟨n, hn, hs⟩ := hex
    exact (filter_nil_iff up _).1 he n hn hs
  have hnot : ∀ f, chooseSf ((namelist z).filter (matchesSigfile up)) sfName ≠ .ok f :=
    fun f hf => h f ((chooseSf_spec up _ _ _).1 hf)
  have herr : chooseSf ((namelist z).filter (matchesSigfile up)) sfName = .error eVerification := by
    generalize (namelist z).filter (matchesSigfile up) = fs at hne hnot
    match fs with
    | [] => exact absurd rfl hne
    | [g] =>
      cases sfName with
      | none => exact absurd rfl (hnot g)
      | some n =>
        simp only [chooseSf] at hnot ⊢
        split
        · rename_i hg
          exact absurd (if_pos hg) (hnot g)
        · rfl
    | g :: g' :: r =>
      cases sfName with
      | none => rfl
      | some n =>
        simp only [chooseSf] at hnot ⊢
        split
        · rename_i hg
          exact absurd (if_pos hg) (hnot _)
        · rfl
  unfold verify
  rw [herr]

/-- C54: without a block file for the chosen signature file the archive is refused. -/
theorem C54_no_block (C : Crypto) (H : Hashes) (cert : Str) (z : Zip) (sfName : Option Str) (f : Str)
    (h : Chosen up (namelist z) sfName f) (hb : ∀ b, ¬ BlockFor (namelist z) (keyAlias f) b) :
    verify up C H cert z sfName = .error eSignatureMissing := by
  obtain ⟨d, hd, _⟩ := zipRead_mem (chosen_mem up h).1
  unfold verify
  rw [(chooseSf_spec up _ _ _).2 h]
  simp only [hd]
  cases hf : findBlock (namelist z) (keyAlias f) ["RSA".toList, "DSA".toList, "EC".toList] with
  | none => rfl
  | some b => exact absurd ((findBlock_spec _ _ _).1 hf) (hb b)

/-- C54: otherwise the signature of the chosen file is checked against the block file, and the rest
of the verification uses the content of the chosen file. -/
theorem C54_used (C : Crypto) (H : Hashes) (cert : Str) (z : Zip) (sfName : Option Str) (f b : Str)
    (h : Chosen up (namelist z) sfName f) (hb : BlockFor (namelist z) (keyAlias f) b) :
    ∃ sfData sig, zipRead z f = .ok sfData ∧ zipRead z b = .ok sig ∧
      (C.verifyBlock cert sfData sig = .ok () →
        verify up C H cert z sfName = verifyContents up H z sfData) ∧
      (C.verifyBlock cert sfData sig = .error eSignatureBlock →
        verify up C H cert z sfName = .error eSignatureBlockFile) ∧
      ∀ e, C.verifyBlock cert sfData sig = .error e → e ≠ eSignatureBlock →
        verify up C H cert z sfName = .error e := by
  obtain ⟨d, hd, _⟩ := zipRead_mem (chosen_mem up h).1
  have hbm : b ∈ namelist z := by
    obtain ⟨_, _, _, _, _, h, _⟩ := hb
    exact h
  obtain ⟨g, hg, _⟩ := zipRead_mem hbm
  refine ⟨d, g, hd, hg, ?_, ?_, ?_⟩
  · intro hv
    unfold verify
    rw [(chooseSf_spec up _ _ _).2 h]
    simp only [hd, (findBlock_spec _ _ _).2 hb, hg, hv]
  · intro hv
    unfold verify
    rw [(chooseSf_spec up _ _ _).2 h]
    simp only [hd, (findBlock_spec _ _ _).2 hb, hg, hv, if_true]
  · intro e hv hne
    unfold verify
    rw [(chooseSf_spec up _ _ _).2 h]
    simp only [hd, (findBlock_spec _ _ _).2 hb, hg, hv, if_neg hne]

/-- C54: an archive that is accepted has a chosen signature file and a block file, and the block
was accepted for the bytes of the signature file. -/
theorem C54_accepts (C : Crypto) (H : Hashes) (cert : Str) (z : Zip) (sfName : Option Str)
    (h : verify up C H cert z sfName = .ok ()) :
    ∃ f b sfData sig, Chosen up (namelist z) sfName f ∧ BlockFor (namelist z) (keyAlias f) b ∧
      zipRead z f = .ok sfData ∧ zipRead z b = .ok sig ∧ C.verifyBlock cert sfData sig = .ok () ∧
      verifyContents up H z sfData = .ok () := by
  unfold verify at h
  split at h
  · simp at h
  · rename_i f hf
    split at h
    · simp at h
    · rename_i d hd
      split at h
      · simp at h
      · rename_i b hb
        split at h
        · simp at h
        · rename_i g hg
          split at h
          · split at h <;> simp at h
          · rename_i hv
            exact ⟨f, b, d, g, (chooseSf_spec up _ _ _).1 hf, (findBlock_spec _ _ _).1 hb, hd, hg,
              hv, h⟩

/-- Two signature files, the second is named. -/
example : Chosen upLongS ["META-INF/A.SF".toList, "META-INF/B.sf".toList, "x/C.SF".toList]
    (some "B.sf".toList) "META-INF/B.sf".toList :=
  (chooseSf_spec _ _ _ _).1 (by decide +kernel)

example : BlockFor ["META-INF/A.EC".toList, "META-INF/A.DSA".toList] "A".toList
    "META-INF/A.DSA".toList := (findBlock_spec _ _ _).1 (by decide +kernel)

/-! ### C49 -/

/-- The manifest as a whole matches the signature file. -/
def WholeMatch (H : Hashes) (sf m : Manifest) : Prop :=
  ∃ alg h b, H.get alg = .ok h ∧ m.getData = .ok b ∧
    PyDict.get? sf.main (alg ++ sDigestManifest) = some (b64encode (h b))

/-- The main section of the manifest matches the signature file. -/
def MainMatch (H : Hashes) (sf m : Manifest) : Prop :=
  ∃ alg h b, H.get alg = .ok h ∧ m.getMain = .ok b ∧
    PyDict.get? sf.main (alg ++ sDigestMain) = some (b64encode (h b))

/-- A section of the manifest matches the section of that name in the signature file. -/
def SectionMatch (H : Hashes) (sf m : Manifest) (s : Section) : Prop :=
  ∃ alg h b ls t, H.get alg = .ok h ∧ m.linesep = some ls ∧ sectionData s ls = .ok b ∧
    PyDict.get? sf.subs (primary s) = some t ∧
    PyDict.get? t (alg ++ sDigest) = some (b64encode (h b))

/-- The content matches a digest recorded for the name in the manifest. -/
def EntryMatch (H : Hashes) (m : Manifest) (f : Str) (b : Bytes) : Prop :=
  ∃ alg h s, H.get alg = .ok h ∧ PyDict.get? m.subs f = some s ∧
    PyDict.get? s (alg ++ sDigest) = some (b64encode (h b))

/-- The entries whose content must be vouched for: for ASCII names see C53, other names must not
lie directly in a directory whose name in capitals is META-INF. -/
def Covered (f : Str) : Prop :=
  (AsciiText f ∧ ¬ Exempt f) ∨
    ((¬ ∃ d, f = d ++ ['/']) ∧
      ¬ ∃ d x, f = d ++ '/' :: x ∧ '/' ∉ d ∧ '/' ∉ x ∧ upperWith up d = sMetaInf)

theorem covered_checked {f : Str} (hup : IsUpper up) (h : Covered up f) :
    skipsVerification up f = false := by
  rw [← Bool.not_eq_true]
  intro hs
  rcases h with ⟨ha, hn⟩ | ⟨h1, h2⟩
  · exact hn ((C53_partial up hup f ha).1 hs)
  · rcases C53_location up hup f hs with h | h
    · exact h1 h
    · exact h2 h

/-- What `create_section` may have added. -/
def Grown (m0 m : Manifest) : Prop :=
  ∀ n s, PyDict.get? m.subs n = some s → PyDict.get? m0.subs n = some s ∨ s = newSection n

theorem grown_create {m0 m : Manifest} (h : Grown m0 m) (n : Str) :
    Grown m0 (createSection m n false).2 ∧
      PyDict.get? (createSection m n false).2.subs n = some (createSection m n false).1 := by
  obtain ⟨h1, h2⟩ := C69_keep m n
  cases hg : PyDict.get? m.subs n with
  | some s =>
    rw [h1 s hg]
    exact ⟨h, hg⟩
  | none =>
    obtain ⟨h3, _, h4⟩ := h2 hg
    refine ⟨?_, by rw [h4, if_pos rfl, h3]⟩
    intro k s hk
    rw [h4] at hk
    split at hk
    · rename_i he
      subst he
      exact .inr (Option.some.inj hk).symm
    · exact h k s hk

theorem grown_main {m : Manifest} (n : Str) :
    (createSection m n false).2.main = m.main := by
  obtain ⟨h1, h2⟩ := C69_keep m n
  cases hg : PyDict.get? m.subs n with
  | some s => rw [h1 s hg]
  | none => exact (h2 hg).2.1

theorem new_no_digest (n alg : Str) : PyDict.get? (newSection n) (alg ++ sDigest) = none := by
  rw [PyDict.get?_eq_none_iff]
  simp only [newSection, PyDict.keys, List.map_cons, List.map_nil, List.mem_singleton]
  intro h
  have := congrArg List.getLast? h
  rw [List.getLast?_append] at this
  revert this
  have h1 : sDigest.getLast? = some 't' := by decide
  have h2 : kName.getLast? = some 'e' := by decide
  rw [h1, h2]
  simp

theorem verifyEntries_match {H : Hashes} {z : Zip} {m0 m m' : Manifest} {names : List Str}
    (hg : Grown m0 m) (h : verifyEntries up H z true m names = .ok ([], m')) :
    ∀ f ∈ names, skipsVerification up f = false →
      ∃ b, zipRead z f = .ok b ∧ EntryMatch H m0 f b := by
  induction names generalizing m with
  | nil => simp
  | cons n names ih =>
    simp only [verifyEntries] at h
    intro f hf hs
    by_cases hsk : skipsVerification up n = true
    · rw [if_pos hsk] at h
      rcases List.mem_cons.1 hf with rfl | hf
      · rw [hs] at hsk; simp at hsk
      · exact ih hg h f hf hs
    · rw [if_neg hsk] at h
      obtain ⟨hg2, hget⟩ := grown_create hg n
      split at h
      · split at h
        · simp at h
        · simp at h
      · split at h
        · simp at h
        · rename_i hm
          rcases List.mem_cons.1 hf with rfl | hf
          · obtain ⟨b, alg, k, hb, hk, hd⟩ := C48_accepts H _ _ _ hm
            refine ⟨b, hb, alg, k, _, hk, ?_, hd⟩
            rcases hg2 f _ hget with h1 | h1
            · exact h1
            · rw [h1, new_no_digest] at hd
              simp at hd
          · exact ih hg2 h f hf hs
        · split at h
          · simp at h
          · simp at h

theorem verifySections_match {H : Hashes} {ls : Option Str} {sf0 sf sf' : Manifest}
    {ss : List Section} (hg : Grown sf0 sf) (h : verifySections H true ls sf ss = .ok ([], sf')) :
    ∀ s ∈ ss, ∃ alg k b l t, H.get alg = .ok k ∧ ls = some l ∧ sectionData s l = .ok b ∧
      PyDict.get? sf0.subs (primary s) = some t ∧
      PyDict.get? t (alg ++ sDigest) = some (b64encode (k b)) := by
  induction ss generalizing sf with
  | nil => simp
  | cons t ss ih =>
    simp only [verifySections] at h
    obtain ⟨hg2, hget⟩ := grown_create hg (primary t)
    intro s hs
    split at h
    · split at h
      · simp at h
      · simp at h
    · split at h
      · simp at h
      · rename_i hm
        rcases List.mem_cons.1 hs with rfl | hs
        · obtain ⟨b, hb, alg, _, k, hk, hd⟩ := matchDigest_true hm
          cases hl : ls with
          | none => rw [hl] at hb; simp [sectionDataOpt] at hb
          | some l =>
            rw [hl] at hb
            refine ⟨alg, k, b, l, _, hk, rfl, hb, ?_, hd⟩
            rcases hg2 _ _ hget with h1 | h1
            · exact h1
            · rw [h1, new_no_digest] at hd
              simp at hd
        · exact ih hg2 h s hs
      · split at h
        · simp at h
        · simp at h

/-- What the verification of the contents establishes. -/
structure Vouched (H : Hashes) (z : Zip) (sf m : Manifest) : Prop where
  manifest : WholeMatch H sf m ∨ (MainMatch H sf m ∧ ∀ s ∈ m.subs.map Prod.snd, SectionMatch H sf m s)
  entries : ∀ f ∈ namelist z, skipsVerification up f = false →
    ∃ b, zipRead z f = .ok b ∧ EntryMatch H m f b

theorem grown_refl (m : Manifest) : Grown m m := fun _ _ h => .inl h

theorem contents_vouched {H : Hashes} {z : Zip} {sfData : Bytes}
    (h : verifyContents up H z sfData = .ok ()) :
    ∃ sf m, (emptySignature none).parse sfData = .ok sf ∧ loadFromJar z = .ok m ∧
      Vouched up H z sf m := by
  unfold verifyContents at h
  split at h
  · simp at h
  · rename_i sf hsf
    split at h
    · simp at h
    · rename_i m hm
      split at h
      · simp at h
      · simp at h
      · rename_i hv
        split at h
        · simp at h
        · simp at h
        · rename_i m' hj
          refine ⟨sf, m, hsf, hm, ?_, ?_⟩
          · unfold verifyManifest at hv
            split at hv
            · simp at hv
            · rename_i hw
              left
              obtain ⟨b, alg, k, hb, hk, hd⟩ := C48_accepts H _ _ _ hw
              exact ⟨alg, k, b, hk, hb, hd⟩
            · split at hv
              · simp at hv
              · simp at hv
              · rename_i hmm
                right
                split at hv
                · simp at hv
                · rename_i fails sf' hs
                  simp only [Except.ok.injEq] at hv
                  subst hv
                  constructor
                  · obtain ⟨b, alg, k, hb, hk, hd⟩ := C48_accepts H _ _ _ hmm
                    exact ⟨alg, k, b, hk, hb, hd⟩
                  · intro s hs'
                    obtain ⟨alg, k, b, l, t, h1, h2, h3, h4, h5⟩ :=
                      verifySections_match (grown_refl sf) hs s hs'
                    exact ⟨alg, k, b, l, t, h1, h2, h3, h4, h5⟩
          · unfold verifyJarChecksums at hj
            exact verifyEntries_match up (grown_refl m) hj

/-- Everything that C49 promises; `content` says which bytes are the content of an entry. -/
def SignatureVouches (C : Crypto) (H : Hashes) (cert : Str) (z : Zip)
    (content : Str → Bytes → Prop) : Prop :=
  ∃ f b sfData sig mfData sf m,
    -- the block file was accepted for the signature file
    IsSf up f ∧ zipRead z f = .ok sfData ∧ BlockFor (namelist z) (keyAlias f) b ∧
      zipRead z b = .ok sig ∧ C.verifyBlock cert sfData sig = .ok () ∧
    -- the manifest is matched by the signature file
    (emptySignature none).parse sfData = .ok sf ∧ zipRead z sManifestMf = .ok mfData ∧
      emptyManifest.parse mfData = .ok m ∧
      (WholeMatch H sf m ∨ (MainMatch H sf m ∧ ∀ s ∈ m.subs.map Prod.snd, SectionMatch H sf m s)) ∧
    -- the entries match the manifest
    ∀ e d, content e d → Covered up e → EntryMatch H m e d

/-- C49 as stated, for every entry of the archive. -/
def C49_full : Prop :=
  ∀ (up : Char → Str) (C : Crypto) (H : Hashes) (cert : Str) (z : Zip) (sfName : Option Str),
    IsUpper up → verify up C H cert z sfName = .ok () →
    SignatureVouches up C H cert z fun e d => (e, d) ∈ z

/-- C49 for all archives, where the content of an entry is what reading the archive by name
gives. -/
theorem C49_read (C : Crypto) (H : Hashes) (cert : Str) (z : Zip) (sfName : Option Str)
    (hup : IsUpper up) (h : verify up C H cert z sfName = .ok ()) :
    SignatureVouches up C H cert z fun e d => zipRead z e = .ok d := by
  obtain ⟨f, b, sfData, sig, h1, h2, h3, h4, h5, h6⟩ := C54_accepts up C H cert z sfName h
  obtain ⟨sf, m, h7, h8, hv⟩ := contents_vouched up h6
  unfold loadFromJar at h8
  split at h8
  · simp at h8
  · split at h8
    · simp at h8
    · rename_i mfData hmf
      refine ⟨f, b, sfData, sig, mfData, sf, m, (chosen_mem up h1).2, h3, h2, h4, h5, h7, hmf, h8,
        hv.manifest, ?_⟩
      intro e d hd hc
      have hmem : e ∈ namelist z := by
        unfold zipRead at hd
        split at hd
        · rename_i x hx
          have := PyDict.mem_of_get? hx
          exact List.mem_map.2 ⟨_, List.mem_reverse.1 this, rfl⟩
        · simp at hd
      obtain ⟨d', hd', hm⟩ := hv.entries e hmem (covered_checked up hup hc)
      rw [hd] at hd'
      rw [Except.ok.inj hd']
      exact hm

/-- C49 for archives without two entries of the same name (other than exempt ones). Missing:
entries that are hidden by a later entry of the same name are not verified, see
`C49_full_fails`. -/
theorem C49_partial (C : Crypto) (H : Hashes) (cert : Str) (z : Zip) (sfName : Option Str)
    (hup : IsUpper up) (hd : ∀ e d d', (e, d) ∈ z → (e, d') ∈ z → Covered up e → d = d')
    (h : verify up C H cert z sfName = .ok ()) :
    SignatureVouches up C H cert z fun e d => (e, d) ∈ z := by
  obtain ⟨f, b, sfData, sig, mfData, sf, m, h1, h2, h3, h4, h5, h6, h7, h8, h9, h10⟩ :=
    C49_read up C H cert z sfName hup h
  refine ⟨f, b, sfData, sig, mfData, sf, m, h1, h2, h3, h4, h5, h6, h7, h8, h9, ?_⟩
  intro e d he hc
  obtain ⟨d', hd', hm⟩ := zipRead_mem (z := z) (n := e) (List.mem_map.2 ⟨_, he, rfl⟩)
  rw [hd e d d' he hm hc]
  exact h10 e d' hd' hc

/-! ### An example, and the counterexample -/

/-- Digests for examples: bytes are their own digest (no collisions). -/
def idHashes : Hashes := ⟨none, id, id, id, id, id⟩

/-- A signature scheme for examples: the signature is the signed data. -/
def echoCrypto : Crypto where
  verifyBlock _ content sig := if content = sig then .ok () else .error eSignatureBlock
  keyType _ := .ok "RSA".toList
  signBlock _ _ _ _ data := .ok data

/-- A manifest that vouches for the entry `a`, whose content is "hi". -/
def exMf : Bytes := encodeUtf8 "Manifest-Version: 1.0\n\nName: a\nMD5-Digest: aGk=\n\n".toList

/-- A signature file for that manifest. -/
def exSf : Bytes :=
  encodeUtf8 "Signature-Version: 1.0\nMD5-Digest-Manifest: ".toList ++
  encodeUtf8 (b64encode exMf) ++ [10, 10]

/-- An archive signed with it. -/
def exJar (more : Zip) : Zip :=
  more ++ [(sManifestMf, exMf), ("META-INF/K.SF".toList, exSf), ("META-INF/K.RSA".toList, exSf),
    ("a".toList, [104, 105])]

theorem exJar_ok : verify upLongS echoCrypto idHashes [] (exJar []) none = .ok () := by
  decide +kernel

/-- An entry that is hidden by a later one is accepted whatever its content. -/
theorem exJar_hidden :
    verify upLongS echoCrypto idHashes [] (exJar [("a".toList, [1, 2, 3])]) none = .ok () := by
  decide +kernel

theorem covered_a : Covered upLongS "a".toList := by
  right
  constructor
  · rintro ⟨d, h⟩
    have := (endsWith_iff _ ['/']).2 ⟨d, h⟩
    revert this
    decide
  · rintro ⟨d, x, h, _⟩
    have : '/' ∈ "a".toList := by rw [h]; simp
    revert this
    decide

theorem C49_full_fails : ¬ C49_full := by
  intro h
  obtain ⟨f, b, sfData, sig, mfData, sf, m, _, _, _, _, _, _, h7, h8, _, h10⟩ :=
    h upLongS echoCrypto idHashes [] _ none upLongS_isUpper exJar_hidden
  obtain ⟨alg, k, s, h11, h12, h13⟩ := h10 "a".toList [1, 2, 3] (by simp [exJar]) covered_a
  have e1 : zipRead (exJar [("a".toList, [1, 2, 3])]) sManifestMf = .ok exMf := by decide +kernel
  rw [e1] at h7
  have e2 := Except.ok.inj h7
  subst e2
  have e3 : emptyManifest.parse exMf = .ok
      { main := [(kManifestVersion, "1.0".toList)],
        subs := [("a".toList, [(kName, "a".toList), ("MD5-Digest".toList, "aGk=".toList)])],
        linesep := some "\n".toList } := by decide +kernel
  rw [e3] at h8
  have e4 := Except.ok.inj h8
  subst e4
  have e5 : s = [(kName, "a".toList), ("MD5-Digest".toList, "aGk=".toList)] := by
    simpa [PyDict.get?] using h12.symm
  subst e5
  have hm := PyDict.mem_of_get? h13
  simp only [List.mem_cons, Prod.mk.injEq, List.not_mem_nil, or_false] at hm
  have hk : ∀ alg k, idHashes.get alg = .ok k → k = id := by
    intro alg k hk
    unfold Hashes.get at hk
    simp only [idHashes] at hk
    repeat' split at hk
    all_goals first | (exact (Except.ok.inj hk).symm) | (simp at hk)
  rw [hk alg k h11] at hm
  rcases hm with ⟨_, h⟩ | ⟨_, h⟩
  · revert h; decide
  · revert h; decide

end Javatools
