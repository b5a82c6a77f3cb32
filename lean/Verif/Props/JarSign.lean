import Verif.Proofs.JarSign
/-
C50: signing then verifying; C51: tampering; C52: signing again.
-/
namespace Javatools

variable (up : Char → Str)

/-- The line breaks put into the value, if it can be written, do not fall inside a character. -/
def Foldable (ls k v : Str) : Prop := ∀ b, writeKeyVal k v ls = .ok b → ∃ t, b = encodeUtf8 t

/-- A name that can be recorded in a manifest: no line breaks or NUL characters, and not broken
inside a character. -/
def SafeName (ls n : Str) : Prop := (∀ c ∈ n, CleanChar c) ∧ Foldable ls kName n

/-! ### Facts about a successful signing -/

theorem loaded_clean {z : Zip} {m : Manifest} (h : loadFromJar z = .ok m) :
    CleanManifest kManifestVersion m := by
  unfold loadFromJar at h
  split at h
  · simp at h
  · split at h
    · simp at h
    · exact parsed_clean (.inl rfl) ⟨_, h⟩

theorem writeItems_each {ls : Str} {s : Section} {b : Bytes} (h : writeItems ls s = .ok b) :
    ∀ i ∈ s, ∃ c, writeKeyVal i.1 i.2 ls = .ok c := by
  induction s generalizing b with
  | nil => simp
  | cons j s ih =>
    obtain ⟨k, v⟩ := j
    simp only [writeItems] at h
    split at h
    · simp at h
    · rename_i c hc
      split at h
      · simp at h
      · rename_i d hd
        intro i hi
        rcases List.mem_cons.1 hi with rfl | hi
        · exact ⟨c, hc⟩
        · exact ih hd i hi

theorem sectionData_each {ls : Str} {s : Section} {b : Bytes} (h : sectionData s ls = .ok b) :
    ∀ i ∈ s, ∃ c, writeKeyVal i.1 i.2 ls = .ok c := by
  unfold sectionData at h
  split at h
  · simp at h
  · rename_i c hc
    exact writeItems_each hc

theorem writeSections_each {ls : Str} {ss : List Section} {b : Bytes}
    (h : writeSections ls ss = .ok b) : ∀ s ∈ ss, ∃ c, sectionData s ls = .ok c := by
  induction ss generalizing b with
  | nil => simp
  | cons t ss ih =>
    simp only [writeSections] at h
    split at h
    · simp at h
    · rename_i c hc
      split at h
      · simp at h
      · rename_i d hd
        intro s hs
        rcases List.mem_cons.1 hs with rfl | hs
        · exact ⟨c, hc⟩
        · exact ih hd s hs

theorem roundItem_of {ls : Str} {i : Str × Str} (hc : CleanItem i)
    (hw : ∃ c, writeKeyVal i.1 i.2 ls = .ok c) (hf : Foldable ls i.1 i.2) : RoundItem ls i := by
  obtain ⟨h1, h2, h3⟩ := (C44_written _ _ _).1 hw
  exact ⟨hc, ⟨h1, h2⟩, h3, hf⟩

section
variable {up}
variable {C : Crypto} {H : Hashes} {z : Zip} {cert key alias : Str} {extra : Option (List Str)}
  {alg : Str} {z' : Zip}

/-- The sections of the new manifest. -/
theorem signed_clean (S : Signed up C H z cert key alias extra alg z')
    (hn : ∀ f ∈ namelist z, skipsVerification up f = false → ∀ c ∈ f, CleanChar c) :
    CleanSubs S.m.subs := by
  have h0 := loaded_clean S.load
  have ha := get_supported S.get
  obtain ⟨_, _, h3, _, _⟩ := addEntries_spec up ha S.add
  refine ⟨h3 h0.subs.nodup, ?_⟩
  intro p hp
  rcases added_cases up ha h0.subs.nodup S.add hp with ⟨h1, h2, b, _, h5⟩ | ⟨_, h2⟩
  · rw [h5, digestSection_primary]
    refine ⟨⟨?_, ?_, ⟨_, _, rfl⟩⟩, rfl⟩
    · intro i hi
      simp only [digestSection, List.mem_cons, List.not_mem_nil, or_false] at hi
      rcases hi with rfl | rfl
      · exact ⟨cleanKey_name, by show kName.length ≤ 68; decide, hn _ h1 h2⟩
      · have hk := key_facts ha (.inl rfl : IsDigestSuffix sDigest)
        refine ⟨(legal_key hk.legal).1, hk.short, ?_⟩
        intro c hc
        have h := b64encode_ascii _ c hc
        constructor
        · unfold isLineBreak
          simp only [Bool.or_eq_false_iff, beq_eq_false_iff_ne]
          omega
        · rintro rfl
          revert h
          decide
    · have hk := key_facts ha (.inl rfl : IsDigestSuffix sDigest)
      simp only [digestSection, PyDict.keys, List.map_cons, List.map_nil, List.nodup_cons,
        List.mem_singleton, List.not_mem_nil, not_false_eq_true, List.nodup_nil, and_true]
      exact fun e => hk.name e.symm
  · exact h0.subs.clean p h2

theorem signed_sep (S : Signed up C H z cert key alias extra alg z') {ls : Str}
    (hsep : S.m0.linesep = some ls) :
    S.m.linesep = some ls ∧ IsSep ls ∧ orLinesep none S.m.linesep = ls := by
  have h0 := loaded_clean S.load
  obtain ⟨_, h2, _, _, _⟩ := addEntries_spec up (get_supported S.get) S.add
  obtain ⟨l, hl, hl2⟩ := h0.sep
  rw [hsep] at hl
  have := Option.some.inj hl
  subst this
  rw [h2, hsep]
  exact ⟨rfl, hl2, by rcases hl2 with rfl | rfl <;> rfl⟩

/-- The signature manifest. -/
theorem sf_facts (S : Signed up C H z cert key alias extra alg z') {ls : Str}
    (hsep : S.m0.linesep = some ls) (hc : CleanSubs S.m.subs) :
    ∃ main w, sectionData S.m.main ls = .ok main ∧
      writeSections ls (S.m.subs.map Prod.snd) = .ok w ∧
      S.sf.main = sfMain S.h alg main (main ++ w) ∧ S.sf.linesep = some ls ∧
      (PyDict.keys S.sf.subs).Nodup ∧
      (∀ p ∈ S.m.subs, ∃ b, sectionData p.2 ls = .ok b ∧
        (p.1, digestSection S.h alg p.1 b) ∈ S.sf.subs) ∧
      ∀ q ∈ S.sf.subs, ∃ p ∈ S.m.subs, ∃ b, sectionData p.2 ls = .ok b ∧
        q = (p.1, digestSection S.h alg p.1 b) := by
  obtain ⟨h1, h2, _⟩ := signed_sep S hsep
  have hprim : (S.m.subs.map fun p => primary p.2) = PyDict.keys S.m.subs := by
    unfold PyDict.keys
    apply List.map_congr_left
    intro p hp
    exact (hc.clean p hp).2.symm
  obtain ⟨main, w, ds, h3, h4, h5, h6⟩ := digestManifest_spec S.get h1 h2
    (by rw [hprim]; exact hc.nodup) S.digest
  obtain ⟨h7, h8⟩ := allData_snd h5
  have hkeys : PyDict.keys S.sf.subs = PyDict.keys S.m.subs := by
    rw [h6, ← hprim]
    have : S.m.subs.map (fun p => primary p.2) = (S.m.subs.map Prod.snd).map primary := by
      rw [List.map_map]; rfl
    rw [this, ← h7, List.map_map]
    simp [PyDict.keys]
  refine ⟨main, w, h3, h4, by rw [h6], by rw [h6], by rw [hkeys]; exact hc.nodup, ?_, ?_⟩
  · intro p hp
    have hm : p.2 ∈ ds.map Prod.snd := by rw [h7]; exact List.mem_map.2 ⟨p, hp, rfl⟩
    obtain ⟨q, hq, hqp⟩ := List.mem_map.1 hm
    refine ⟨q.1, by rw [← hqp]; exact h8 q hq, ?_⟩
    rw [h6]
    refine List.mem_map.2 ⟨q, hq, ?_⟩
    rw [hqp, ← (hc.clean p hp).2]
  · intro q hq
    rw [h6] at hq
    obtain ⟨d, hd, rfl⟩ := List.mem_map.1 hq
    have hm : d.2 ∈ S.m.subs.map Prod.snd := by rw [← h7]; exact List.mem_map.2 ⟨d, hd, rfl⟩
    obtain ⟨p, hp, hpd⟩ := List.mem_map.1 hm
    refine ⟨p, hp, d.1, by rw [hpd]; exact h8 d hd, ?_⟩
    rw [← hpd, ← (hc.clean p hp).2]

/-- The signature file is read as it was written. -/
theorem sf_parsed (S : Signed up C H z cert key alias extra alg z') {ls : Str}
    (hsep : S.m0.linesep = some ls) (hh : ∀ b, S.h b ≠ [])
    (hn : ∀ f ∈ namelist z, skipsVerification up f = false → SafeName ls f)
    (hd : ∀ p ∈ S.m0.subs, Foldable ls kName p.1) :
    ∃ sf', (emptySignature none).parse S.sfData = .ok sf' ∧ sf'.main = S.sf.main ∧
      ∀ n, PyDict.get? sf'.subs n = PyDict.get? S.sf.subs n := by
  have hc := signed_clean S fun f hf hs => (hn f hf hs).1
  have h0 := loaded_clean S.load
  have ha := get_supported S.get
  obtain ⟨_, hls, _⟩ := signed_sep S hsep
  obtain ⟨main, w, h1, h2, h3, h4, h5, h6, h7⟩ := sf_facts S hsep hc
  have hk1 := key_facts ha (.inr (.inr rfl) : IsDigestSuffix sDigestMain)
  have hk2 := key_facts ha (.inr (.inl rfl) : IsDigestSuffix sDigestManifest)
  have hk := key_facts ha (.inl rfl : IsDigestSuffix sDigest)
  have hround : RoundManifest ls kSignatureVersion S.sf := by
    refine ⟨⟨by rw [h3]; exact ⟨_, _, rfl⟩, ?_, ?_⟩, h5, ?_⟩
    · rw [h3]
      simp only [sfMain, PyDict.keys, List.map_cons, List.map_nil, List.nodup_cons, List.mem_cons,
        List.not_mem_nil, or_false, not_false_eq_true, List.nodup_nil, and_true, not_or]
      refine ⟨⟨fun e => hk1.version e.symm, fun e => hk2.version e.symm⟩, ?_⟩
      intro e
      exact absurd (List.append_cancel_left e) (by decide)
    · rw [h3]
      intro i hi
      simp only [sfMain, List.mem_cons, List.not_mem_nil, or_false] at hi
      rcases hi with rfl | rfl | rfl
      · exact printable_round hls _ ⟨by decide, by decide, by decide⟩ (by unfold Printable; decide)
          (by decide) (by decide) (by unfold Printable; decide) (by decide)
      · exact digest_round hls ha (.inr (.inr rfl)) (hh _)
      · exact digest_round hls ha (.inr (.inl rfl)) (hh _)
    · intro q hq
      obtain ⟨p, hp, b, hb, rfl⟩ := h7 q hq
      refine ⟨⟨⟨_, _, rfl⟩, ?_, ?_⟩, digestSection_primary _ _ _ _⟩
      · simp only [digestSection, PyDict.keys, List.map_cons, List.map_nil, List.nodup_cons,
          List.mem_singleton, List.not_mem_nil, not_false_eq_true, List.nodup_nil, and_true]
        exact fun e => hk.name e.symm
      · intro i hi
        simp only [digestSection, List.mem_cons, List.not_mem_nil, or_false] at hi
        rcases hi with rfl | rfl
        · obtain ⟨v, rest, hv⟩ := (hc.clean p hp).1.named
          have hp1 : p.1 = v := by
            rw [(hc.clean p hp).2, hv]
            simp [primary, PyDict.get?]
          have hmem : (kName, p.1) ∈ p.2 := by rw [hv, hp1]; simp
          refine roundItem_of ((hc.clean p hp).1.items _ hmem) (sectionData_each hb _ hmem) ?_
          rcases added_cases up ha h0.subs.nodup S.add hp with ⟨g1, g2, _⟩ | ⟨_, g2⟩
          · exact (hn _ g1 g2).2
          · exact hd p g2
        · exact digest_round hls ha (.inl rfl) (hh _)
  have hor : orLinesep none S.sf.linesep = ls := by
    rw [h4]
    rcases hls with rfl | rfl <;> rfl
  obtain ⟨b, sf', g1, g2, g3, g4, _⟩ := round_trip hls hround none hor "1.0".toList none
  rw [S.sfD] at g1
  have := Except.ok.inj g1
  subst this
  refine ⟨sf', g2, g3, ?_⟩
  intro n
  exact (get?_perm h5 g4.symm n).symm

/-- The sections of the original manifest that are kept can be vouched for. -/
def KeptDigests (H : Hashes) (alg : Str) (z : Zip) (m0 : Manifest) : Prop :=
  ∀ p ∈ m0.subs, ¬ (p.1 ∈ namelist z ∧ skipsVerification up p.1 = false) →
    alg ++ sDigest ∈ PyDict.keys p.2 ∧ ∀ d ∈ keysWithSuffix p.2 sDigest, ∃ k, H.get d = .ok k

/-- The names of the new entries. -/
theorem sf_name_facts (hup : IsUpper up) (S : Signed up C H z cert key alias extra alg z')
    (he : S.ext ∈ ["RSA".toList, "DSA".toList, "EC".toList])
    (hal : '/' ∉ alias ∧ '\x00' ∉ alias) :
    z' = (sManifestMf, S.mfData) :: (sMetaInfDir ++ alias ++ ".SF".toList, S.sfData) ::
      (sMetaInfDir ++ alias ++ '.' :: S.ext, S.sig) :: S.rest ∧
    sMetaInfDir ++ alias ++ ".SF".toList ≠ sManifestMf ∧
    (∀ e ∈ ["RSA".toList, "DSA".toList, "EC".toList],
      sMetaInfDir ++ alias ++ '.' :: e ≠ sManifestMf ∧
      sMetaInfDir ++ alias ++ '.' :: e ≠ sMetaInfDir ++ alias ++ ".SF".toList) ∧
    (∀ n ∈ namelist S.rest, n ∈ namelist z ∧ upperWith up n ≠ sManifestMf) ∧
    (∀ n ∈ namelist z, upperWith up n ≠ sManifestMf → n ∈ namelist S.rest) := by
  refine ⟨?_, ?_, ?_, ?_, ?_⟩
  · have h1 : '\x00' ∉ sMetaInfDir := by decide
    have h2 : '\x00' ∉ ".SF".toList := by decide
    have h3 : '\x00' ∉ '.' :: S.ext := by
      have : ∀ e ∈ ["RSA".toList, "DSA".toList, "EC".toList], '\x00' ∉ '.' :: e := by decide
      exact this _ he
    have h := S.eq
    rw [zipName_id (n := sMetaInfDir ++ alias ++ ".SF".toList),
      zipName_id (n := sMetaInfDir ++ alias ++ '.' :: S.ext)] at h
    · exact h
    · rw [List.mem_append, List.mem_append, not_or, not_or]
      exact ⟨⟨h1, hal.2⟩, h3⟩
    · rw [List.mem_append, List.mem_append, not_or, not_or]
      exact ⟨⟨h1, hal.2⟩, h2⟩
  · intro h
    have := (endsWith_iff _ ".SF".toList).2 ⟨_, h.symm⟩
    revert this
    decide
  · intro e he
    constructor
    · intro h
      have h2 : ∀ e ∈ ["RSA".toList, "DSA".toList, "EC".toList],
          endsWith sManifestMf ('.' :: e) = false := by decide
      have := (endsWith_iff _ ('.' :: e)).2 ⟨_, h.symm⟩
      rw [h2 e he] at this
      simp at this
    · intro h
      have h2 := List.append_cancel_left h
      revert h2
      have : ∀ e ∈ ["RSA".toList, "DSA".toList, "EC".toList], ¬ '.' :: e = ".SF".toList := by decide
      exact this e he
  · intro n hn
    rw [(copyEntries_spec up S.copy).1, List.mem_filter] at hn
    exact ⟨hn.1, by simpa using hn.2⟩
  · intro n hn hu
    rw [(copyEntries_spec up S.copy).1, List.mem_filter]
    exact ⟨hn, by simpa using hu⟩

/-- The new manifest is read as it was written. -/
theorem mf_parsed (S : Signed up C H z cert key alias extra alg z') {ls : Str}
    (hsep : S.m0.linesep = some ls) (hh : ∀ b, S.h b ≠ [])
    (hn : ∀ f ∈ namelist z, skipsVerification up f = false → SafeName ls f)
    (hmain : ∀ i ∈ S.m0.main, Foldable ls i.1 i.2)
    (hsubs : ∀ p ∈ S.m0.subs, ∀ i ∈ p.2, Foldable ls i.1 i.2) :
    ∃ m', emptyManifest.parse S.mfData = .ok m' ∧ m'.main = S.m.main ∧ m'.subs.Perm S.m.subs ∧
      m'.linesep = some ls ∧ m'.getData = .ok S.mfData := by
  have hc := signed_clean S fun f hf hs => (hn f hf hs).1
  have h0 := loaded_clean S.load
  have ha := get_supported S.get
  obtain ⟨hm, hls, hor⟩ := signed_sep S hsep
  obtain ⟨e1, _, _, _, _⟩ := addEntries_spec up ha S.add
  obtain ⟨ss, hss, hw⟩ := getData_sections S.mfD
  rw [hor] at hw
  have hwritten := writeSections_each hw
  have hperm := sortedSections_perm hss
  have hround : RoundManifest ls kManifestVersion S.m := by
    refine ⟨⟨by rw [e1]; exact h0.head, by rw [e1]; exact h0.nodup, ?_⟩, hc.nodup, ?_⟩
    · intro i hi
      obtain ⟨c, hc'⟩ := hwritten S.m.main (by simp)
      refine roundItem_of (h0.items i (e1 ▸ hi)) (sectionData_each hc' i hi) (hmain i (e1 ▸ hi))
    · intro p hp
      have hcl := hc.clean p hp
      refine ⟨⟨hcl.1.named, hcl.1.nodup, ?_⟩, hcl.2.symm⟩
      intro i hi
      obtain ⟨c, hc'⟩ := hwritten p.2 (List.mem_cons_of_mem _
        (hperm.mem_iff.2 (List.mem_map.2 ⟨p, hp, rfl⟩)))
      refine roundItem_of (hcl.1.items i hi) (sectionData_each hc' i hi) ?_
      rcases added_cases up ha h0.subs.nodup S.add hp with ⟨g1, g2, b, _, g4⟩ | ⟨_, g2⟩
      · rw [g4] at hi
        simp only [digestSection, List.mem_cons, List.not_mem_nil, or_false] at hi
        rcases hi with rfl | rfl
        · exact (hn _ g1 g2).2
        · exact (digest_round hls ha (.inl rfl) (hh _)).folds
      · exact hsubs p g2 i hi
  obtain ⟨b, m', g1, g2, g3, g4, g5, g6, _⟩ := round_trip hls hround none hor "1.0".toList none
  rw [S.mfD] at g1
  have := Except.ok.inj g1
  subst this
  exact ⟨m', g2, g3, g4, g5, g6⟩

/-- Any archive with the new manifest, the signature file and the same entries is accepted. -/
theorem signed_contents (hup : IsUpper up) (S : Signed up C H z cert key alias extra alg z') {ls : Str}
    (hsep : S.m0.linesep = some ls) (hh : ∀ b, S.h b ≠ [])
    (hn : ∀ f ∈ namelist z, skipsVerification up f = false → SafeName ls f)
    (hmain : ∀ i ∈ S.m0.main, Foldable ls i.1 i.2)
    (hsubs : ∀ p ∈ S.m0.subs, ∀ i ∈ p.2, Foldable ls i.1 i.2)
    (hk : KeptDigests (up := up) H alg z S.m0) {y : Zip} {m' : Manifest}
    (hm' : loadFromJar y = .ok m') (hmm : m'.main = S.m.main)
    (hmn : (PyDict.keys m'.subs).Nodup)
    (hget : ∀ n, PyDict.get? m'.subs n = PyDict.get? S.m.subs n)
    (hml : m'.linesep = some ls) {d : Bytes} (hmd : m'.getData = .ok d)
    (hy : ∀ f ∈ namelist y, skipsVerification up f = false →
      f ∈ namelist z ∧ zipRead y f = zipRead z f) :
    verifyContents up H y S.sfData = .ok () := by
  have hc := signed_clean S fun f hf hs => (hn f hf hs).1
  have h0 := loaded_clean S.load
  have ha := get_supported S.get
  obtain ⟨hm, hls, hor⟩ := signed_sep S hsep
  obtain ⟨main, w, h1, h2, h3, h4, h5, h6, h7⟩ := sf_facts S hsep hc
  have hd : ∀ p ∈ S.m0.subs, Foldable ls kName p.1 := by
    intro p hp
    obtain ⟨v, rest, hv⟩ := (h0.subs.clean p hp).1.named
    have hp1 : p.1 = v := by
      rw [(h0.subs.clean p hp).2, hv]
      simp [primary, PyDict.get?]
    exact hsubs p hp (kName, p.1) (by rw [hv, hp1]; simp)
  obtain ⟨sf', g1, g2, g3⟩ := sf_parsed S hsep hh hn hd
  refine contents_ok up S.get hls g1 hm' hml (g2.trans h3) (by rw [hmm]; exact h1) hmd ?_ ?_
  · intro s hs
    obtain ⟨p, hp', rfl⟩ := List.mem_map.1 hs
    have hp : p ∈ S.m.subs := by
      have := PyDict.get?_of_mem_nodup hmn hp'
      rw [hget] at this
      exact PyDict.mem_of_get? this
    obtain ⟨b, hb, hmem⟩ := h6 p hp
    have hprim := (hc.clean p hp).2
    have hgs : PyDict.get? sf'.subs (primary p.2) = some (digestSection S.h alg p.1 b) := by
      rw [g3, ← hprim]
      exact PyDict.get?_of_mem_nodup h5 hmem
    have hdata : ∃ b t, sectionData p.2 ls = .ok b ∧ PyDict.get? sf'.subs (primary p.2) = some t ∧
        PyDict.get? t (alg ++ sDigest) = some (b64encode (S.h b)) :=
      ⟨b, _, hb, hgs, digestSection_get ha S.h p.1 b⟩
    rcases added_cases up ha h0.subs.nodup S.add hp with ⟨g1, g2, b', _, g4⟩ | ⟨gn, g2⟩
    · refine ⟨?_, ?_, hdata⟩
      · rw [g4, digestSection_keys ha]
        simp
      · rw [g4, digestSection_keys ha]
        intro d hd
        rw [List.mem_singleton.1 hd]
        exact ⟨S.h, S.get⟩
    · obtain ⟨k1, k2⟩ := hk p g2 gn
      exact ⟨C48_supported _ _ _ (.inl rfl) ha k1, k2, hdata⟩
  · intro f hf hs
    obtain ⟨f1, f2⟩ := hy f hf hs
    obtain ⟨_, _, _, q4, _⟩ := addEntries_spec up ha S.add
    obtain ⟨b, hb, hg⟩ := q4 f f1 hs
    exact ⟨b, by rw [f2]; exact hb, by rw [hget]; exact hg⟩

end

/-! ### C50 -/

/-- The certificate and the private key belong together, and the key is of a known type. -/
structure Matching (C : Crypto) (cert key : Str) (extra : Option (List Str)) : Prop where
  accepts : ∀ digest data sig, C.signBlock digest cert key extra data = .ok sig →
    C.verifyBlock cert data sig = .ok ()
  kind : ∀ e, C.keyType key = .ok e → e ∈ ["RSA".toList, "DSA".toList, "EC".toList]

/-- Digests have at least one byte. -/
def NonemptyDigests (H : Hashes) : Prop := ∀ alg h, H.get alg = .ok h → ∀ b, h b ≠ []

/-- C50 as stated (with the name of the signature file, in case there are others). -/
def C50_full : Prop :=
  ∀ (up : Char → Str) (C : Crypto) (H : Hashes) (z : Zip) (cert key alias : Str)
    (extra : Option (List Str)) (alg : Str) (z' : Zip), IsUpper up → Matching C cert key extra →
    NonemptyDigests H → sign up C H z cert key alias extra alg = .ok z' →
    verify up C H cert z' (some (alias ++ ".SF".toList)) = .ok ()

theorem chooseSf_named {fs : List Str} {n : Str} (h : sMetaInfDir ++ n ∈ fs) :
    chooseSf fs (some n) = .ok (sMetaInfDir ++ n) := by
  match fs with
  | [] => simp at h
  | [g] =>
    have := List.mem_singleton.1 h
    simp only [chooseSf, this, if_true]
  | g :: g' :: r =>
    simp only [chooseSf]
    rw [if_pos h]

/-- The block file of a given type is found if there is none of another type. -/
theorem block_found {names : List Str} {alias ext : Str}
    (he : ext ∈ ["RSA".toList, "DSA".toList, "EC".toList])
    (hin : sMetaInfDir ++ alias ++ '.' :: ext ∈ names)
    (hother : ∀ e ∈ ["RSA".toList, "DSA".toList, "EC".toList], e ≠ ext →
      sMetaInfDir ++ alias ++ '.' :: e ∉ names) :
    findBlock names (keyAlias (sMetaInfDir ++ alias ++ ".SF".toList))
      ["RSA".toList, "DSA".toList, "EC".toList] = some (sMetaInfDir ++ alias ++ '.' :: ext) := by
  rw [C54_alias _ _ (by decide), findBlock_spec]
  simp only [List.mem_cons, List.not_mem_nil, or_false] at he
  rcases he with h | h | h
  · exact ⟨[], ext, ["DSA".toList, "EC".toList], by rw [h]; rfl, rfl, hin, by simp⟩
  · refine ⟨["RSA".toList], ext, ["EC".toList], by rw [h]; rfl, rfl, hin, ?_⟩
    intro d hd
    rw [List.mem_singleton.1 hd]
    exact hother _ (by simp) (by rw [h]; decide)
  · refine ⟨["RSA".toList, "DSA".toList], ext, [], by rw [h]; rfl, rfl, hin, ?_⟩
    intro d hd
    simp only [List.mem_cons, List.not_mem_nil, or_false] at hd
    rcases hd with rfl | rfl
    · exact hother _ (by simp) (by rw [h]; decide)
    · exact hother _ (by simp) (by rw [h]; decide)

/-- Verifying a signed archive comes down to its contents: the signature file and its block are
found, the manifest is the new one, and the entries are those of the original archive. -/
theorem signed_reads (C : Crypto) (H : Hashes) (z : Zip) (cert key alias : Str)
    (extra : Option (List Str)) (alg : Str) (z' : Zip) (hup : IsUpper up)
    (hC : Matching C cert key extra) (S : Signed up C H z cert key alias extra alg z')
    (halias : '/' ∉ alias ∧ '\x00' ∉ alias)
    (hfree : ∀ e ∈ ["SF".toList, "RSA".toList, "DSA".toList, "EC".toList],
      sMetaInfDir ++ alias ++ '.' :: e ∉ namelist z) :
    loadFromJar z' = emptyManifest.parse S.mfData ∧
    (∀ f ∈ namelist z', skipsVerification up f = false →
      f ∈ namelist z ∧ zipRead z' f = zipRead z f) ∧
    verify up C H cert z' (some (alias ++ ".SF".toList)) = verifyContents up H z' S.sfData ∧
    ((∀ n ∈ namelist z, ¬ IsSf up n) →
      verify up C H cert z' none = verifyContents up H z' S.sfData) := by
  have he := hC.kind _ S.kind
  obtain ⟨hz, n1, n2, n3, n4⟩ := sf_name_facts hup S he halias
  have hext : S.ext ∈ ["SF".toList, "RSA".toList, "DSA".toList, "EC".toList] := by
    simp only [List.mem_cons, List.not_mem_nil, or_false] at he ⊢
    exact .inr he
  have hnames : namelist z' = sManifestMf :: (sMetaInfDir ++ alias ++ ".SF".toList) ::
      (sMetaInfDir ++ alias ++ '.' :: S.ext) :: namelist S.rest := by
    exact congrArg namelist hz
  have hzr := congrArg zipRead hz
  have hsfFree : sMetaInfDir ++ alias ++ ".SF".toList ∉ namelist S.rest := by
    intro h
    exact hfree "SF".toList (by simp) (n3 _ h).1
  have hblkFree : ∀ e ∈ ["RSA".toList, "DSA".toList, "EC".toList],
      sMetaInfDir ++ alias ++ '.' :: e ∉ namelist S.rest := by
    intro e hee h
    refine hfree e ?_ (n3 _ h).1
    simp only [List.mem_cons, List.not_mem_nil, or_false] at hee ⊢
    exact .inr hee
  have hmfFree : sManifestMf ∉ namelist S.rest := by
    intro h
    exact (n3 _ h).2 (upper_const up hup (by unfold AsciiText; decide) (by decide))
  -- reading the three new entries
  have r1 : zipRead z' (sMetaInfDir ++ alias ++ ".SF".toList) = .ok S.sfData := by
    rw [hzr, zipRead_cons, if_pos (by simp [namelist]), zipRead_cons, if_neg, if_pos rfl]
    simp only [namelist, List.map_cons, List.mem_cons, not_or]
    exact ⟨fun h => (n2 _ he).2 h.symm, hsfFree⟩
  have r2 : zipRead z' (sMetaInfDir ++ alias ++ '.' :: S.ext) = .ok S.sig := by
    rw [hzr, zipRead_cons, if_pos (by simp [namelist]), zipRead_cons, if_pos (by simp [namelist]),
      zipRead_cons, if_neg (hblkFree _ he), if_pos rfl]
  have r3 : zipRead z' sManifestMf = .ok S.mfData := by
    rw [hzr, zipRead_cons, if_neg, if_pos rfl]
    simp only [namelist, List.map_cons, List.mem_cons, not_or]
    exact ⟨fun h => n1 h.symm, fun h => (n2 _ he).1 h.symm, hmfFree⟩
  have hblock : findBlock (namelist z') (keyAlias (sMetaInfDir ++ alias ++ ".SF".toList))
      ["RSA".toList, "DSA".toList, "EC".toList] = some (sMetaInfDir ++ alias ++ '.' :: S.ext) := by
    refine block_found he (by rw [hnames]; simp) ?_
    intro e hee hne
    rw [hnames]
    simp only [List.mem_cons, not_or]
    refine ⟨(n2 e hee).1, (n2 e hee).2, ?_, hblkFree e hee⟩
    intro h
    have := List.append_cancel_left h
    simp only [List.cons.injEq, true_and] at this
    exact hne this
  have hent : ∀ f ∈ namelist z', skipsVerification up f = false →
      f ∈ namelist z ∧ zipRead z' f = zipRead z f := by
      intro f hf hsk
      rw [hnames] at hf
      simp only [List.mem_cons] at hf
      rcases hf with rfl | rfl | rfl | hf
      · rw [skips_manifest up hup] at hsk; simp at hsk
      · rw [(skips_sf up hup halias.1).1] at hsk; simp at hsk
      · rw [skips_block up hup halias.1 he] at hsk; simp at hsk
      · refine ⟨(n3 f hf).1, ?_⟩
        rw [hzr, zipRead_cons, if_pos, zipRead_cons, if_pos, zipRead_cons, if_pos hf]
        · exact copied_read up S.copy hf
        · simp only [namelist, List.map_cons, List.mem_cons]
          exact .inr hf
        · simp only [namelist, List.map_cons, List.mem_cons]
          exact .inr (.inr hf)
  have hsfIn : sMetaInfDir ++ alias ++ ".SF".toList ∈ (namelist z').filter (matchesSigfile up) := by
    rw [List.mem_filter, matchesSigfile_iff]
    exact ⟨by rw [hnames]; simp, (skips_sf up hup halias.1).2⟩
  have hfinish : ∀ sfName, chooseSf ((namelist z').filter (matchesSigfile up)) sfName =
      .ok (sMetaInfDir ++ alias ++ ".SF".toList) →
      verify up C H cert z' sfName = verifyContents up H z' S.sfData := by
    intro sfName hch
    unfold verify
    rw [hch]
    simp only [r1, hblock, r2, hC.accepts _ _ _ S.block]
  refine ⟨?_, hent, ?_, ?_⟩
  · unfold loadFromJar
    rw [if_neg (by rw [hnames]; simp), r3]
  · apply hfinish
    rw [List.append_assoc]
    rw [List.append_assoc] at hsfIn
    exact chooseSf_named hsfIn
  · intro hnone
    apply hfinish
    rw [chooseSf_spec]
    left
    refine ⟨⟨[sManifestMf], (sMetaInfDir ++ alias ++ '.' :: S.ext) :: namelist S.rest, by
      rw [hnames]; rfl, (skips_sf up hup halias.1).2, ?_⟩, by simp⟩
    intro n hn' hsf
    simp only [List.singleton_append, List.mem_cons] at hn'
    have hsfx : ∀ {n : Str}, IsSf up n → ∃ r, upperWith up n = r ++ ".SF".toList := by
      rintro n ⟨_, _, _, h⟩
      exact h
    rcases hn' with rfl | rfl | hn'
    · obtain ⟨r, hr⟩ := hsfx hsf
      rw [upper_const up hup (by unfold AsciiText; decide) (by decide)] at hr
      have := (endsWith_iff _ ".SF".toList).2 ⟨r, hr⟩
      revert this
      decide
    · obtain ⟨r, hr⟩ := hsfx hsf
      have h0 : ∀ x ∈ ["RSA".toList, "DSA".toList, "EC".toList], (∀ c ∈ '.' :: x, c.toNat < 128) ∧
          asciiUpper ('.' :: x) = '.' :: x ∧ ('.' :: x).getLast? ≠ some 'F' ∧
          ('.' :: x).getLast? ≠ none := by decide
      obtain ⟨q1, q2, q3, q4⟩ := h0 _ he
      rw [upper_append, upper_const up hup (s := '.' :: S.ext) q1 q2] at hr
      have hl := congrArg List.getLast? hr
      rw [List.getLast?_append, List.getLast?_append] at hl
      have e2 : ".SF".toList.getLast? = some 'F' := by decide
      rw [e2] at hl
      cases hx : ('.' :: S.ext).getLast? with
      | none => exact q4 hx
      | some c =>
        rw [hx] at hl q3
        simp only [Option.some_or, Option.some.injEq] at hl
        rw [hl] at q3
        exact q3 rfl
    · exact hnone n (n3 n hn').1 hsf

/-- C50, for aliases without slash and NUL whose files are not yet in the archive, manifests
without characters broken at line ends, entry names without line breaks, and original manifests
each of whose further sections has a digest of the chosen algorithm (and none of an unknown one).
Missing: exactly these cases. -/
theorem C50_partial (C : Crypto) (H : Hashes) (z : Zip) (cert key alias : Str)
    (extra : Option (List Str)) (alg : Str) (z' : Zip) (hup : IsUpper up)
    (hC : Matching C cert key extra) (hH : NonemptyDigests H)
    (hs : sign up C H z cert key alias extra alg = .ok z')
    -- the alias
    (halias : '/' ∉ alias ∧ '\x00' ∉ alias)
    (hfree : ∀ e ∈ ["SF".toList, "RSA".toList, "DSA".toList, "EC".toList],
      sMetaInfDir ++ alias ++ '.' :: e ∉ namelist z)
    -- the manifest
    (m0 : Manifest) (ls : Str) (hm0 : loadFromJar z = .ok m0) (hsep : m0.linesep = some ls)
    (hmain : ∀ i ∈ m0.main, Foldable ls i.1 i.2)
    (hsubs : ∀ p ∈ m0.subs, ∀ i ∈ p.2, Foldable ls i.1 i.2)
    (hk : KeptDigests (up := up) H alg z m0)
    -- the entries
    (hn : ∀ f ∈ namelist z, skipsVerification up f = false → SafeName ls f) :
    verify up C H cert z' (some (alias ++ ".SF".toList)) = .ok () ∧
      ((∀ n ∈ namelist z, ¬ IsSf up n) → verify up C H cert z' none = .ok ()) := by
  obtain ⟨S⟩ := sign_signed up hs
  have e0 : S.m0 = m0 := by
    have := S.load
    rw [hm0] at this
    exact (Except.ok.inj this).symm
  subst e0
  obtain ⟨r1, r2, r3, r4⟩ := signed_reads up C H z cert key alias extra alg z' hup hC S halias hfree
  have hc := signed_clean S fun f hf hs => (hn f hf hs).1
  obtain ⟨m', g1, g2, g3, g4, g5⟩ := mf_parsed S hsep (hH _ _ S.get) hn hmain hsubs
  have hcontents : verifyContents up H z' S.sfData = .ok () :=
    signed_contents hup S hsep (hH _ _ S.get) hn hmain hsubs hk (y := z') (m' := m') (r1.trans g1) g2
      ((g3.map Prod.fst).nodup_iff.2 hc.nodup) (fun n => (get?_perm hc.nodup g3.symm n).symm) g4 g5 r2
  exact ⟨r3.trans hcontents, fun h => (r4 h).trans hcontents⟩

/-- A manifest with two directories, not in alphabetical order, and no digests. -/
def exUnsorted : Bytes :=
  encodeUtf8 "Manifest-Version: 1.0\n\nName: b/\nSealed: true\n\nName: a/\nSealed: true\n\n".toList

def exUnsignable : Zip := [(sManifestMf, exUnsorted), ("x".toList, [1])]

theorem echo_matching (extra : Option (List Str)) : Matching echoCrypto [] [] extra := by
  refine ⟨?_, ?_⟩
  · intro digest data sig h
    simp only [echoCrypto, Except.ok.injEq] at h ⊢
    rw [if_pos h]
  · intro e h
    simp only [echoCrypto, Except.ok.injEq] at h
    rw [← h]
    simp

/-- Digests for examples: a byte is put in front (no collisions, not empty). -/
def tagHashes : Hashes := ⟨none, (65 :: ·), (65 :: ·), (65 :: ·), (65 :: ·), (65 :: ·)⟩

theorem tag_get {alg : Str} {h : Bytes → Bytes} (hg : tagHashes.get alg = .ok h) :
    h = fun b => 65 :: b := by
  unfold Hashes.get at hg
  simp only [tagHashes] at hg
  repeat' split at hg
  all_goals first | (exact (Except.ok.inj hg).symm) | (simp at hg)

theorem tag_nonempty : NonemptyDigests tagHashes := by
  intro alg h hg b
  rw [tag_get hg]
  simp

theorem tag_no_collision {alg : Str} {h : Bytes → Bytes} (hg : tagHashes.get alg = .ok h) :
    ¬ Collision h := by
  rintro ⟨x, y, hne, he⟩
  rw [tag_get hg] at he
  exact hne (by simpa using he)

/-- Signing works, but the result is refused: the digest of the whole manifest is that of the
unsorted text, and the sections of the directories have no digests. -/
theorem exUnsignable_result :
    (match sign upLongS echoCrypto tagHashes exUnsignable [] [] "K".toList none "MD5".toList with
      | .error _ => none
      | .ok z => some (verify upLongS echoCrypto tagHashes [] z (some ("K".toList ++ ".SF".toList)))) =
      some (.error eManifestChecksum) := by decide +kernel

theorem C50_full_fails : ¬ C50_full := by
  intro h
  have hr := exUnsignable_result
  cases hs : sign upLongS echoCrypto tagHashes exUnsignable [] [] "K".toList none "MD5".toList with
  | error e => rw [hs] at hr; simp at hr
  | ok z =>
    rw [hs] at hr
    simp only [Option.some.injEq] at hr
    rw [h upLongS echoCrypto tagHashes _ [] [] "K".toList none "MD5".toList z upLongS_isUpper
      (echo_matching none) tag_nonempty hs] at hr
    simp at hr

/-- An archive with a manifest, a directory and two entries. -/
def exPlain : Zip :=
  [(sManifestMf, encodeUtf8 "Manifest-Version: 1.0\nMain-Class: M\n\n".toList),
    ("p/".toList, []), ("p/b".toList, [1, 2, 3]), ("a".toList, [])]

/-- The theorem applies to it, and signing does succeed. -/
example : ∃ z', sign upLongS echoCrypto tagHashes exPlain [] [] "K".toList none "SHA1".toList = .ok z' ∧
    verify upLongS echoCrypto tagHashes [] z' none = .ok () := by
  cases hs : sign upLongS echoCrypto tagHashes exPlain [] [] "K".toList none "SHA1".toList with
  | error e =>
    exfalso
    have : (match sign upLongS echoCrypto tagHashes exPlain [] [] "K".toList none "SHA1".toList with
      | .error _ => false
      | .ok _ => true) = true := by decide +kernel
    rw [hs] at this
    simp at this
  | ok z' =>
    refine ⟨z', rfl, ?_⟩
    have hp : ∀ k v : Str, writeKeyVal k v "\n".toList = .ok (encodeUtf8 (k ++ ':' :: ' ' :: v ++ ['\n'])) →
        Foldable "\n".toList k v := by
      intro k v h b hb
      rw [h] at hb
      exact ⟨_, (Except.ok.inj hb).symm⟩
    refine (C50_partial upLongS echoCrypto tagHashes exPlain [] [] "K".toList none "SHA1".toList z'
      upLongS_isUpper (echo_matching none) tag_nonempty hs (by decide) (by decide +kernel)
      { main := [(kManifestVersion, "1.0".toList), ("Main-Class".toList, "M".toList)],
        subs := [], linesep := some "\n".toList } "\n".toList (by decide +kernel) rfl ?_ (by simp)
      (by simp [KeptDigests]) ?_).2 ?_
    · intro i hi
      simp only [List.mem_cons, List.not_mem_nil, or_false] at hi
      rcases hi with rfl | rfl
      · exact hp _ _ (by decide +kernel)
      · exact hp _ _ (by decide +kernel)
    · intro f hf hk
      have hf' : f ∈ [sManifestMf, "p/".toList, "p/b".toList, "a".toList] := hf
      simp only [List.mem_cons, List.not_mem_nil, or_false] at hf'
      rcases hf' with rfl | rfl | rfl | rfl
      · exact absurd hk (by decide +kernel)
      · exact absurd hk (by decide +kernel)
      · exact ⟨by unfold CleanChar; decide, hp _ _ (by decide +kernel)⟩
      · exact ⟨by unfold CleanChar; decide, hp _ _ (by decide +kernel)⟩
    · have : ∀ n ∈ namelist exPlain, matchesSigfile upLongS n = false := by decide +kernel
      intro n hn hsf
      have h1 := this n hn
      rw [(matchesSigfile_iff _ _).2 hsf] at h1
      simp at h1

/-! ### C51 -/

/-- The signature file made by `sign`: the second entry of the new archive. -/
def SignatureFileOf (z' : Zip) (sfData : Bytes) : Prop := ∃ n, z'[1]? = some (n, sfData)

/-- C51, the conclusion: the covered entries are those of the original archive, or two texts with
the same digest have been found, or a text other than `sfData` with an accepted signature. -/
def Untampered (C : Crypto) (H : Hashes) (cert : Str) (sfData : Bytes) (z0 z2 : Zip) : Prop :=
  (∀ e b, Covered up e → zipRead z2 e = .ok b → zipRead z0 e = .ok b) ∨
    (∃ alg h, H.get alg = .ok h ∧ Collision h) ∨
    ∃ d sig, C.verifyBlock cert d sig = .ok () ∧ d ≠ sfData

/-- C51 as stated. -/
def C51_full : Prop :=
  ∀ (up : Char → Str) (C : Crypto) (H : Hashes) (z0 : Zip) (cert key alias : Str)
    (extra : Option (List Str)) (alg : Str) (z1 : Zip) (sfData : Bytes) (z2 : Zip)
    (sfName : Option Str), IsUpper up → NonemptyDigests H →
    sign up C H z0 cert key alias extra alg = .ok z1 → SignatureFileOf z1 sfData →
    verify up C H cert z2 sfName = .ok () → Untampered up C H cert sfData z0 z2

theorem sfMain_whole {alg alg' : Str} {h : Bytes → Bytes} {a b : Bytes} {v : Str}
    (hg : PyDict.get? (sfMain h alg a b) (alg' ++ sDigestManifest) = some v) :
    alg' = alg ∧ v = b64encode (h b) := by
  have hm := PyDict.mem_of_get? hg
  have hlast : (alg' ++ sDigestManifest).getLast? = some 't' := by
    rw [List.getLast?_append]
    have : sDigestManifest.getLast? = some 't' := by decide
    rw [this]
    rfl
  simp only [sfMain, List.mem_cons, Prod.mk.injEq, List.not_mem_nil, or_false] at hm
  rcases hm with ⟨h1, _⟩ | ⟨h1, _⟩ | ⟨h1, h2⟩
  · rw [h1] at hlast
    exact absurd hlast (by decide)
  · rw [h1, List.getLast?_append] at hlast
    have : sDigestMain.getLast? = some 's' := by decide
    rw [this] at hlast
    simp at hlast
  · exact ⟨List.append_cancel_right h1, h2⟩

section
variable {up}
variable {C : Crypto} {H : Hashes} {z : Zip} {cert key alias : Str} {extra : Option (List Str)}
  {alg : Str} {z' : Zip}

theorem safe_of_clean {s : Section} (h : ∀ i ∈ s, CleanItem i) : SafeSection s :=
  fun i hi => (h i hi).safe

/-- An accepted manifest has only sections of the signed manifest. -/
theorem section_signed (S : Signed up C H z cert key alias extra alg z') {ls : Str}
    (hsep : S.m0.linesep = some ls) (hh : ∀ b, S.h b ≠ [])
    (hn : ∀ f ∈ namelist z, skipsVerification up f = false → SafeName ls f)
    (hd : ∀ p ∈ S.m0.subs, Foldable ls kName p.1) (hnc : ¬ Collision S.h)
    {sf2 m2 : Manifest} (hsf2 : (emptySignature none).parse S.sfData = .ok sf2)
    (hm2 : CleanManifest kManifestVersion m2)
    (hv : WholeMatch H sf2 m2 ∨ (MainMatch H sf2 m2 ∧ ∀ s ∈ m2.subs.map Prod.snd, SectionMatch H sf2 m2 s))
    {p : Str × Section} (hp : p ∈ m2.subs) : p ∈ S.m.subs := by
  have hc := signed_clean S fun f hf hs => (hn f hf hs).1
  have h0 := loaded_clean S.load
  have ha := get_supported S.get
  obtain ⟨_, hls, _⟩ := signed_sep S hsep
  obtain ⟨e1, _, _, _, _⟩ := addEntries_spec up ha S.add
  obtain ⟨main, w, h1, h2, h3, h4, h5, h6, h7⟩ := sf_facts S hsep hc
  obtain ⟨sf', g1, g2, g3⟩ := sf_parsed S hsep hh hn hd
  rw [hsf2] at g1
  have := Except.ok.inj g1
  subst this
  have hps := hm2.subs.clean p hp
  have hsafe : SafeSection p.2 := safe_of_clean hps.1.items
  have hfinish : ∀ q ∈ S.m.subs, p.2 = q.2 → p ∈ S.m.subs := by
    intro q hq he
    have e2 : p.1 = q.1 := by rw [hps.2, (hc.clean q hq).2, he]
    have : p = q := Prod.ext e2 he
    rw [this]
    exact hq
  rcases hv with ⟨alg', h', b, k1, k2, k3⟩ | ⟨_, hv⟩
  · rw [g2, h3] at k3
    obtain ⟨e3, e4⟩ := sfMain_whole k3
    subst e3
    have e5 : h' = S.h := Except.ok.inj (k1.symm.trans S.get)
    subst e5
    have e6 : b = main ++ w := by
      by_cases he : b = main ++ w
      · exact he
      · exact absurd ⟨b, _, he, b64encode_injective e4⟩ hnc
    subst e6
    obtain ⟨ss, k4, k5⟩ := getData_sections k2
    have hall : writeSections ls (S.m.main :: S.m.subs.map Prod.snd) = .ok (main ++ w) := by
      simp only [writeSections, h1, h2]
    have hls2 : IsSep (orLinesep none m2.linesep) := by
      obtain ⟨l, hl, hl2⟩ := hm2.sep
      rw [hl]
      rcases hl2 with rfl | rfl
      · exact .inl rfl
      · exact .inr rfl
    have hperm := sortedSections_perm k4
    have heq := writeSections_inj hls2 hls ?_ ?_ k5 hall
    · have e7 : ss = S.m.subs.map Prod.snd := (List.cons.inj heq).2
      have : p.2 ∈ S.m.subs.map Prod.snd := by
        rw [← e7]
        exact hperm.mem_iff.2 (List.mem_map.2 ⟨p, hp, rfl⟩)
      obtain ⟨q, hq, hqe⟩ := List.mem_map.1 this
      exact hfinish q hq hqe.symm
    · intro s hs
      rcases List.mem_cons.1 hs with rfl | hs
      · exact safe_of_clean hm2.items
      · obtain ⟨q, hq, rfl⟩ := List.mem_map.1 (hperm.mem_iff.1 hs)
        exact safe_of_clean (hm2.subs.clean q hq).1.items
    · intro s hs
      rcases List.mem_cons.1 hs with rfl | hs
      · rw [e1]
        exact safe_of_clean h0.items
      · obtain ⟨q, hq, rfl⟩ := List.mem_map.1 hs
        exact safe_of_clean (hc.clean q hq).1.items
  · obtain ⟨alg', h', b, ls', t, k1, k2, k3, k4, k5⟩ := hv p.2 (List.mem_map.2 ⟨p, hp, rfl⟩)
    rw [g3] at k4
    obtain ⟨q, hq, b', hb', e2⟩ := h7 _ (PyDict.mem_of_get? k4)
    obtain ⟨e3, e4⟩ := Prod.mk.inj e2
    subst e4
    obtain ⟨e5, e6⟩ := digestSection_get' k5
    subst e5
    have e7 : h' = S.h := Except.ok.inj (k1.symm.trans S.get)
    subst e7
    have e8 : b = b' := by
      by_cases he : b = b'
      · exact he
      · exact absurd ⟨b, _, he, b64encode_injective e6⟩ hnc
    subst e8
    have hls2 : IsSep ls' := by
      obtain ⟨l, hl, hl2⟩ := hm2.sep
      rw [k2] at hl
      rw [Option.some.inj hl]
      exact hl2
    exact hfinish q hq (sectionData_inj hls2 hls hsafe (safe_of_clean (hc.clean q hq).1.items) k3 hb')

end

/-- A stale section: the original archive has no entry `e`, but its manifest has a section of that name
with a digest of `b`. -/
def Stale (H : Hashes) (z0 : Zip) (m0 : Manifest) (e : Str) (b : Bytes) : Prop :=
  e ∉ namelist z0 ∧ ∃ s alg h, (e, s) ∈ m0.subs ∧ H.get alg = .ok h ∧
    PyDict.get? s (alg ++ sDigest) = some (b64encode (h b))

/-- C51, exactly what stale sections allow: an accepted entry is as in the original, or it is one
that the original did not have and whose content its manifest vouched for already. Missing: names
with line breaks or with characters broken at line ends. -/
theorem C51_stale_partial (C : Crypto) (H : Hashes) (z0 : Zip) (cert key alias : Str)
    (extra : Option (List Str)) (alg : Str) (z1 : Zip) (sfData : Bytes) (z2 : Zip)
    (sfName : Option Str) (hup : IsUpper up) (hH : NonemptyDigests H)
    (hs : sign up C H z0 cert key alias extra alg = .ok z1) (hsf : SignatureFileOf z1 sfData)
    (hv : verify up C H cert z2 sfName = .ok ())
    (m0 : Manifest) (ls : Str) (hm0 : loadFromJar z0 = .ok m0) (hsep : m0.linesep = some ls)
    (hn : ∀ f ∈ namelist z0, skipsVerification up f = false → SafeName ls f)
    (hd : ∀ p ∈ m0.subs, Foldable ls kName p.1) :
    (∀ e b, Covered up e → zipRead z2 e = .ok b → zipRead z0 e = .ok b ∨ Stale H z0 m0 e b) ∨
    (∃ alg h, H.get alg = .ok h ∧ Collision h) ∨
    ∃ d sig, C.verifyBlock cert d sig = .ok () ∧ d ≠ sfData := by
  by_cases hcol : ∃ alg h, H.get alg = .ok h ∧ Collision h
  · exact .inr (.inl hcol)
  · by_cases hforge : ∃ d sig, C.verifyBlock cert d sig = .ok () ∧ d ≠ sfData
    · exact .inr (.inr hforge)
    · left
      obtain ⟨S⟩ := sign_signed up hs
      have e0 : S.m0 = m0 := by
        have := S.load
        rw [hm0] at this
        exact (Except.ok.inj this).symm
      subst e0
      have esf : S.sfData = sfData := by
        obtain ⟨n, hn⟩ := hsf
        have h1 := congrArg (fun l : Zip => l[1]?.map Prod.snd) S.eq
        simp only [hn, Option.map_some, List.getElem?_cons_succ, List.getElem?_cons_zero,
          Option.some.injEq] at h1
        exact h1.symm
      subst esf
      have hnc : ¬ Collision S.h := fun h => hcol ⟨_, _, S.get, h⟩
      obtain ⟨f, b, sfData2, sig, h1, h2, h3, h4, h5, h6⟩ := C54_accepts up C H cert z2 sfName hv
      have e1 : sfData2 = S.sfData := by
        by_cases he : sfData2 = S.sfData
        · exact he
        · exact absurd ⟨_, _, h5, he⟩ hforge
      subst e1
      obtain ⟨sf2, m2, h7, h8, hvo⟩ := contents_vouched up h6
      intro e b hc hb
      have hskip := covered_checked up hup hc
      have hmem : e ∈ namelist z2 := by
        unfold zipRead at hb
        split at hb
        · rename_i x hx
          have := PyDict.mem_of_get? hx
          exact List.mem_map.2 ⟨_, List.mem_reverse.1 this, rfl⟩
        · simp at hb
      obtain ⟨b', hb', alg', h', s, k1, k2, k3⟩ := hvo.entries e hmem hskip
      rw [hb] at hb'
      have := Except.ok.inj hb'
      subst this
      have hp : (e, s) ∈ S.m.subs :=
        section_signed S hsep (hH _ _ S.get) hn hd hnc h7 (loaded_clean h8) hvo.manifest
          (PyDict.mem_of_get? k2)
      have h0 := loaded_clean S.load
      have ha := get_supported S.get
      rcases added_cases up ha h0.subs.nodup S.add hp with ⟨g1, g2, b', g3, g4⟩ | ⟨g1, g2⟩
      · simp only at g3 g4
        rw [g4] at k3
        obtain ⟨e5, e6⟩ := digestSection_get' k3
        subst e5
        have e7 : h' = S.h := Except.ok.inj (k1.symm.trans S.get)
        subst e7
        have e8 : b = b' := by
          by_cases he : b = b'
          · exact he
          · exact absurd ⟨b, _, he, b64encode_injective e6⟩ hnc
        rw [e8]
        exact .inl g3
      · exact .inr ⟨fun hin => g1 ⟨hin, hskip⟩, s, alg', h', g2, k1, k3⟩

/-- C51, for originals whose covered manifest sections all belong to entries, and names without
line breaks and without characters broken at line ends. Missing: with a section for an entry that
does not exist, such an entry can be added later, see `C51_full_fails`; names with line breaks can
inject attributes into the manifest. -/
theorem C51_partial (C : Crypto) (H : Hashes) (z0 : Zip) (cert key alias : Str)
    (extra : Option (List Str)) (alg : Str) (z1 : Zip) (sfData : Bytes) (z2 : Zip)
    (sfName : Option Str) (hup : IsUpper up) (hH : NonemptyDigests H)
    (hs : sign up C H z0 cert key alias extra alg = .ok z1) (hsf : SignatureFileOf z1 sfData)
    (hv : verify up C H cert z2 sfName = .ok ())
    (m0 : Manifest) (ls : Str) (hm0 : loadFromJar z0 = .ok m0) (hsep : m0.linesep = some ls)
    (hn : ∀ f ∈ namelist z0, skipsVerification up f = false → SafeName ls f)
    (hd : ∀ p ∈ m0.subs, Foldable ls kName p.1)
    (hdang : ∀ p ∈ m0.subs, Covered up p.1 → p.1 ∈ namelist z0) :
    Untampered up C H cert sfData z0 z2 := by
  unfold Untampered
  rcases C51_stale_partial up C H z0 cert key alias extra alg z1 sfData z2 sfName hup hH hs hsf hv m0 ls hm0
    hsep hn hd with h | h
  · left
    intro e b hc hb
    rcases h e b hc hb with h | ⟨h1, s, _, _, h2, _⟩
    · exact h
    · exact absurd (hdang _ h2 hc) h1
  · exact .inr h

/-- A signature scheme for examples that accepts only one text. -/
def onlyCrypto (d : Bytes) : Crypto where
  verifyBlock _ content _ := if content = d then .ok () else .error eSignatureBlock
  keyType _ := .ok "EC".toList
  signBlock _ _ _ _ _ := .ok []

/-- The archive without the manifest section of an entry that does not exist ("b", with the digest
of the byte 7), or with it. -/
def exDangling (dangling : Bool) : Zip :=
  [(sManifestMf, encodeUtf8 ("Manifest-Version: 1.0\n\n".toList ++
      if dangling then "Name: b\nMD5-Digest: QQc=\n\n".toList else [])),
    ("a".toList, [1])]

def signedOr (d : Bytes) (dangling : Bool) : Zip :=
  match sign upLongS (onlyCrypto d) tagHashes (exDangling dangling) [] [] "K".toList none "MD5".toList with
  | .ok z => z
  | .error _ => []

def exData (dangling : Bool) : Bytes := (((signedOr [] dangling)[1]?).map Prod.snd).getD []

theorem exDangling_sign (d : Bool) :
    sign upLongS (onlyCrypto (exData d)) tagHashes (exDangling d) [] [] "K".toList none "MD5".toList =
        .ok (signedOr (exData d) d) ∧
      (signedOr (exData d) d)[1]? = some ("META-INF/K.SF".toList, exData d) := by
  cases d
  · decide +kernel
  · decide +kernel

/-- The entry that did not exist is accepted. -/
theorem exDangling_added :
    verify upLongS (onlyCrypto (exData true)) tagHashes []
      (signedOr (exData true) true ++ [("b".toList, [7])]) none = .ok () := by decide +kernel

theorem covered_b : Covered upLongS "b".toList := by
  right
  constructor
  · rintro ⟨d, h⟩
    have := (endsWith_iff _ ['/']).2 ⟨d, h⟩
    revert this
    decide
  · rintro ⟨d, x, h, _⟩
    have : '/' ∈ "b".toList := by rw [h]; simp
    revert this
    decide

theorem C51_full_fails : ¬ C51_full := by
  intro h
  have hu := h upLongS (onlyCrypto (exData true)) tagHashes (exDangling true) [] [] "K".toList none
    "MD5".toList _ (exData true) _ none upLongS_isUpper tag_nonempty (exDangling_sign true).1
    ⟨_, (exDangling_sign true).2⟩ exDangling_added
  rcases hu with h1 | ⟨alg, k, h1, h2⟩ | ⟨d, sig, h1, h2⟩
  · have h2 := h1 "b".toList [7] covered_b (by decide +kernel)
    revert h2
    decide +kernel
  · exact tag_no_collision h1 h2
  · simp only [onlyCrypto] at h1
    rw [if_neg h2] at h1
    simp at h1

/-- Without the dangling section the theorem applies (and the signed archive is accepted). -/
example (z2 : Zip) (sfName : Option Str)
    (hv : verify upLongS (onlyCrypto (exData false)) tagHashes [] z2 sfName = .ok ()) :
    ∀ e b, Covered upLongS e → zipRead z2 e = .ok b → zipRead (exDangling false) e = .ok b := by
  have hn : ∀ f ∈ namelist (exDangling false), skipsVerification upLongS f = false →
      SafeName "\n".toList f := by
    intro f hf hk
    have hf' : f ∈ [sManifestMf, "a".toList] := hf
    simp only [List.mem_cons, List.not_mem_nil, or_false] at hf'
    rcases hf' with rfl | rfl
    · exact absurd hk (by decide +kernel)
    · refine ⟨by unfold CleanChar; decide, ?_⟩
      intro b hb
      have : writeKeyVal kName "a".toList "\n".toList = .ok (encodeUtf8 "Name: a\n".toList) := by
        decide +kernel
      rw [this] at hb
      exact ⟨_, (Except.ok.inj hb).symm⟩
  rcases C51_partial upLongS (onlyCrypto (exData false)) tagHashes (exDangling false) [] [] "K".toList
    none "MD5".toList _ (exData false) z2 sfName upLongS_isUpper tag_nonempty
    (exDangling_sign false).1 ⟨_, (exDangling_sign false).2⟩ hv
    { main := [(kManifestVersion, "1.0".toList)], subs := [], linesep := some "\n".toList }
    "\n".toList (by decide +kernel) rfl hn (by simp) (by simp) with
    h | ⟨alg, k, h1, h2⟩ | ⟨d, sig, h1, h2⟩
  · exact h
  · exact absurd h2 (tag_no_collision h1)
  · simp only [onlyCrypto] at h1
    rw [if_neg h2] at h1
    simp at h1

example : verify upLongS (onlyCrypto (exData false)) tagHashes [] (signedOr (exData false) false)
    none = .ok () := by decide +kernel

/-! ### C52 -/

/-- C52 as stated: after signing again with the same alias, the archive is accepted for the new
certificate. -/
def C52_full : Prop :=
  ∀ (up : Char → Str) (C : Crypto) (H : Hashes) (z : Zip) (cert1 key1 cert2 key2 alias : Str)
    (extra1 extra2 : Option (List Str)) (alg1 alg2 : Str) (z1 z2 : Zip), IsUpper up →
    Matching C cert1 key1 extra1 → Matching C cert2 key2 extra2 → NonemptyDigests H →
    sign up C H z cert1 key1 alias extra1 alg1 = .ok z1 →
    verify up C H cert1 z1 (some (alias ++ ".SF".toList)) = .ok () →
    sign up C H z1 cert2 key2 alias extra2 alg2 = .ok z2 →
    verify up C H cert2 z2 (some (alias ++ ".SF".toList)) = .ok ()

/-- What signing again does: if the archive has a signature file for the alias, then the new archive
is refused unless the name is given, and if it is given, the old signature file is used, with the
old block file if that is the one of the first type. The new signature is never used. -/
theorem C52_old_signature (C : Crypto) (H : Hashes) (z1 : Zip) (cert key alias : Str)
    (extra : Option (List Str)) (alg : Str) (z2 : Zip) (hup : IsUpper up)
    (halias : '/' ∉ alias ∧ '\x00' ∉ alias)
    (hkind : ∀ e, C.keyType key = .ok e → e ∈ ["RSA".toList, "DSA".toList, "EC".toList])
    (hold : sMetaInfDir ++ alias ++ ".SF".toList ∈ namelist z1)
    (hs : sign up C H z1 cert key alias extra alg = .ok z2) :
    verify up C H cert z2 none = .error eVerification ∧
      zipRead z2 (sMetaInfDir ++ alias ++ ".SF".toList) =
        zipRead z1 (sMetaInfDir ++ alias ++ ".SF".toList) ∧
      (∀ e ∈ ["RSA".toList, "DSA".toList, "EC".toList],
        sMetaInfDir ++ alias ++ '.' :: e ∈ namelist z1 →
        zipRead z2 (sMetaInfDir ++ alias ++ '.' :: e) = zipRead z1 (sMetaInfDir ++ alias ++ '.' :: e)) ∧
      ∀ cert', verify up C H cert' z2 (some (alias ++ ".SF".toList)) = .ok () →
        ∃ old sig, zipRead z1 (sMetaInfDir ++ alias ++ ".SF".toList) = .ok old ∧
          C.verifyBlock cert' old sig = .ok () ∧ verifyContents up H z2 old = .ok () := by
  obtain ⟨S⟩ := sign_signed up hs
  have he := hkind _ S.kind
  obtain ⟨hz, n1, n2, n3, n4⟩ := sf_name_facts hup S he halias
  have hzr := congrArg zipRead hz
  have hzn := congrArg namelist hz
  have hsf := (skips_sf up hup halias.1).2
  have hup1 : ∀ x : Str, (∀ c ∈ x, c.toNat < 128) → asciiUpper x = x →
      upperWith up (sMetaInfDir ++ alias ++ x) = sMetaInfDir ++ upperWith up alias ++ x := by
    intro x h1 h2
    rw [upper_append, upper_append, upper_const up hup h1 h2,
      upper_const up hup (s := sMetaInfDir) (by unfold AsciiText; decide) (by decide)]
  have hcopied : ∀ n, n ∈ namelist z1 → upperWith up n ≠ sManifestMf → zipRead z2 n = zipRead z1 n := by
    intro n hn hu
    have hr := n4 n hn hu
    rw [hzr, zipRead_cons, if_pos, zipRead_cons, if_pos, zipRead_cons, if_pos hr]
    · exact copied_read up S.copy hr
    · simp only [namelist, List.map_cons, List.mem_cons]
      exact .inr hr
    · simp only [namelist, List.map_cons, List.mem_cons]
      exact .inr (.inr hr)
  have huSf : upperWith up (sMetaInfDir ++ alias ++ ".SF".toList) ≠ sManifestMf := by
    rw [hup1 _ (by decide) (by decide)]
    intro h
    have := (endsWith_iff _ ".SF".toList).2 ⟨_, h.symm⟩
    revert this
    decide
  have hread := hcopied _ hold huSf
  refine ⟨?_, hread, ?_, ?_⟩
  · apply C54_not_chosen up C H cert z2 none
    · exact ⟨_, by rw [hzn]; simp [namelist], hsf⟩
    · rintro f (⟨⟨a, b, h1, h2, h3⟩, _⟩ | ⟨_, n, h1, _⟩)
      · have hr := n4 _ hold huSf
        have h4 : 2 ≤ ((namelist z2).filter (matchesSigfile up)).length := by
          rw [filter_several_iff, hzn]
          obtain ⟨r1, r2, hrr⟩ := List.append_of_mem hr
          refine ⟨[sManifestMf], (sMetaInfDir ++ alias ++ '.' :: S.ext) :: r1, r2, _, _, ?_, hsf, hsf⟩
          simp only [namelist, List.map_cons] at hrr ⊢
          rw [hrr]
          rfl
        rw [(filter_one_iff up _ _).2 ⟨a, b, h1, h2, h3⟩] at h4
        simp at h4
      · simp at h1
  · intro e hee hin
    have h0 : ∀ x ∈ ["RSA".toList, "DSA".toList, "EC".toList], (∀ c ∈ '.' :: x, c.toNat < 128) ∧
        asciiUpper ('.' :: x) = '.' :: x ∧ endsWith sManifestMf ('.' :: x) = false := by decide
    obtain ⟨q1, q2, q3⟩ := h0 e hee
    apply hcopied _ hin
    rw [hup1 _ q1 q2]
    intro h
    have := (endsWith_iff _ ('.' :: e)).2 ⟨_, h.symm⟩
    rw [q3] at this
    simp at this
  · intro cert' hv
    obtain ⟨f, b, sfData, sig, h1, h2, h3, h4, h5, h6⟩ := C54_accepts up C H cert' z2 _ hv
    have hf : f = sMetaInfDir ++ (alias ++ ".SF".toList) := by
      rcases h1 with ⟨_, h⟩ | ⟨_, n, h, h', _⟩
      · exact h _ rfl
      · rw [h', Option.some.inj h]
    rw [hf, ← List.append_assoc, hread] at h3
    exact ⟨sfData, sig, h3, h5, h6⟩

/-- A signature scheme for examples: the signature is the certificate followed by the data. -/
def nameCrypto : Crypto where
  verifyBlock cert content sig :=
    if sig = encodeUtf8 cert ++ content then .ok () else .error eSignatureBlock
  keyType _ := .ok "RSA".toList
  signBlock _ cert _ _ data := .ok (encodeUtf8 cert ++ data)

theorem name_matching (cert key : Str) (extra : Option (List Str)) :
    Matching nameCrypto cert key extra := by
  refine ⟨?_, ?_⟩
  · intro digest data sig h
    simp only [nameCrypto, Except.ok.injEq] at h ⊢
    rw [if_pos h.symm]
  · intro e h
    simp only [nameCrypto, Except.ok.injEq] at h
    rw [← h]
    simp

/-- Signing `exPlain` with the certificate "A" and then with `cert2`. -/
def signTwice (cert2 : Str) : Res (Zip × Zip) :=
  match sign upLongS nameCrypto tagHashes exPlain "A".toList [] "K".toList none "MD5".toList with
  | .error e => .error e
  | .ok z1 =>
    match sign upLongS nameCrypto tagHashes z1 cert2 [] "K".toList none "MD5".toList with
    | .error e => .error e
    | .ok z2 => .ok (z1, z2)

theorem signTwice_result :
    (match signTwice "B".toList with
      | .error _ => none
      | .ok (z1, z2) => some (
        verify upLongS nameCrypto tagHashes "A".toList z1 (some ("K".toList ++ ".SF".toList)),
        verify upLongS nameCrypto tagHashes "B".toList z2 (some ("K".toList ++ ".SF".toList)))) =
      some (.ok (), .error eSignatureBlockFile) := by decide +kernel

theorem C52_full_fails : ¬ C52_full := by
  intro h
  have hr := signTwice_result
  unfold signTwice at hr
  cases h1 : sign upLongS nameCrypto tagHashes exPlain "A".toList [] "K".toList none "MD5".toList with
  | error e => rw [h1] at hr; simp at hr
  | ok z1 =>
    rw [h1] at hr
    simp only at hr
    cases h2 : sign upLongS nameCrypto tagHashes z1 "B".toList [] "K".toList none "MD5".toList with
    | error e => rw [h2] at hr; simp at hr
    | ok z2 =>
      rw [h2] at hr
      simp only [Option.some.injEq, Prod.mk.injEq] at hr
      rw [h upLongS nameCrypto tagHashes exPlain "A".toList [] "B".toList [] "K".toList none none
        "MD5".toList "MD5".toList z1 z2 upLongS_isUpper (name_matching _ _ _) (name_matching _ _ _)
        tag_nonempty h1 hr.1 h2] at hr
      simp at hr

/-- C52, for signing again with the same key, certificate and digest, and under the conditions of
`C50_partial` for the original archive: the result is accepted if the name of the signature file is
given. Missing: with another key or digest the result is refused, and it is refused if the name is
not given (`C52_old_signature`). -/
theorem C52_partial (C : Crypto) (H : Hashes) (z : Zip) (cert key alias : Str)
    (extra : Option (List Str)) (alg : Str) (z1 z2 : Zip) (hup : IsUpper up)
    (hC : Matching C cert key extra) (hH : NonemptyDigests H)
    (hs1 : sign up C H z cert key alias extra alg = .ok z1)
    (hs2 : sign up C H z1 cert key alias extra alg = .ok z2)
    (halias : '/' ∉ alias ∧ '\x00' ∉ alias)
    (hfree : ∀ e ∈ ["SF".toList, "RSA".toList, "DSA".toList, "EC".toList],
      sMetaInfDir ++ alias ++ '.' :: e ∉ namelist z)
    (m0 : Manifest) (ls : Str) (hm0 : loadFromJar z = .ok m0) (hsep : m0.linesep = some ls)
    (hmain : ∀ i ∈ m0.main, Foldable ls i.1 i.2)
    (hsubs : ∀ p ∈ m0.subs, ∀ i ∈ p.2, Foldable ls i.1 i.2)
    (hk : KeptDigests (up := up) H alg z m0)
    (hn : ∀ f ∈ namelist z, skipsVerification up f = false → SafeName ls f) :
    verify up C H cert z2 (some (alias ++ ".SF".toList)) = .ok () := by
  obtain ⟨S⟩ := sign_signed up hs1
  obtain ⟨T⟩ := sign_signed up hs2
  have e0 : S.m0 = m0 := by
    have := S.load
    rw [hm0] at this
    exact (Except.ok.inj this).symm
  subst e0
  have he := hC.kind _ S.kind
  have eext : T.ext = S.ext := Except.ok.inj (T.kind.symm.trans S.kind)
  have eh : T.h = S.h := Except.ok.inj (T.get.symm.trans S.get)
  obtain ⟨hz1, n1, n2, n3, n4⟩ := sf_name_facts hup S he halias
  obtain ⟨hz2, _, _, p3, p4⟩ := sf_name_facts hup T (eext ▸ he) halias
  rw [eext] at hz2
  have r1 := congrArg zipRead hz1
  have r2 := congrArg zipRead hz2
  have m1 := congrArg namelist hz1
  have m2 := congrArg namelist hz2
  simp only [namelist, List.map_cons] at m1 m2
  have hnot : ∀ e ∈ ["SF".toList, "RSA".toList, "DSA".toList, "EC".toList],
      sMetaInfDir ++ alias ++ '.' :: e ∉ namelist S.rest := by
    intro e hee h
    exact hfree e hee (n3 _ h).1
  have hext : S.ext ∈ ["SF".toList, "RSA".toList, "DSA".toList, "EC".toList] := by
    simp only [List.mem_cons, List.not_mem_nil, or_false] at he ⊢
    exact .inr he
  have hmfS : sManifestMf ∉ namelist S.rest := fun h =>
    (n3 _ h).2 (upper_const up hup (by unfold AsciiText; decide) (by decide))
  have hmfT : sManifestMf ∉ namelist T.rest := fun h =>
    (p3 _ h).2 (upper_const up hup (by unfold AsciiText; decide) (by decide))
  -- reading the once and twice signed archives
  have hupNe : ∀ e ∈ ["SF".toList, "RSA".toList, "DSA".toList, "EC".toList],
      upperWith up (sMetaInfDir ++ alias ++ '.' :: e) ≠ sManifestMf := by
    have h0 : ∀ x ∈ ["SF".toList, "RSA".toList, "DSA".toList, "EC".toList],
        (∀ c ∈ '.' :: x, c.toNat < 128) ∧
        asciiUpper ('.' :: x) = '.' :: x ∧ endsWith sManifestMf ('.' :: x) = false := by decide
    intro e hee h
    obtain ⟨q1, q2, q3⟩ := h0 e hee
    rw [upper_append, upper_const up hup q1 q2] at h
    have := (endsWith_iff _ ('.' :: e)).2 ⟨_, h.symm⟩
    rw [q3] at this
    simp at this
  have hcopied : ∀ n, n ∈ namelist T.rest → zipRead z2 n = zipRead z1 n := by
    intro n hr
    rw [r2, zipRead_cons, if_pos, zipRead_cons, if_pos, zipRead_cons, if_pos hr]
    · exact copied_read up T.copy hr
    · simp only [namelist, List.map_cons, List.mem_cons]
      exact .inr hr
    · simp only [namelist, List.map_cons, List.mem_cons]
      exact .inr (.inr hr)
  have hcopied1 : ∀ n, n ∈ namelist S.rest → zipRead z1 n = zipRead z n := by
    intro n hr
    rw [r1, zipRead_cons, if_pos, zipRead_cons, if_pos, zipRead_cons, if_pos hr]
    · exact copied_read up S.copy hr
    · simp only [namelist, List.map_cons, List.mem_cons]
      exact .inr hr
    · simp only [namelist, List.map_cons, List.mem_cons]
      exact .inr (.inr hr)
  have sf1 : zipRead z1 (sMetaInfDir ++ alias ++ ".SF".toList) = .ok S.sfData := by
    rw [r1, zipRead_cons, if_pos (by simp [namelist]), zipRead_cons, if_neg, if_pos rfl]
    simp only [namelist, List.map_cons, List.mem_cons, not_or]
    exact ⟨fun h => (n2 _ he).2 h.symm, hnot "SF".toList (by simp)⟩
  have blk1 : zipRead z1 (sMetaInfDir ++ alias ++ '.' :: S.ext) = .ok S.sig := by
    rw [r1, zipRead_cons, if_pos (by simp [namelist]), zipRead_cons, if_pos (by simp [namelist]),
      zipRead_cons, if_neg (hnot _ hext), if_pos rfl]
  have mf1 : zipRead z1 sManifestMf = .ok S.mfData := by
    rw [r1, zipRead_cons, if_neg, if_pos rfl]
    simp only [namelist, List.map_cons, List.mem_cons, not_or]
    exact ⟨fun h => n1 h.symm, fun h => (n2 _ he).1 h.symm, hmfS⟩
  have hsfIn1 : sMetaInfDir ++ alias ++ ".SF".toList ∈ namelist z1 := by
    rw [namelist, m1]; simp
  have hblkIn1 : sMetaInfDir ++ alias ++ '.' :: S.ext ∈ namelist z1 := by
    rw [namelist, m1]; simp
  have hsfT := p4 _ hsfIn1 (hupNe "SF".toList (by simp))
  have hblkT := p4 _ hblkIn1 (hupNe _ hext)
  have sf2 := (hcopied _ hsfT).trans sf1
  have blk2 := (hcopied _ hblkT).trans blk1
  have mf2 : zipRead z2 sManifestMf = .ok T.mfData := by
    rw [r2, zipRead_cons, if_neg, if_pos rfl]
    simp only [namelist, List.map_cons, List.mem_cons, not_or]
    exact ⟨fun h => n1 h.symm, fun h => (n2 _ he).1 h.symm, hmfT⟩
  -- the manifest of the once signed archive
  have hh := hH _ _ S.get
  have hc := signed_clean S fun f hf hs => (hn f hf hs).1
  have ha := get_supported S.get
  have h0 := loaded_clean S.load
  obtain ⟨_, hls, _⟩ := signed_sep S hsep
  obtain ⟨e1, _, _, a4, a5⟩ := addEntries_spec up ha S.add
  obtain ⟨m', g1, g2, g3, g4, _⟩ := mf_parsed S hsep hh hn hmain hsubs
  have hload1 : loadFromJar z1 = .ok m' := by
    unfold loadFromJar
    rw [if_neg (by rw [namelist, m1]; simp), mf1]
    exact g1
  have eT : T.m0 = m' := by
    have := T.load
    rw [hload1] at this
    exact (Except.ok.inj this).symm
  -- the entries of the once signed archive
  have hent1 : ∀ f ∈ namelist z1, skipsVerification up f = false → f ∈ namelist S.rest := by
    intro f hf hsk
    rw [namelist, m1] at hf
    simp only [List.mem_cons] at hf
    rcases hf with rfl | rfl | rfl | hf
    · rw [skips_manifest up hup] at hsk; simp at hsk
    · rw [(skips_sf up hup halias.1).1] at hsk; simp at hsk
    · rw [skips_block up hup halias.1 he] at hsk; simp at hsk
    · exact hf
  have hn1 : ∀ f ∈ namelist z1, skipsVerification up f = false → SafeName ls f :=
    fun f hf hsk => hn f (n3 f (hent1 f hf hsk)).1 hsk
  have hsub1 : ∀ p ∈ T.m0.subs, ∀ i ∈ p.2, Foldable ls i.1 i.2 := by
    rw [eT]
    intro p hp i hi
    rcases added_cases up ha h0.subs.nodup S.add (g3.mem_iff.1 hp) with ⟨q1, q2, b, _, q4⟩ | ⟨_, q2⟩
    · rw [q4] at hi
      simp only [digestSection, List.mem_cons, List.not_mem_nil, or_false] at hi
      rcases hi with rfl | rfl
      · exact (hn _ q1 q2).2
      · exact (digest_round hls ha (.inl rfl) (hh _)).folds
    · exact hsubs p q2 i hi
  -- the manifest of the twice signed archive
  obtain ⟨t1, t2, t3, t4, t5⟩ := addEntries_spec up ha T.add
  obtain ⟨m'', k1, k2, k3, k4, k5⟩ := mf_parsed T (by rw [eT]; exact g4) (hH _ _ T.get) hn1
    (by rw [eT, g2, e1]; exact hmain) hsub1
  have hcT := signed_clean T fun f hf hs => (hn1 f hf hs).1
  have hsame : ∀ n, PyDict.get? T.m.subs n = PyDict.get? S.m.subs n := by
    intro n
    by_cases hnn : n ∈ namelist z1 ∧ skipsVerification up n = false
    · have hr := hent1 n hnn.1 hnn.2
      obtain ⟨b, hb, hb2⟩ := t4 n hnn.1 hnn.2
      obtain ⟨b', hb', hb2'⟩ := a4 n (n3 n hr).1 hnn.2
      rw [hcopied1 n hr, hb'] at hb
      rw [hb2, hb2', eh, Except.ok.inj hb]
    · rw [t5 n hnn, eT]
      exact (get?_perm hc.nodup g3.symm n).symm
  have hcontents : verifyContents up H z2 S.sfData = .ok () := by
    refine signed_contents hup S hsep hh hn hmain hsubs hk (y := z2) (m' := m'') ?_
      (k2.trans (t1.trans (by rw [eT, g2])))
      ((k3.map Prod.fst).nodup_iff.2 hcT.nodup)
      (fun n => (get?_perm hcT.nodup k3.symm n).symm.trans (hsame n)) k4 k5 ?_
    · unfold loadFromJar
      rw [if_neg (by rw [namelist, m2]; simp), mf2]
      exact k1
    · intro f hf hsk
      have hfT : f ∈ namelist T.rest := by
        rw [namelist, m2] at hf
        simp only [List.mem_cons] at hf
        rcases hf with rfl | rfl | rfl | hf
        · rw [skips_manifest up hup] at hsk; simp at hsk
        · exact hsfT
        · exact hblkT
        · exact hf
      have hr := hent1 f (p3 f hfT).1 hsk
      exact ⟨(n3 f hr).1, (hcopied f hfT).trans (hcopied1 f hr)⟩
  have hblock : findBlock (namelist z2) (keyAlias (sMetaInfDir ++ alias ++ ".SF".toList))
      ["RSA".toList, "DSA".toList, "EC".toList] = some (sMetaInfDir ++ alias ++ '.' :: S.ext) := by
    refine block_found he (by rw [namelist, m2]; simp) ?_
    intro e hee hne
    have hee' : e ∈ ["SF".toList, "RSA".toList, "DSA".toList, "EC".toList] := by
      simp only [List.mem_cons, List.not_mem_nil, or_false] at hee ⊢
      exact .inr hee
    have hne' : sMetaInfDir ++ alias ++ '.' :: e ≠ sMetaInfDir ++ alias ++ '.' :: S.ext := by
      intro h
      have := List.append_cancel_left h
      simp only [List.cons.injEq, true_and] at this
      exact hne this
    have h1 : sMetaInfDir ++ alias ++ '.' :: e ∉ namelist z1 := by
      rw [namelist, m1]
      simp only [List.mem_cons, not_or]
      exact ⟨(n2 e hee).1, (n2 e hee).2, hne', hnot e hee'⟩
    rw [namelist, m2]
    simp only [List.mem_cons, not_or]
    exact ⟨(n2 e hee).1, (n2 e hee).2, hne', fun h => h1 (p3 _ h).1⟩
  have hsfIn : sMetaInfDir ++ (alias ++ ".SF".toList) ∈
      (namelist z2).filter (matchesSigfile up) := by
    rw [← List.append_assoc, List.mem_filter, matchesSigfile_iff]
    exact ⟨by rw [namelist, m2]; simp, (skips_sf up hup halias.1).2⟩
  unfold verify
  rw [chooseSf_named hsfIn, ← List.append_assoc]
  simp only [sf2, hblock, blk2, hC.accepts _ _ _ S.block]
  exact hcontents

/-- Signed twice with the same key: accepted with the name, refused without. -/
example : (match signTwice "A".toList with
      | .error _ => none
      | .ok (_, z2) => some (
        verify upLongS nameCrypto tagHashes "A".toList z2 (some "K.SF".toList),
        verify upLongS nameCrypto tagHashes "A".toList z2 none)) =
      some (.ok (), .error eVerification) := by decide +kernel

end Javatools
