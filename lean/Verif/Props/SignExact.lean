import Verif.Props.JarSign
/-
C163: which archives can be signed.
-/
namespace Javatools

/-- An attribute that the file format can hold: the name has 1 to 68 bytes and the value is not
empty. -/
def Writable (i : Str × Str) : Prop :=
  0 < (encodeUtf8 i.1).length ∧ (encodeUtf8 i.1).length < 69 ∧ i.2 ≠ []

/-- An entry that is recorded in the manifest by signing. -/
def Recorded (up : Char → Str) (z : Zip) (f : Str) : Prop :=
  f ∈ namelist z ∧ skipsVerification up f = false

/-! ### Writing succeeds -/

theorem writeItems_written {ls : Str} {s : Section} (h : ∀ i ∈ s, Writable i) :
    ∃ b, writeItems ls s = .ok b := by
  induction s with
  | nil => exact ⟨_, rfl⟩
  | cons i s ih =>
    obtain ⟨k, v⟩ := i
    obtain ⟨b, hb⟩ := (C44_written k v ls).2 (h (k, v) (by simp))
    obtain ⟨c, hc⟩ := ih fun j hj => h j (by simp [hj])
    exact ⟨b ++ c, by simp only [writeItems, hb, hc]⟩

theorem sectionData_written {ls : Str} {s : Section} (h : ∀ i ∈ s, Writable i) :
    ∃ b, sectionData s ls = .ok b := by
  obtain ⟨b, hb⟩ := writeItems_written (ls := ls) h
  exact ⟨_, by simp only [sectionData, hb]; rfl⟩

theorem sectionData_writable {ls : Str} {s : Section} {b : Bytes} (h : sectionData s ls = .ok b) :
    ∀ i ∈ s, Writable i := fun i hi => (C44_written _ _ _).1 (sectionData_each h i hi)

theorem allData_written {ls : Str} {ss : List Section} (h : ∀ s ∈ ss, ∀ i ∈ s, Writable i) :
    ∃ r, allData ls ss = .ok r := by
  induction ss with
  | nil => exact ⟨_, rfl⟩
  | cons s ss ih =>
    obtain ⟨b, hb⟩ := sectionData_written (ls := ls) (h s (by simp))
    obtain ⟨r, hr⟩ := ih fun t ht => h t (by simp [ht])
    exact ⟨(b, s) :: r, by simp only [allData, hb, hr]⟩

theorem writeSections_written {ls : Str} {ss : List Section} (h : ∀ s ∈ ss, ∀ i ∈ s, Writable i) :
    ∃ b, writeSections ls ss = .ok b := by
  induction ss with
  | nil => exact ⟨_, rfl⟩
  | cons s ss ih =>
    obtain ⟨b, hb⟩ := sectionData_written (ls := ls) (h s (by simp))
    obtain ⟨r, hr⟩ := ih fun t ht => h t (by simp [ht])
    exact ⟨b ++ r, by simp only [writeSections, hb, hr]⟩

theorem getData_ok {m : Manifest} (hm : ∀ i ∈ m.main, Writable i)
    (hs : ∀ p ∈ m.subs, ∀ i ∈ p.2, Writable i) : ∃ b, m.getData = .ok b := by
  have hs' : ∀ s ∈ m.subs.map Prod.snd, ∀ i ∈ s, Writable i := by
    intro s h
    obtain ⟨p, hp, rfl⟩ := List.mem_map.1 h
    exact hs p hp
  obtain ⟨b, hb⟩ := sectionData_written (ls := orLinesep none m.linesep) hm
  obtain ⟨r, hr⟩ := allData_written (ls := "\n".toList) hs'
  have hall := (allData_snd hr).1
  obtain ⟨c, hc⟩ := writeSections_written (ls := orLinesep none m.linesep)
    (ss := (r.foldl (fun acc x => insertSection x acc) []).map Prod.snd) (by
      intro s h
      apply hs'
      rw [← hall]
      obtain ⟨p, hp, rfl⟩ := List.mem_map.1 h
      have := (sort_perm r []).mem_iff.1 hp
      rw [List.append_nil] at this
      exact List.mem_map.2 ⟨p, this, rfl⟩)
  exact ⟨b ++ c, by simp only [Manifest.getData, hb, sortedSections, hr, hc]⟩

theorem writable_digest {alg suf : Str} (ha : alg ∈ supported) (hs : IsDigestSuffix suf) {b : Bytes}
    (hb : b ≠ []) : Writable (alg ++ suf, b64encode b) := by
  have := digest_round (ls := "\n".toList) (.inl rfl) ha hs hb
  exact ⟨this.size.1, this.size.2, this.value⟩

theorem writable_name {n : Str} (h : n ≠ []) : Writable (kName, n) :=
  ⟨by show 0 < (encodeUtf8 kName).length; decide +kernel,
    by show (encodeUtf8 kName).length < 69; decide +kernel, h⟩

theorem digestSection_writable {alg : Str} (ha : alg ∈ supported) {h : Bytes → Bytes}
    (hh : ∀ b, h b ≠ []) {n : Str} (hn : n ≠ []) (b : Bytes) :
    ∀ i ∈ digestSection h alg n b, Writable i := by
  intro i hi
  simp only [digestSection, List.mem_cons, List.not_mem_nil, or_false] at hi
  rcases hi with rfl | rfl
  · exact writable_name hn
  · exact writable_digest ha (.inl rfl) (hh b)

theorem primary_ne {s : Section} (h : ∀ i ∈ s, Writable i) : primary s ≠ [] := by
  unfold primary
  cases hg : PyDict.get? s kName with
  | none => simp
  | some v => exact (h _ (PyDict.mem_of_get? hg)).2.2

theorem section_set_mem {d : PyDict Str Section} {k : Str} {v : Section} {p : Str × Section}
    (h : p ∈ PyDict.set d k v) : p ∈ d ∨ p.2 = v := by
  induction d with
  | nil =>
    simp only [PyDict.set, List.mem_singleton] at h
    exact .inr (by rw [h])
  | cons q d ih =>
    obtain ⟨k', v'⟩ := q
    simp only [PyDict.set] at h
    split at h
    · rcases List.mem_cons.1 h with h | h
      · exact .inr (by rw [h])
      · exact .inl (by simp [h])
    · rcases List.mem_cons.1 h with h | h
      · exact .inl (by simp [h])
      · rcases ih h with h | h
        · exact .inl (by simp [h])
        · exact .inr h

/-! ### Adding and digesting succeed -/

section
variable (up : Char → Str)

theorem addEntries_ok {h : Bytes → Bytes} {alg : Str} (ha : alg ∈ supported) {z : Zip}
    {names : List Str} (hn : ∀ f ∈ names, f ∈ namelist z) (m : Manifest) :
    ∃ m', addEntries up h (alg ++ sDigest) z m names = .ok m' := by
  induction names generalizing m with
  | nil => exact ⟨_, rfl⟩
  | cons n names ih =>
    simp only [addEntries]
    have ih' := ih fun f hf => hn f (by simp [hf])
    split
    · exact ih' m
    · obtain ⟨b, hb, _⟩ := zipRead_mem (hn n (by simp))
      rw [hb]
      simp only [setItem_new (key_facts ha (.inl rfl))]
      exact ih' _

theorem digestSections_ok {h : Bytes → Bytes} {alg ls : Str} (ha : alg ∈ supported)
    (hh : ∀ b, h b ≠ []) {ss : List Section} (hs : ∀ s ∈ ss, ∀ i ∈ s, Writable i)
    (sf : Manifest) (acc : Bytes) (hsf : ∀ p ∈ sf.subs, ∀ i ∈ p.2, Writable i) :
    ∃ sf' acc', digestSections h (alg ++ sDigest) ls sf acc ss = .ok (sf', acc') ∧
      sf'.main = sf.main ∧ ∀ p ∈ sf'.subs, ∀ i ∈ p.2, Writable i := by
  induction ss generalizing sf acc with
  | nil => exact ⟨sf, acc, rfl, rfl, hsf⟩
  | cons s ss ih =>
    obtain ⟨b, hb⟩ := sectionData_written (ls := ls) (hs s (by simp))
    simp only [digestSections, hb, setItem_new (key_facts ha (.inl rfl))]
    refine ih (fun t ht => hs t (by simp [ht])) _ _ ?_
    intro p hp
    rcases section_set_mem hp with hp | hp
    · exact hsf p hp
    · rw [hp]
      exact digestSection_writable ha hh (primary_ne (hs s (by simp))) b

theorem item_set_mem {s : Section} {k v : Str} {p : Str × Str}
    (h : p ∈ PyDict.set s k v) : p ∈ s ∨ p = (k, v) := by
  induction s with
  | nil =>
    simp only [PyDict.set, List.mem_singleton] at h
    exact .inr h
  | cons q d ih =>
    obtain ⟨k', v'⟩ := q
    simp only [PyDict.set] at h
    split at h
    · rename_i e
      rcases List.mem_cons.1 h with h | h
      · exact .inr (by rw [h]; first | rw [e] | rfl)
      · exact .inl (by simp [h])
    · rcases List.mem_cons.1 h with h | h
      · exact .inl (by simp [h])
      · rcases ih h with h | h
        · exact .inl (by simp [h])
        · exact .inr h

theorem digestManifest_ok {H : Hashes} {h : Bytes → Bytes} {alg : Str} (hg : H.get alg = .ok h)
    (hh : ∀ b, h b ≠ []) {m : Manifest} (hm : ∀ i ∈ m.main, Writable i)
    (hs : ∀ p ∈ m.subs, ∀ i ∈ p.2, Writable i) (ls : Option Str) :
    ∃ sf, digestManifest H (emptySignature ls) m alg = .ok sf ∧
      (∀ i ∈ sf.main, Writable i) ∧ ∀ p ∈ sf.subs, ∀ i ∈ p.2, Writable i := by
  have ha := get_supported hg
  have hk1 := key_facts ha (.inr (.inr rfl) : IsDigestSuffix sDigestMain)
  have hk2 := key_facts ha (.inr (.inl rfl) : IsDigestSuffix sDigestManifest)
  have hs' : ∀ s ∈ m.subs.map Prod.snd, ∀ i ∈ s, Writable i := by
    intro s h
    obtain ⟨p, hp, rfl⟩ := List.mem_map.1 h
    exact hs p hp
  obtain ⟨b, hb⟩ := sectionData_written (ls := orLinesep none m.linesep) hm
  have e1 : setItem (emptySignature ls).main (alg ++ sDigestMain) (b64encode (h b)) =
      .ok (PyDict.set (emptySignature ls).main (alg ++ sDigestMain) (b64encode (h b))) := by
    unfold setItem
    rw [if_neg (by have := hk1.short; omega)]
  obtain ⟨sf, acc, h1, h2, h3⟩ := digestSections_ok (ls := orLinesep none m.linesep) ha hh hs'
    { emptySignature ls with
      main := PyDict.set (emptySignature ls).main (alg ++ sDigestMain) (b64encode (h b)) } b
    (by simp [emptySignature, Manifest.new])
  have e2 : setItem sf.main (alg ++ sDigestManifest) (b64encode (h acc)) =
      .ok (PyDict.set sf.main (alg ++ sDigestManifest) (b64encode (h acc))) := by
    unfold setItem
    rw [if_neg (by have := hk2.short; omega)]
  refine ⟨{ sf with main := PyDict.set sf.main (alg ++ sDigestManifest) (b64encode (h acc)) },
    ?_, ?_, h3⟩
  · simp only [digestManifest, hg, Manifest.getMain, hb, e1, h1, e2]
  · intro i hi
    rcases item_set_mem hi with hi | rfl
    · rw [h2] at hi
      rcases item_set_mem hi with hi | rfl
      · simp only [emptySignature, Manifest.new, List.mem_singleton] at hi
        rw [hi]
        exact ⟨by show 0 < (encodeUtf8 kSignatureVersion).length; decide +kernel,
          by show (encodeUtf8 kSignatureVersion).length < 69; decide +kernel, by decide⟩
      · exact writable_digest ha (.inr (.inr rfl)) (hh b)
    · exact writable_digest ha (.inr (.inl rfl)) (hh acc)

theorem copyEntries_ok {z : Zip} {names : List Str} (hn : ∀ f ∈ names, f ∈ namelist z) :
    ∃ rest, copyEntries up z names = .ok rest := by
  induction names with
  | nil => exact ⟨_, rfl⟩
  | cons n names ih =>
    simp only [copyEntries]
    obtain ⟨r, hr⟩ := ih fun f hf => hn f (by simp [hf])
    obtain ⟨b, hb, _⟩ := zipRead_mem (hn n (by simp))
    split
    · exact ⟨r, hr⟩
    · exact ⟨(n, b) :: r, by rw [hb, hr]⟩

/-! ### C163 -/

/-- The key and the certificate can be used to sign. -/
structure Usable (C : Crypto) (cert key : Str) (extra : Option (List Str)) (alg : Str) : Prop where
  kind : ∃ e, C.keyType key = .ok e
  signs : ∀ data, ∃ sig, C.signBlock alg cert key extra data = .ok sig

/-- C163 as stated: an archive with a manifest that can be read can be signed. -/
def C163_full : Prop :=
  ∀ (up : Char → Str) (C : Crypto) (H : Hashes) (z : Zip) (cert key alias : Str)
    (extra : Option (List Str)) (alg : Str) (h : Bytes → Bytes) (m0 : Manifest), IsUpper up →
    NonemptyDigests H → H.get alg = .ok h → Usable C cert key extra alg → loadFromJar z = .ok m0 →
    ∃ z', sign up C H z cert key alias extra alg = .ok z'

/-- C163, exactly: signing works if and only if every attribute that stays in the manifest can be
written (the sections of entries that are recorded are replaced) and the recorded entries have
names. -/
theorem C163_exact (C : Crypto) (H : Hashes) (z : Zip) (cert key alias : Str)
    (extra : Option (List Str)) (alg : Str) (h : Bytes → Bytes) (m0 : Manifest)
    (hH : NonemptyDigests H) (hg : H.get alg = .ok h) (hC : Usable C cert key extra alg)
    (h0 : loadFromJar z = .ok m0) :
    (∃ z', sign up C H z cert key alias extra alg = .ok z') ↔
      (∀ i ∈ m0.main, Writable i) ∧
      (∀ p ∈ m0.subs, ¬ Recorded up z p.1 → ∀ i ∈ p.2, Writable i) ∧
      (∀ f, Recorded up z f → f ≠ []) := by
  have ha := get_supported hg
  have hc := loaded_clean h0
  obtain ⟨m, hm⟩ := addEntries_ok up ha (h := h) (z := z) (names := namelist z) (fun _ hf => hf) m0
  obtain ⟨e1, _, h3, h4, h5⟩ := addEntries_spec up ha hm
  have hadd : addJarEntries up H m0 z alg = .ok m := by
    simp only [addJarEntries, hg, hm]
  constructor
  · rintro ⟨z', hs⟩
    obtain ⟨S⟩ := sign_signed up hs
    have hm' : S.m.getData = .ok S.mfData := S.mfD
    have e0 : S.m0 = m0 := by
      have := S.load
      rw [h0] at this
      exact (Except.ok.inj this).symm
    have eh : S.h = h := by
      have := S.get
      rw [hg] at this
      exact (Except.ok.inj this).symm
    have em : S.m = m := by
      have := S.add
      rw [e0, eh, hm] at this
      exact (Except.ok.inj this).symm
    rw [em] at hm'
    unfold Manifest.getData at hm'
    simp only at hm'
    split at hm'
    · simp at hm'
    · rename_i b hb
      have hmain := sectionData_writable hb
      split at hm'
      · simp at hm'
      · rename_i ss hss
        have hsub : ∀ p ∈ m.subs, ∀ i ∈ p.2, Writable i := by
          unfold sortedSections at hss
          split at hss
          · simp at hss
          · rename_i ds hds
            obtain ⟨a1, a2⟩ := allData_snd hds
            intro p hp
            have : p.2 ∈ ds.map Prod.snd := by
              rw [a1]
              exact List.mem_map.2 ⟨p, hp, rfl⟩
            obtain ⟨q, hq, e⟩ := List.mem_map.1 this
            rw [← e]
            exact sectionData_writable (a2 q hq)
        refine ⟨by rw [← e1]; exact hmain, ?_, ?_⟩
        · intro p hp hr
          have hgp := PyDict.get?_of_mem_nodup hc.subs.nodup (k := p.1) (v := p.2) hp
          rw [← h5 p.1 hr] at hgp
          exact hsub _ (PyDict.mem_of_get? hgp)
        · intro f hf
          obtain ⟨b', _, hgf⟩ := h4 f hf.1 hf.2
          exact (hsub _ (PyDict.mem_of_get? hgf) (kName, f) (by simp [digestSection])).2.2
  · rintro ⟨w1, w2, w3⟩
    have hmain : ∀ i ∈ m.main, Writable i := by rw [e1]; exact w1
    have hsub : ∀ p ∈ m.subs, ∀ i ∈ p.2, Writable i := by
      intro p hp
      rcases added_cases up ha hc.subs.nodup hm hp with ⟨a1, a2, b, _, a5⟩ | ⟨a1, a2⟩
      · rw [a5]
        exact digestSection_writable ha (hH alg h hg) (w3 _ ⟨a1, a2⟩) b
      · exact w2 p a2 a1
    obtain ⟨sf, hsf, s1, s2⟩ := digestManifest_ok hg (hH alg h hg) hmain hsub m.linesep
    obtain ⟨e, he⟩ := hC.kind
    obtain ⟨sfData, hd⟩ := getData_ok s1 s2
    obtain ⟨sig, hsig⟩ := hC.signs sfData
    obtain ⟨mfData, hmd⟩ := getData_ok hmain hsub
    obtain ⟨rest, hr⟩ := copyEntries_ok up (z := z) (names := namelist z) fun _ hf => hf
    exact ⟨_, by simp only [sign, h0, hadd, hsf, he, hg, hd, hsig, hmd, hr]; rfl⟩

/-- C163, for manifests without empty values and with names of at most 68 bytes (and entries with
names). Missing: exactly the other ones (`C163_exact`). -/
theorem C163_partial (C : Crypto) (H : Hashes) (z : Zip) (cert key alias : Str)
    (extra : Option (List Str)) (alg : Str) (h : Bytes → Bytes) (m0 : Manifest)
    (hH : NonemptyDigests H) (hg : H.get alg = .ok h) (hC : Usable C cert key extra alg)
    (h0 : loadFromJar z = .ok m0)
    (hm : ∀ i ∈ m0.main, (encodeUtf8 i.1).length ≤ 68 ∧ i.1 ≠ [] ∧ i.2 ≠ [])
    (hs : ∀ p ∈ m0.subs, ∀ i ∈ p.2, (encodeUtf8 i.1).length ≤ 68 ∧ i.1 ≠ [] ∧ i.2 ≠ [])
    (hn : [] ∉ namelist z) : ∃ z', sign up C H z cert key alias extra alg = .ok z' := by
  have hw : ∀ i : Str × Str, ((encodeUtf8 i.1).length ≤ 68 ∧ i.1 ≠ [] ∧ i.2 ≠ []) → Writable i := by
    intro i ⟨h1, h2, h3⟩
    refine ⟨?_, by omega, h3⟩
    rcases Nat.eq_zero_or_pos (encodeUtf8 i.1).length with e | e
    · exact absurd (encodeUtf8_injective (by rw [List.length_eq_zero_iff.1 e]; rfl)) h2
    · exact e
  refine (C163_exact up C H z cert key alias extra alg h m0 hH hg hC h0).2 ⟨?_, ?_, ?_⟩
  · exact fun i hi => hw i (hm i hi)
  · exact fun p hp _ i hi => hw i (hs p hp i hi)
  · rintro f ⟨hf, _⟩ rfl
    exact hn hf

/-- C163: an archive that has an attribute with an empty value cannot be signed. -/
theorem C163_empty (C : Crypto) (H : Hashes) (z : Zip) (cert key alias : Str)
    (extra : Option (List Str)) (alg : Str) (m0 : Manifest) (h0 : loadFromJar z = .ok m0) {k : Str} (he : (k, []) ∈ m0.main) :
    ¬ ∃ z', sign up C H z cert key alias extra alg = .ok z' := by
  rintro ⟨z', hs⟩
  obtain ⟨S⟩ := sign_signed up hs
  have e0 : S.m0 = m0 := by
    have := S.load
    rw [h0] at this
    exact (Except.ok.inj this).symm
  obtain ⟨e1, _⟩ := addEntries_spec up (get_supported S.get) S.add
  have hm' : S.m.getData = .ok S.mfData := S.mfD
  unfold Manifest.getData at hm'
  simp only at hm'
  split at hm'
  · simp at hm'
  · rename_i b hb
    rw [e1, e0] at hb
    exact (sectionData_writable hb _ he).2.2 rfl
end

/-- The example signature scheme can be used. -/
theorem echo_usable (extra : Option (List Str)) (alg : Str) : Usable echoCrypto [] [] extra alg :=
  ⟨⟨_, rfl⟩, fun data => ⟨_, rfl⟩⟩

/-- A manifest as build tools write it: one attribute has no value. -/
def exEmptyValue : Zip :=
  [(sManifestMf, encodeUtf8 "Manifest-Version: 1.0\nClass-Path: \n\n".toList), ("a".toList, [1])]

/-- C163 is false: an empty value cannot be written again. -/
theorem C163_full_fails : ¬ C163_full := by
  intro h
  have hs := h upLongS echoCrypto tagHashes exEmptyValue [] [] "K".toList none "SHA1".toList _
    { main := [(kManifestVersion, "1.0".toList), ("Class-Path".toList, [])], subs := [],
      linesep := some "\n".toList } upLongS_isUpper tag_nonempty rfl (echo_usable none _)
    (by decide +kernel)
  refine C163_empty upLongS echoCrypto tagHashes exEmptyValue [] [] "K".toList none "SHA1".toList
    { main := [(kManifestVersion, "1.0".toList), ("Class-Path".toList, [])], subs := [],
      linesep := some "\n".toList } (by decide +kernel) (k := "Class-Path".toList) ?_ hs
  exact List.mem_cons_of_mem _ (List.mem_cons_self ..)

/-- A section that cannot be written does not matter if its entry is recorded anew; it does if there
is no such entry. -/
def exEmptySection (entry : Str) : Zip :=
  [(sManifestMf, encodeUtf8 "Manifest-Version: 1.0\n\nName: a\nX: \n\n".toList), (entry, [1])]

theorem exEmptySection_load (entry : Str) (h : sManifestMf ≠ entry) :
    loadFromJar (exEmptySection entry) = .ok
      { main := [(kManifestVersion, "1.0".toList)],
        subs := [("a".toList, [(kName, "a".toList), ("X".toList, [])])],
        linesep := some "\n".toList } := by
  have hr : zipRead (exEmptySection entry) sManifestMf =
      .ok (encodeUtf8 "Manifest-Version: 1.0\n\nName: a\nX: \n\n".toList) := by
    simp [exEmptySection, zipRead, PyDict.get?, h.symm]
  unfold loadFromJar
  rw [if_neg (by simp [exEmptySection, namelist]), hr]
  decide +kernel

example : (∃ z', sign upLongS echoCrypto tagHashes (exEmptySection "a".toList) [] [] "K".toList none
      "SHA1".toList = .ok z') ∧
    ¬ ∃ z', sign upLongS echoCrypto tagHashes (exEmptySection "b".toList) [] [] "K".toList none
      "SHA1".toList = .ok z' := by
  have hv : Writable (kManifestVersion, "1.0".toList) :=
    ⟨by show 0 < (encodeUtf8 kManifestVersion).length; decide +kernel,
      by show (encodeUtf8 kManifestVersion).length < 69; decide +kernel, by decide⟩
  constructor
  · refine (C163_exact upLongS echoCrypto tagHashes _ [] [] "K".toList none "SHA1".toList _ _
      tag_nonempty rfl (echo_usable none _) (exEmptySection_load _ (by decide))).2 ⟨?_, ?_, ?_⟩
    · simpa using hv
    · intro p hp hr
      simp only [List.mem_singleton] at hp
      subst hp
      exact absurd ⟨by simp [exEmptySection, namelist], by decide +kernel⟩ hr
    · intro f hf e
      have hno : ([] : Str) ∉ namelist (exEmptySection "a".toList) := by decide +kernel
      exact hno (e ▸ hf.1)
  · intro hs
    have := ((C163_exact upLongS echoCrypto tagHashes _ [] [] "K".toList none "SHA1".toList _ _
      tag_nonempty rfl (echo_usable none _) (exEmptySection_load _ (by decide))).1 hs).2.1 _
      (List.mem_singleton.2 rfl) (by
        intro hr
        have hno : "a".toList ∉ namelist (exEmptySection "b".toList) := by decide +kernel
        exact hno hr.1) ("X".toList, []) (by simp)
    exact this.2.2 rfl

end Javatools
