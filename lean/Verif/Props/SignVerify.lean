import Verif.Props.SignExact
/-
C50, exactly: when the archive made by signing is accepted.
-/
namespace Javatools

/-- A digest attribute of the chosen algorithm is found in the section before any of an algorithm that
is not supported. -/
def DigestFirst (H : Hashes) (alg : Str) (s : Section) : Prop :=
  ∃ pre post, keysWithSuffix s sDigest = pre ++ alg :: post ∧ ∀ d ∈ pre, ∃ k, H.get d = .ok k

theorem matchDigest_vouched {H : Hashes} {h : Bytes → Bytes} {alg n : Str} (hg : H.get alg = .ok h)
    (b : Bytes) (ds : List Str) :
    matchDigest H (.ok b) (digestSection h alg n b) sDigest ds = .ok true ↔
      ∃ pre post, ds = pre ++ alg :: post ∧ ∀ d ∈ pre, ∃ k, H.get d = .ok k := by
  have ha := get_supported hg
  induction ds with
  | nil => simp [matchDigest]
  | cons d ds ih =>
    simp only [matchDigest]
    by_cases hd : d = alg
    · subst hd
      simp only [hg, digestSection_get ha, if_true, true_iff]
      exact ⟨[], ds, rfl, by simp⟩
    · cases hk : H.get d with
      | error e =>
        simp only [reduceCtorEq, false_iff, not_exists, not_and]
        intro pre post he
        cases pre with
        | nil => simp only [List.nil_append, List.cons.injEq] at he; exact absurd he.1 hd
        | cons x pre =>
          simp only [List.cons_append, List.cons.injEq] at he
          intro hx
          obtain ⟨k, hk'⟩ := hx x (by simp)
          rw [← he.1, hk] at hk'
          simp at hk'
      | ok k =>
        simp only
        rw [if_neg]
        · refine ih.trans ?_
          constructor
          · rintro ⟨pre, post, rfl, hp⟩
            refine ⟨d :: pre, post, rfl, ?_⟩
            intro x hx
            rcases List.mem_cons.1 hx with rfl | hx
            · exact ⟨k, hk⟩
            · exact hp x hx
          · rintro ⟨pre, post, he, hp⟩
            cases pre with
            | nil => simp only [List.nil_append, List.cons.injEq] at he; exact absurd he.1 hd
            | cons x pre =>
              simp only [List.cons_append, List.cons.injEq] at he
              exact ⟨pre, post, he.2, fun y hy => hp y (by simp [hy])⟩
        · intro he
          exact hd (digestSection_get' he.symm).1

theorem verifySections_exact {H : Hashes} {h : Bytes → Bytes} {alg ls : Str} (hg : H.get alg = .ok h)
    {sf : Manifest} {ss : List Section}
    (hs : ∀ s ∈ ss, ∃ b n, sectionData s ls = .ok b ∧
      PyDict.get? sf.subs (primary s) = some (digestSection h alg n b)) :
    (∃ sf', verifySections H true (some ls) sf ss = .ok ([], sf')) ↔
      ∀ s ∈ ss, DigestFirst H alg s := by
  induction ss with
  | nil => simp [verifySections]
  | cons s ss ih =>
    have ih := ih fun t ht => hs t (by simp [ht])
    obtain ⟨b, n, h2, h3⟩ := hs s (by simp)
    have hm := matchDigest_vouched hg (n := n) b (keysWithSuffix s sDigest)
    simp only [verifySections, create_existing h3, sectionDataOpt, h2, List.mem_cons,
      forall_eq_or_imp]
    by_cases hv : DigestFirst H alg s
    · have hne : ((keysWithSuffix s sDigest).isEmpty && true) = false := by
        obtain ⟨pre, post, he, _⟩ := hv
        rw [he]
        cases pre <;> rfl
      rw [hm.2 hv]
      simp only [hne, Bool.false_eq_true, if_false, ih, hv, true_and]
    · simp only [hv, false_and, iff_false, not_exists]
      intro sf' he
      split at he
      · split at he <;> simp at he
      · split at he
        · simp at he
        · rename_i hx
          exact hv (hm.1 hx)
        · split at he <;> simp at he

section
variable {up : Char → Str}
variable {C : Crypto} {H : Hashes} {z : Zip} {cert key alias : Str} {extra : Option (List Str)}
  {alg : Str} {z' : Zip}

/-- The contents of a signed archive are accepted if and only if the digest of the manifest as it is
stored is that of the sections in their original order, or each section that is kept is vouched
for. -/
theorem signed_contents_exact (S : Signed up C H z cert key alias extra alg z')
    {ls : Str} (hsep : S.m0.linesep = some ls) (hh : ∀ b, S.h b ≠ [])
    (hn : ∀ f ∈ namelist z, skipsVerification up f = false → SafeName ls f)
    (hsubs : ∀ p ∈ S.m0.subs, ∀ i ∈ p.2, Foldable ls i.1 i.2)
    {y : Zip} {m' : Manifest} (hm' : loadFromJar y = .ok m') (hmm : m'.main = S.m.main)
    (hperm : m'.subs.Perm S.m.subs)
    (hml : m'.linesep = some ls) (hmd : m'.getData = .ok S.mfData)
    (hy : ∀ f ∈ namelist y, skipsVerification up f = false →
      f ∈ namelist z ∧ zipRead y f = zipRead z f)
    {main w : Bytes} (hmain : sectionData S.m.main ls = .ok main)
    (hw : writeSections ls (S.m.subs.map Prod.snd) = .ok w) :
    verifyContents up H y S.sfData = .ok () ↔
      S.h S.mfData = S.h (main ++ w) ∨
        ∀ p ∈ S.m0.subs, ¬ Recorded up z p.1 → DigestFirst H alg p.2 := by
  have hc := signed_clean S fun f hf hs => (hn f hf hs).1
  have hmn : (PyDict.keys m'.subs).Nodup := (hperm.map Prod.fst).nodup_iff.2 hc.nodup
  have hget : ∀ n, PyDict.get? m'.subs n = PyDict.get? S.m.subs n := fun n =>
    (get?_perm hc.nodup hperm.symm n).symm
  have h0 := loaded_clean S.load
  have ha := get_supported S.get
  obtain ⟨hm, hls, hor⟩ := signed_sep S hsep
  obtain ⟨main', w', h1, h2, h3, h4, h5, h6, h7⟩ := sf_facts S hsep hc
  obtain rfl : main = main' := Except.ok.inj (hmain.symm.trans h1)
  obtain rfl : w = w' := Except.ok.inj (hw.symm.trans h2)
  have hd : ∀ p ∈ S.m0.subs, Foldable ls kName p.1 := by
    intro p hp
    obtain ⟨v, rest, hv⟩ := (h0.subs.clean p hp).1.named
    have hp1 : p.1 = v := by
      rw [(h0.subs.clean p hp).2, hv]
      simp [primary, PyDict.get?]
    exact hsubs p hp (kName, p.1) (by rw [hv, hp1]; simp)
  obtain ⟨sf', g1, g2, g3⟩ := sf_parsed S hsep hh hn hd
  have hjar : verifyJarChecksums up H m' y = .ok ([], m') := by
    refine verifyEntries_ok up S.get ?_
    intro f hf hs
    obtain ⟨f1, f2⟩ := hy f hf hs
    obtain ⟨_, _, _, q4, _⟩ := addEntries_spec up ha S.add
    obtain ⟨b, hb, hg⟩ := q4 f f1 hs
    exact ⟨b, by rw [f2]; exact hb, by rw [hget]; exact hg⟩
  have hor' : orLinesep none m'.linesep = ls := by
    rw [hml]
    rcases hls with rfl | rfl <;> rfl
  have hwhole : verifyWhole H sf' m' = .ok (decide (S.h S.mfData = S.h (main ++ w))) := by
    unfold verifyWhole
    rw [hmd, g2, h3, sfMain_manifest ha]
    simp only [matchDigest, S.get]
    have hk := key_facts ha (.inr (.inl rfl) : IsDigestSuffix sDigestManifest)
    have hne : alg ++ sDigestMain ≠ alg ++ sDigestManifest := by
      intro h
      exact absurd (List.append_cancel_left h) (by decide)
    have hgw : PyDict.get? (sfMain S.h alg main (main ++ w)) (alg ++ sDigestManifest) =
        some (b64encode (S.h (main ++ w))) := by
      simp [sfMain, PyDict.get?, hk.version.symm, hne]
    rw [hgw]
    by_cases he : S.h S.mfData = S.h (main ++ w)
    · simp [he]
    · rw [if_neg]
      · simp [he]
      · intro h
        exact he (b64encode_injective (Option.some.inj h))
  have hmm' : verifyMain H sf' m' = .ok true := by
    unfold verifyMain Manifest.getMain
    rw [hor', hmm, h1, g2, h3, (sfMain_main ha S.h main (main ++ w)).1]
    exact matchDigest_hit (fun d hd => ⟨S.h, by rw [List.mem_singleton.1 hd]; exact S.get⟩)
      (List.mem_singleton.2 rfl) S.get (sfMain_main ha S.h main (main ++ w)).2
  have hsec : (∃ sf'', verifySections H true (some ls) sf' (m'.subs.map Prod.snd) = .ok ([], sf'')) ↔
      ∀ s ∈ m'.subs.map Prod.snd, DigestFirst H alg s := by
    refine verifySections_exact S.get ?_
    intro s hs
    obtain ⟨p, hp', rfl⟩ := List.mem_map.1 hs
    have hp : p ∈ S.m.subs := hperm.mem_iff.1 hp'
    obtain ⟨b, hb, hmem⟩ := h6 p hp
    refine ⟨b, p.1, hb, ?_⟩
    rw [g3, ← (hc.clean p hp).2]
    exact PyDict.get?_of_mem_nodup h5 hmem
  have hkept : (∀ s ∈ m'.subs.map Prod.snd, DigestFirst H alg s) ↔
      ∀ p ∈ S.m0.subs, ¬ Recorded up z p.1 → DigestFirst H alg p.2 := by
    constructor
    · intro h p hp hr
      obtain ⟨_, _, _, _, q5⟩ := addEntries_spec up ha S.add
      have hgp := PyDict.get?_of_mem_nodup h0.subs.nodup (k := p.1) (v := p.2) hp
      rw [← q5 p.1 hr] at hgp
      exact h p.2 (List.mem_map.2 ⟨_, hperm.mem_iff.2 (PyDict.mem_of_get? hgp), rfl⟩)
    · intro h s hs
      obtain ⟨p, hp', rfl⟩ := List.mem_map.1 hs
      rcases added_cases up ha h0.subs.nodup S.add (hperm.mem_iff.1 hp') with ⟨_, _, b, _, q⟩ | ⟨q1, q2⟩
      · refine ⟨[], [], ?_, by simp⟩
        rw [q, digestSection_keys ha]
        rfl
      · exact h p q2 q1
  rw [← hkept, ← hsec]
  unfold verifyContents verifyManifest
  simp only [g1, hm', hwhole, hmm', hml]
  by_cases he : S.h S.mfData = S.h (main ++ w)
  · simp [he, hjar]
  · simp only [he, decide_false, false_or]
    cases hv : verifySections H true (some ls) sf' (m'.subs.map Prod.snd) with
    | error e => simp
    | ok r =>
      obtain ⟨fails, sf''⟩ := r
      cases fails with
      | nil => simp [hjar]
      | cons f fs => simp

/-- C50, exactly, for aliases without slash and NUL whose files are not yet in the archive,
manifests without characters broken at line ends and entry names without line breaks: the signed
archive is accepted if and only if the manifest as stored (`mf`, sections in the order of their
bytes) has the digest of the sections in their original order (`main ++ w`), or every section that
is kept from the original manifest has a digest attribute of the chosen algorithm that is found
before one of an unsupported algorithm. -/
theorem C50_exact (C : Crypto) (H : Hashes) (z : Zip) (cert key alias : Str)
    (extra : Option (List Str)) (alg : Str) (z' : Zip) (hup : IsUpper up)
    (hC : Matching C cert key extra) (hH : NonemptyDigests H)
    (hs : sign up C H z cert key alias extra alg = .ok z')
    (halias : '/' ∉ alias ∧ '\x00' ∉ alias)
    (hfree : ∀ e ∈ ["SF".toList, "RSA".toList, "DSA".toList, "EC".toList],
      sMetaInfDir ++ alias ++ '.' :: e ∉ namelist z)
    (m0 m : Manifest) (ls : Str) (h : Bytes → Bytes) (hm0 : loadFromJar z = .ok m0)
    (hsep : m0.linesep = some ls)
    (hmain : ∀ i ∈ m0.main, Foldable ls i.1 i.2)
    (hsubs : ∀ p ∈ m0.subs, ∀ i ∈ p.2, Foldable ls i.1 i.2)
    (hn : ∀ f ∈ namelist z, skipsVerification up f = false → SafeName ls f)
    (hg : H.get alg = .ok h) (hm : addJarEntries up H m0 z alg = .ok m) :
    ∃ main w mf, sectionData m.main ls = .ok main ∧
      writeSections ls (m.subs.map Prod.snd) = .ok w ∧ m.getData = .ok mf ∧
      (verify up C H cert z' (some (alias ++ ".SF".toList)) = .ok () ↔
        h mf = h (main ++ w) ∨ ∀ p ∈ m0.subs, ¬ Recorded up z p.1 → DigestFirst H alg p.2) := by
  obtain ⟨S⟩ := sign_signed up hs
  obtain rfl : S.m0 = m0 := Except.ok.inj (S.load.symm.trans hm0)
  obtain rfl : S.h = h := Except.ok.inj (S.get.symm.trans hg)
  obtain rfl : S.m = m := by
    simp only [addJarEntries, hg] at hm
    exact Except.ok.inj (S.add.symm.trans hm)
  obtain ⟨r1, r2, r3, _⟩ := signed_reads up C H z cert key alias extra alg z' hup hC S halias hfree
  have hc := signed_clean S fun f hf hs => (hn f hf hs).1
  obtain ⟨m', g1, g2, g3, g4, g5⟩ := mf_parsed S hsep (hH _ _ S.get) hn hmain hsubs
  obtain ⟨main, w, h1, h2, _⟩ := sf_facts S hsep hc
  refine ⟨main, w, S.mfData, h1, h2, S.mfD, ?_⟩
  rw [r3]
  exact signed_contents_exact S hsep (hH _ _ S.get) hn hsubs (r1.trans g1) g2 g3 g4 g5 r2 h1 h2

/-- C50: sections that cannot be vouched for do no harm if the sections already are in the order of
their bytes. -/
theorem C50_sorted_partial (C : Crypto) (H : Hashes) (z : Zip) (cert key alias : Str)
    (extra : Option (List Str)) (alg : Str) (z' : Zip) (hup : IsUpper up)
    (hC : Matching C cert key extra) (hH : NonemptyDigests H)
    (hs : sign up C H z cert key alias extra alg = .ok z')
    (halias : '/' ∉ alias ∧ '\x00' ∉ alias)
    (hfree : ∀ e ∈ ["SF".toList, "RSA".toList, "DSA".toList, "EC".toList],
      sMetaInfDir ++ alias ++ '.' :: e ∉ namelist z)
    (m0 m : Manifest) (ls : Str) (hm0 : loadFromJar z = .ok m0)
    (hsep : m0.linesep = some ls)
    (hmain : ∀ i ∈ m0.main, Foldable ls i.1 i.2)
    (hsubs : ∀ p ∈ m0.subs, ∀ i ∈ p.2, Foldable ls i.1 i.2)
    (hn : ∀ f ∈ namelist z, skipsVerification up f = false → SafeName ls f)
    (hm : addJarEntries up H m0 z alg = .ok m)
    (hsorted : sortedSections m.subs = .ok (m.subs.map Prod.snd)) :
    verify up C H cert z' (some (alias ++ ".SF".toList)) = .ok () := by
  obtain ⟨S⟩ := sign_signed up hs
  obtain ⟨main, w, mf, h1, h2, h3, h4⟩ := C50_exact C H z cert key alias extra alg z' hup hC hH hs
    halias hfree m0 m ls S.h hm0 hsep hmain hsubs hn S.get hm
  refine h4.2 (.inl ?_)
  have hl : m.linesep = some ls := by
    have := (addEntries_spec up (get_supported S.get) (by
      simp only [addJarEntries, S.get] at hm
      exact hm)).2.1
    rw [this, hsep]
  have hls : IsSep ls := by
    obtain ⟨l, hl1, hl2⟩ := (loaded_clean hm0).sep
    rw [hsep] at hl1
    rw [Option.some.inj hl1]
    exact hl2
  have hor : orLinesep none m.linesep = ls := by
    rw [hl]
    rcases hls with rfl | rfl <;> rfl
  have : m.getData = .ok (main ++ w) := by
    simp only [Manifest.getData, hor, h1, hsorted, h2]
  rw [h3] at this
  rw [Except.ok.inj this]
end

/-- A manifest with a section for a directory, without a digest. The sections are in order. -/
def exSorted : Zip :=
  [(sManifestMf, encodeUtf8 "Manifest-Version: 1.0\n\nName: a/\nSealed: true\n\n".toList),
    ("x".toList, [1])]

def exSortedManifest (more : PyDict Str Section) : Manifest where
  main := [(kManifestVersion, "1.0".toList)]
  subs := ("a/".toList, [(kName, "a/".toList), ("Sealed".toList, "true".toList)]) :: more
  linesep := some "\n".toList

/-- `C50_partial` does not apply to it, `C50_sorted_partial` does. -/
example : ∃ z', sign upLongS echoCrypto tagHashes exSorted [] [] "K".toList none "SHA1".toList = .ok z' ∧
    verify upLongS echoCrypto tagHashes [] z' (some ("K".toList ++ ".SF".toList)) = .ok () ∧
    ¬ KeptDigests (up := upLongS) tagHashes "SHA1".toList exSorted (exSortedManifest []) := by
  cases hs : sign upLongS echoCrypto tagHashes exSorted [] [] "K".toList none "SHA1".toList with
  | error e =>
    exfalso
    have : (match sign upLongS echoCrypto tagHashes exSorted [] [] "K".toList none "SHA1".toList with
      | .error _ => false
      | .ok _ => true) = true := by decide +kernel
    rw [hs] at this
    simp at this
  | ok z' =>
    have hp : ∀ k v : Str, writeKeyVal k v "\n".toList = .ok (encodeUtf8 (k ++ ':' :: ' ' :: v ++ ['\n'])) →
        Foldable "\n".toList k v := by
      intro k v h b hb
      rw [h] at hb
      exact ⟨_, (Except.ok.inj hb).symm⟩
    refine ⟨z', rfl, ?_, ?_⟩
    · refine C50_sorted_partial echoCrypto tagHashes exSorted [] [] "K".toList none "SHA1".toList z'
        upLongS_isUpper (echo_matching none) tag_nonempty hs (by decide) (by decide +kernel)
        (exSortedManifest []) (exSortedManifest [("x".toList,
          [(kName, "x".toList), ("SHA1-Digest".toList, "QQE=".toList)])])
        "\n".toList (by decide +kernel) rfl ?_ ?_ ?_ (by decide +kernel) (by decide +kernel)
      · intro i hi
        rw [List.mem_singleton.1 hi]
        exact hp _ _ (by decide +kernel)
      · intro p hp' i hi
        rw [List.mem_singleton.1 hp'] at hi
        simp only [List.mem_cons, List.not_mem_nil, or_false] at hi
        rcases hi with rfl | rfl
        · exact hp _ _ (by decide +kernel)
        · exact hp _ _ (by decide +kernel)
      · intro f hf hk
        have hf' : f ∈ [sManifestMf, "x".toList] := hf
        simp only [List.mem_cons, List.not_mem_nil, or_false] at hf'
        rcases hf' with rfl | rfl
        · exact absurd hk (by decide +kernel)
        · exact ⟨by unfold CleanChar; decide, hp _ _ (by decide +kernel)⟩
    · intro h
      have h1 := (h _ (List.mem_cons_self ..) (by
        intro hx
        have hno : "a/".toList ∉ namelist exSorted := by decide +kernel
        exact hno hx.1)).1
      revert h1
      decide +kernel

end Javatools
