import Verif.Props.ManifestCli2
/-
C97: exit status of `jarutil v`.
-/
namespace Javatools

variable (up : Char → Str)

/-- The arguments name an archive, a certificate and possibly a signature file. -/
def VerifyArgs (args : List Str) (jar cert : Str) (name : Option Str) : Prop :=
  args = [jar, cert] ∧ name = none ∨ ∃ n, args = [jar, cert, n] ∧ name = some n

/-- The exceptions that mean that the archive is not properly signed. -/
def Refusal (e : PyErr) : Prop :=
  e = eVerification ∨ e = eSignatureMissing ∨ e = eSignatureBlockFile ∨ e = eManifestChecksum ∨
    e = eJarChecksum

theorem isVerificationError_iff (e : PyErr) : isVerificationError e = true ↔ Refusal e := by
  simp [isVerificationError, Refusal, or_assoc]

theorem cliVerify_args {C : Crypto} {H : Hashes} {files : Str → Res Zip} {args : List Str}
    {jar cert : Str} {name : Option Str} (ha : VerifyArgs args jar cert name) :
    cliVerify up C H files args = cliVerify.go up C H files jar cert name := by
  rcases ha with ⟨rfl, rfl⟩ | ⟨n, rfl, rfl⟩ <;> rfl

/-- C97: what the command gives for an archive that can be opened: 0 if it is accepted, 1 if it is
refused, -1 without M2Crypto, and any other exception escapes. -/
theorem C97_status (C : Crypto) (H : Hashes) (files : Str → Res Zip) (args : List Str)
    (jar cert : Str) (name : Option Str) (z : Zip) (ha : VerifyArgs args jar cert name)
    (hz : files jar = .ok z) :
    (verify up C H cert z name = .ok () → cliVerify up C H files args = .ok 0) ∧
    (∀ e, verify up C H cert z name = .error e → Refusal e →
      cliVerify up C H files args = .ok 1) ∧
    (∀ e, verify up C H cert z name = .error e → e = .other "CryptoDisabled" →
      cliVerify up C H files args = .ok (-1)) ∧
    ∀ e, verify up C H cert z name = .error e → ¬ Refusal e → e ≠ .other "CryptoDisabled" →
      cliVerify up C H files args = .error e := by
  rw [cliVerify_args up ha]
  unfold cliVerify.go
  simp only [hz]
  refine ⟨?_, ?_, ?_, ?_⟩
  · intro h
    simp only [h]
  · intro e h hr
    have hd : e ≠ .other "CryptoDisabled" := by
      rcases hr with rfl | rfl | rfl | rfl | rfl <;> decide +kernel
    simp only [h, if_neg hd, if_pos ((isVerificationError_iff e).2 hr)]
  · intro e h hd
    simp only [h, if_pos hd]
  · intro e h hr hd
    simp only [h, if_neg hd, if_neg (mt (isVerificationError_iff e).1 hr)]

/-- C97: the status is 0 exactly if the archive is accepted, so never for one that is not. -/
theorem C97_zero (C : Crypto) (H : Hashes) (files : Str → Res Zip) (args : List Str) :
    cliVerify up C H files args = .ok 0 ↔ ∃ jar cert name z, VerifyArgs args jar cert name ∧
      files jar = .ok z ∧ verify up C H cert z name = .ok () := by
  constructor
  · intro h
    have key : ∀ jar cert name, VerifyArgs args jar cert name → ∃ jar cert name z,
        VerifyArgs args jar cert name ∧ files jar = .ok z ∧ verify up C H cert z name = .ok () := by
      intro jar cert name ha
      rw [cliVerify_args up ha] at h
      unfold cliVerify.go at h
      cases hz : files jar with
      | error e => rw [hz] at h; cases h
      | ok z =>
        rw [hz] at h
        simp only at h
        cases hv : verify up C H cert z name with
        | ok u => exact ⟨jar, cert, name, z, ha, hz, hv⟩
        | error e =>
          rw [hv] at h
          simp only at h
          split at h
          · simp at h
          · split at h <;> simp at h
    match args, h with
    | [jar, cert], _ => exact key jar cert none (.inl ⟨rfl, rfl⟩)
    | [jar, cert, n], _ => exact key jar cert (some n) (.inr ⟨n, rfl, rfl⟩)
  · rintro ⟨jar, cert, name, z, ha, hz, hv⟩
    exact (C97_status up C H files args jar cert name z ha hz).1 hv

/-- C97: with any other number of arguments the status is 1. -/
theorem C97_usage (C : Crypto) (H : Hashes) (files : Str → Res Zip) (args : List Str)
    (h : args.length < 2 ∨ 3 < args.length) : cliVerify up C H files args = .ok 1 := by
  match args with
  | [] => rfl
  | [_] => rfl
  | [_, _] => simp at h
  | [_, _, _] => simp at h
  | _ :: _ :: _ :: _ :: _ => rfl

/-- C97 as stated: for every archive that can be opened the command ends with a status, if checking
a signature ends with acceptance or the documented exceptions. -/
def C97_full : Prop :=
  ∀ (up : Char → Str) (C : Crypto) (H : Hashes) (files : Str → Res Zip) (args : List Str)
    (jar cert : Str) (name : Option Str) (z : Zip), VerifyArgs args jar cert name →
    files jar = .ok z →
    (∀ c d s e, C.verifyBlock c d s = .error e → e = eSignatureBlock ∨ e = .other "CryptoDisabled") →
    ∃ n, cliVerify up C H files args = .ok n

/-- Everything that is digested can be, with known algorithms. -/
structure Checkable (H : Hashes) (sf m : Manifest) : Prop where
  known : KnownDigests H m
  whole : ∀ d ∈ keysWithSuffix sf.main sDigestManifest, ∃ h, H.get d = .ok h
  main : ∀ d ∈ keysWithSuffix sf.main sDigestMain, ∃ h, H.get d = .ok h
  data : ∃ b, m.getData = .ok b
  mainData : ∃ b, m.getMain = .ok b
  sections : ∀ n s, (n, s) ∈ m.subs → ∃ b, sectionDataOpt s m.linesep = .ok b
  digests : ∀ n s, (n, s) ∈ m.subs → ∀ d ∈ keysWithSuffix s sDigest, ∃ h, H.get d = .ok h

theorem verifySections_total {H : Hashes} {ls : Option Str} {ss : List Section} {sf : Manifest}
    (h : ∀ s ∈ ss, (∃ b, sectionDataOpt s ls = .ok b) ∧
      ∀ d ∈ keysWithSuffix s sDigest, ∃ h, H.get d = .ok h) :
    ∃ r, verifySections H true ls sf ss = .ok r := by
  induction ss generalizing sf with
  | nil => exact ⟨_, rfl⟩
  | cons s ss ih =>
    obtain ⟨⟨b, hb⟩, hd⟩ := h s (by simp)
    have ih := fun sf => ih (sf := sf) fun t ht => h t (by simp [ht])
    obtain ⟨r, hr⟩ := ih (createSection sf (primary s) false).2
    obtain ⟨v, hv⟩ := matchDigest_ok (b := b) (s := (createSection sf (primary s) false).1)
      (suf := sDigest) hd
    simp only [verifySections, hb, hv, hr]
    cases v <;> (split <;> exact ⟨_, rfl⟩)

theorem verifyEntries_total {H : Hashes} {z : Zip} {m0 m : Manifest} (hk : KnownDigests H m0)
    (hg : Grown m0 m) (names : List Str) (hn : ∀ n ∈ names, n ∈ namelist z) :
    ∃ r, verifyEntries up H z true m names = .ok r := by
  induction names generalizing m with
  | nil => exact ⟨_, rfl⟩
  | cons f fs ih =>
    have hfs := fun x (hx : x ∈ fs) => hn x (by simp [hx])
    simp only [verifyEntries]
    split
    · exact ih hg hfs
    · obtain ⟨hg2, hget⟩ := grown_create hg f
      obtain ⟨r, hr⟩ := ih hg2 hfs
      have hd : ∀ d ∈ keysWithSuffix (createSection m f false).1 sDigest, ∃ h, H.get d = .ok h := by
        rcases hg2 f _ hget with h | h
        · exact hk f _ h
        · rw [h, new_no_keys]; simp
      obtain ⟨b, hb, _⟩ := zipRead_mem (hn f (by simp))
      obtain ⟨v, hv⟩ := matchDigest_ok (b := b) (s := (createSection m f false).1)
        (suf := sDigest) hd
      simp only [hb, hv, hr]
      cases v <;> (split <;> exact ⟨_, rfl⟩)

/-- Steps 2 and 3 end with acceptance or refusal. -/
theorem verifyContents_total {H : Hashes} {z : Zip} {sfData : Bytes} {sf m : Manifest}
    (hs : (emptySignature none).parse sfData = .ok sf) (hm : loadFromJar z = .ok m)
    (hc : Checkable H sf m) :
    verifyContents up H z sfData = .ok () ∨
      ∃ e, verifyContents up H z sfData = .error e ∧ Refusal e := by
  obtain ⟨b, hb⟩ := hc.data
  obtain ⟨b', hb'⟩ := hc.mainData
  obtain ⟨v, hv⟩ := matchDigest_ok (b := b) (s := sf.main) (suf := sDigestManifest) hc.whole
  obtain ⟨v', hv'⟩ := matchDigest_ok (b := b') (s := sf.main) (suf := sDigestMain) hc.main
  obtain ⟨r, hr⟩ := verifySections_total (H := H) (ls := m.linesep) (ss := m.subs.map Prod.snd)
    (sf := sf) (by
      intro s hs
      obtain ⟨⟨n, s'⟩, h1, rfl⟩ := List.mem_map.1 hs
      exact ⟨hc.sections n s' h1, hc.digests n s' h1⟩)
  obtain ⟨fails, hf⟩ : ∃ fails, verifyManifest H sf m = .ok fails := by
    unfold verifyManifest verifyWhole verifyMain
    simp only [hb, hb', hv, hv', hr]
    cases v <;> cases v' <;> exact ⟨_, rfl⟩
  obtain ⟨r2, hr2⟩ := verifyEntries_total up (z := z) hc.known (m := m)
    (fun n s h => .inl h) (namelist z) (fun n h => h)
  unfold verifyContents
  simp only [hs, hm, hf, verifyJarChecksums, hr2]
  cases fails with
  | cons x xs => exact .inr ⟨_, rfl, .inr (.inr (.inr (.inl rfl)))⟩
  | nil =>
    obtain ⟨l, m'⟩ := r2
    cases l with
    | nil => exact .inl rfl
    | cons x xs => exact .inr ⟨_, rfl, .inr (.inr (.inr (.inr rfl)))⟩

/-- C97, partial: it does if the archive holds a manifest that can be read, and every signature file
of it can be read and refers to data and algorithms that can be digested. Missing: archives for
which this fails; there the exception escapes (`C97_status`). -/
theorem C97_partial (C : Crypto) (H : Hashes) (files : Str → Res Zip) (args : List Str)
    (jar cert : Str) (name : Option Str) (z : Zip) (ha : VerifyArgs args jar cert name)
    (hz : files jar = .ok z)
    (hC : ∀ c d s e, C.verifyBlock c d s = .error e → e = eSignatureBlock ∨
      e = .other "CryptoDisabled")
    (m : Manifest) (hm : loadFromJar z = .ok m)
    (hsf : ∀ n ∈ namelist z, IsSf up n → ∀ d, zipRead z n = .ok d →
      ∃ sf, (emptySignature none).parse d = .ok sf ∧ Checkable H sf m) :
    ∃ n, cliVerify up C H files args = .ok n ∧ (n = 0 ∨ n = 1 ∨ n = -1) := by
  obtain ⟨s0, s1, s2, _⟩ := C97_status up C H files args jar cert name z ha hz
  have key : verify up C H cert z name = .ok () ∨ ∃ e, verify up C H cert z name = .error e ∧
      (Refusal e ∨ e = .other "CryptoDisabled") := by
    by_cases hex : ∃ n ∈ namelist z, IsSf up n
    · by_cases hch : ∃ f, Chosen up (namelist z) name f
      · obtain ⟨f, hf⟩ := hch
        by_cases hb : ∃ b, BlockFor (namelist z) (keyAlias f) b
        · obtain ⟨b, hb⟩ := hb
          obtain ⟨d, sig, hd, _, h1, h2, h3⟩ := C54_used up C H cert z name f b hf hb
          cases hv : C.verifyBlock cert d sig with
          | ok u =>
            rw [h1 hv]
            obtain ⟨hmem, his⟩ := chosen_mem up hf
            obtain ⟨sf, hp, hck⟩ := hsf f hmem his d hd
            rcases verifyContents_total up hp hm hck with h | ⟨e, h, hr⟩
            · exact .inl h
            · exact .inr ⟨e, h, .inl hr⟩
          | error e =>
            rcases hC _ _ _ _ hv with rfl | rfl
            · exact .inr ⟨_, h2 hv, .inl (.inr (.inr (.inl rfl)))⟩
            · exact .inr ⟨_, h3 _ hv (by decide +kernel), .inr rfl⟩
        · exact .inr ⟨_, C54_no_block up C H cert z name f hf fun b h => hb ⟨b, h⟩,
            .inl (.inr (.inl rfl))⟩
      · exact .inr ⟨_, C54_not_chosen up C H cert z name hex fun f h => hch ⟨f, h⟩, .inl (.inl rfl)⟩
    · exact .inr ⟨_, C54_no_sf up C H cert z name fun n h1 h2 => hex ⟨n, h1, h2⟩,
        .inl (.inr (.inl rfl))⟩
  rcases key with h | ⟨e, h, hr | hd⟩
  · exact ⟨0, s0 h, .inl rfl⟩
  · exact ⟨1, s1 e h hr, .inr (.inl rfl)⟩
  · exact ⟨-1, s2 e h hd, .inr (.inr rfl)⟩

/-- An archive with a signature file and a block file, but no manifest. -/
def noManifestJar : Zip :=
  [("META-INF/A.SF".toList, encodeUtf8 "Signature-Version: 1.0\n".toList),
    ("META-INF/A.RSA".toList, [])]

def acceptAll : Crypto where
  verifyBlock _ _ _ := .ok ()
  keyType _ := .ok "RSA".toList
  signBlock _ _ _ _ _ := .ok []

theorem noManifest_result : cliVerify upLongS acceptAll idHashes (fun _ => .ok noManifestJar)
    ["x.jar".toList, "c.pem".toList] = .error (.other "MissingManifestError") := by decide +kernel

theorem C97_full_fails : ¬ C97_full := by
  intro h
  obtain ⟨n, hn⟩ := h upLongS acceptAll idHashes (fun _ => .ok noManifestJar)
    ["x.jar".toList, "c.pem".toList] "x.jar".toList "c.pem".toList none noManifestJar
    (.inl ⟨rfl, rfl⟩) rfl (by intro c d s e he; cases he)
  rw [noManifest_result] at hn
  cases hn

/-- Accepted, refused because of an entry that is not recorded, refused because nothing is signed. -/
example :
    cliVerify upLongS echoCrypto idHashes (fun _ => .ok (exJar [])) [[], []] = .ok 0 ∧
    cliVerify upLongS echoCrypto idHashes (fun _ => .ok (exJar [("b".toList, [1])])) [[], []] = .ok 1 ∧
    cliVerify upLongS echoCrypto idHashes (fun _ => .ok [(sManifestMf, exMf)]) [[], []] = .ok 1 := by
  decide +kernel

end Javatools
