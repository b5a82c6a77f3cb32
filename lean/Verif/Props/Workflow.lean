import Verif.Props.SignExact
import Verif.Props.CmdLines
import Verif.Props.VerifyCli
/-
C164: an archive is made, signed and verified on the command line.

The archive that one command writes is what the next one reads (`World.put`): zipfile is trusted to
give back the entries it has written.
-/
namespace Javatools

/-- An archive has been written. -/
def World.put (W : World) (name : Str) (z : Zip) : World :=
  { W with zip := fun p => if p = name then .ok z else W.zip p }

theorem put_zip (W : World) (name : Str) (z : Zip) : (W.put name z).zip name = .ok z := by
  simp [World.put]

/-- Names of printable characters can be recorded. -/
theorem safe_printable {n : Str} (h : Printable n) (hn : n ≠ []) : SafeName "\n".toList n := by
  have hk : CleanKey kName := cleanKey_name
  have hp : Printable kName := by unfold Printable; decide
  have := printable_round (ls := "\n".toList) (.inl rfl) (kName, n) hk hp
    (show kName ≠ [] by decide) (show kName.length ≤ 68 by decide) h hn
  exact ⟨this.clean.val, this.folds⟩

/-- What the sign command is told: the archive and the certificate of `create`, an alias, a
supported digest and a key that belongs to the certificate. -/
structure SignsJar (negNum isInt : Str → Bool) (C : Crypto) (H : Hashes) (qs : List CmdPiece)
    (jar cert key alias : Str) : Prop where
  pieces : ∀ p ∈ qs, SignPiece negNum isInt p
  words : cmdFiles qs = [jar, cert, key, alias]
  known : cmdUnknown qs = []
  digest : ∃ h, H.get ((lastGiven qs digestOpt).getD "SHA-256".toList) = .ok h
  usable : Usable C cert key (some (givenTo (cmdGiven qs) chainOpt).flatten)
    ((lastGiven qs digestOpt).getD "SHA-256".toList)
  matching : Matching C cert key (some (givenTo (cmdGiven qs) chainOpt).flatten)

/-- What the create command is told: the archive and paths that exist. -/
structure PacksJar (negNum isInt : Str → Bool) (W : World) (ps : List CmdPiece) (jar : Str) : Prop where
  pieces : ∀ p ∈ ps, CreatePiece negNum isInt p
  words : ∃ more, cmdFiles ps = jar :: more
  paths : ∀ e ∈ cmdOthers 1 ps, PlainArg W e

/-- The archive is made, signed (in place or elsewhere) and accepted. -/
def Accepted (negNum isInt : Str → Bool) (up : Char → Str) (C : Crypto) (H : Hashes) (W : World)
    (ps qs : List CmdPiece) (jar cert alias : Str) : Prop :=
  ∃ z z' out, jarCreateRun negNum isInt W (cmdWords ps) = .ok (jar, z) ∧
    jarSignRun negNum isInt up C H (W.put jar z) (cmdWords qs) = .ok (0, some (out, z')) ∧
    out = (lastGiven qs outputOpt).getD jar ∧
    cliVerify up C H ((W.put jar z).put out z').zip [out, cert] = .ok 0 ∧
    cliVerify up C H ((W.put jar z).put out z').zip [out, cert, alias ++ ".SF".toList] = .ok 0

/-- C164 as stated. -/
def C164_full : Prop :=
  ∀ (negNum isInt : Str → Bool) (up : Char → Str) (C : Crypto) (H : Hashes) (W : World)
    (ps qs : List CmdPiece) (jar cert key alias : Str), IsUpper up → NonemptyDigests H →
    PacksJar negNum isInt W ps jar → SignsJar negNum isInt C H qs jar cert key alias →
    Accepted negNum isInt up C H W ps qs jar cert alias

section
variable {negNum isInt : Str → Bool} {up : Char → Str}

theorem not_sf_dir (hup : IsUpper up) : ¬ IsSf up "META-INF/".toList := fun ⟨_, _, _, r, hr⟩ => by
  have e1 : upperWith up "META-INF/".toList = "META-INF/".toList :=
    upper_const up hup (by unfold AsciiText; decide) (by decide)
  rw [e1] at hr
  exact absurd (List.append_inj' (show "META-IN".toList ++ "F/".toList = (r ++ ".".toList) ++ "SF".toList by
    rw [List.append_assoc]; exact hr) rfl).2 (by decide)

theorem not_sf_manifest (hup : IsUpper up) : ¬ IsSf up sManifestMf := fun ⟨_, _, _, r, hr⟩ => by
  have e1 : upperWith up sManifestMf = sManifestMf :=
    upper_const up hup (by unfold AsciiText; decide) (by decide)
  rw [e1] at hr
  exact absurd (List.append_inj' (show "META-INF/MANIFEST".toList ++ ".MF".toList = r ++ ".SF".toList
    from hr) rfl).2 (by decide)

theorem block_not_own {alias e : Str} (he : e ∈ ["RSA".toList, "DSA".toList, "EC".toList]) :
    sMetaInfDir ++ alias ++ '.' :: e ≠ "META-INF/".toList ∧
      sMetaInfDir ++ alias ++ '.' :: e ≠ sManifestMf := by
  constructor
  · intro h
    have := congrArg List.length h
    have h2 : sMetaInfDir.length = 9 := rfl
    have h3 : "META-INF/".toList.length = 9 := rfl
    simp only [List.length_append, List.length_cons] at this
    omega
  · intro h
    simp only [List.mem_cons, List.not_mem_nil, or_false] at he
    rcases he with he | he | he
    · rw [he] at h
      exact absurd (List.append_inj' (show (sMetaInfDir ++ alias) ++ ".RSA".toList =
        "META-INF/MANIFES".toList ++ "T.MF".toList from h) rfl).2 (by decide)
    · rw [he] at h
      exact absurd (List.append_inj' (show (sMetaInfDir ++ alias) ++ ".DSA".toList =
        "META-INF/MANIFES".toList ++ "T.MF".toList from h) rfl).2 (by decide)
    · rw [he] at h
      exact absurd (List.append_inj' (show (sMetaInfDir ++ alias) ++ ".EC".toList =
        "META-INF/MANIFEST".toList ++ ".MF".toList from h) rfl).2 (by decide)

/-- C164, for an alias without slash and NUL, and paths that bring no manifest, signature file or
block file of that alias, and no name that cannot be recorded in a manifest. Missing: the other
aliases and paths. -/
theorem C164_partial {C : Crypto} {H : Hashes} {W : World} {ps qs : List CmdPiece}
    {jar cert key alias : Str} (hup : IsUpper up) (hH : NonemptyDigests H)
    (hp : PacksJar negNum isInt W ps jar) (hq : SignsJar negNum isInt C H qs jar cert key alias)
    (halias : '/' ∉ alias ∧ '\x00' ∉ alias)
    (hmf : ∀ e ∈ cmdOthers 1 ps, ∀ b, ¬ Contributes W e "META-INF/MANIFEST.MF".toList b)
    (hsf : ∀ e ∈ cmdOthers 1 ps, ∀ n b, Contributes W e n b → ¬ IsSf up n)
    (hbl : ∀ e ∈ cmdOthers 1 ps, ∀ b, ∀ ext ∈ ["RSA".toList, "DSA".toList, "EC".toList],
      ¬ Contributes W e ("META-INF/".toList ++ alias ++ '.' :: ext) b)
    (hsafe : ∀ e ∈ cmdOthers 1 ps, ∀ n b, Contributes W e n b → skipsVerification up n = false →
      n ≠ [] ∧ SafeName "\n".toList n) :
    Accepted negNum isInt up C H W ps qs jar cert alias := by
  obtain ⟨more, hmore⟩ := hp.words
  obtain ⟨rest, hc, hrest⟩ := C159_contents W hp.pieces hmore hp.paths
  obtain ⟨z, m, hz, hm, hmain, hsubs, hsep⟩ := C95_manifest W _ hp.paths hmf
  have hcr : jarCreateRun negNum isInt W (cmdWords ps) = .ok (jar, z) := by
    have := C159_words W hp.pieces
    unfold PacksPaths at this
    rw [hmore, hz] at this
    exact this
  have hze := (Prod.mk.inj (Except.ok.inj (hcr.symm.trans hc))).2
  have hname : ∀ n ∈ namelist z, n = "META-INF/".toList ∨ n = sManifestMf ∨ ∃ e ∈ cmdOthers 1 ps, ∃ b, Contributes W e n b := by
    intro n hn
    rw [hze] at hn
    simp only [namelist, List.map_cons, List.mem_cons] at hn
    rcases hn with hn | hn | hn
    · exact .inl hn
    · exact .inr (.inl hn)
    · obtain ⟨⟨n', b⟩, hb, rfl⟩ := List.mem_map.1 hn
      obtain ⟨e, he, hcb⟩ := (hrest _ b).1 hb
      exact .inr (.inr ⟨e, he, b, hcb⟩)
  have hdir : skipsVerification up "META-INF/".toList = true := by
    have e1 : upperWith up "META-INF/".toList = "META-INF/".toList :=
      upper_const up hup (by unfold AsciiText; decide) (by decide)
    unfold skipsVerification
    rw [e1]
    simp only [Bool.or_eq_true]
    exact .inl (.inl (.inr (by decide +kernel)))
  have hrec : ∀ f ∈ namelist z, skipsVerification up f = false →
      f ≠ [] ∧ SafeName "\n".toList f := by
    intro f hf hs
    rcases hname f hf with rfl | rfl | ⟨e, he, b, hb⟩
    · rw [hdir] at hs; simp at hs
    · rw [skips_manifest up hup] at hs; simp at hs
    · exact hsafe e he f b hb hs
  have hnosf : ∀ n ∈ namelist z, ¬ IsSf up n := by
    intro n hn
    rcases hname n hn with rfl | rfl | ⟨e, he, b, hb⟩
    · exact not_sf_dir hup
    · exact not_sf_manifest hup
    · exact hsf e he n b hb
  -- signing
  obtain ⟨h, hg⟩ := hq.digest
  obtain ⟨z', hs⟩ := (C163_exact up C H z cert key alias _ _ h m hH hg hq.usable hm).2 ⟨by
      rw [hmain]
      intro i hi
      rw [List.mem_singleton.1 hi]
      exact ⟨by show 0 < (encodeUtf8 kManifestVersion).length; decide +kernel,
        by show (encodeUtf8 kManifestVersion).length < 69; decide +kernel, by decide⟩,
    by rw [hsubs]; simp, fun f hf => (hrec f hf.1 hf.2).1⟩
  have hsr := C161_words up C H (W.put jar z) hq.pieces
  unfold signMeans at hsr
  rw [hq.words, hq.known] at hsr
  simp only [cliSign, put_zip, hs, Except.map, Option.map_some] at hsr
  have hv := C50_partial up C H z cert key alias _ _ z' hup hq.matching hH hs halias ?_ m "\n".toList
    hm hsep ?_ ?_ ?_ ?_
  · refine ⟨z, z', _, hcr, hsr, rfl, ?_, ?_⟩
    · exact (C97_status up C H _ _ _ cert none z' (.inl ⟨rfl, rfl⟩) (put_zip _ _ _)).1 (hv.2 hnosf)
    · exact (C97_status up C H _ _ _ cert (some _) z' (.inr ⟨_, rfl, rfl⟩) (put_zip _ _ _)).1 hv.1
  · intro e he hin
    simp only [List.mem_cons, List.not_mem_nil, or_false] at he
    rcases he with rfl | he
    · exact hnosf _ hin (skips_sf up hup halias.1).2
    · rcases hname _ hin with h1 | h1 | ⟨e', he', b, hb⟩
      · exact absurd h1 (block_not_own (by simpa using he)).1
      · exact absurd h1 (block_not_own (by simpa using he)).2
      · exact hbl e' he' b e (by simpa using he) hb
  · rw [hmain]
    intro i hi
    rw [List.mem_singleton.1 hi]
    exact (printable_round (ls := "\n".toList) (.inl rfl) (kManifestVersion, "1.0".toList)
      (⟨by decide, by decide, by decide⟩ : CleanKey kManifestVersion) (by unfold Printable; decide) (by decide) (by decide)
      (by unfold Printable; decide) (by decide)).folds
  · rw [hsubs]; simp
  · simp [KeptDigests, hsubs]
  · exact fun f hf hs' => (hrec f hf hs').2

/-- C164, for files with printable names outside META-INF. -/
theorem C164_printable {C : Crypto} {H : Hashes} {W : World} {ps qs : List CmdPiece}
    {jar cert key alias : Str} (hup : IsUpper up) (hH : NonemptyDigests H)
    (hp : PacksJar negNum isInt W ps jar) (hq : SignsJar negNum isInt C H qs jar cert key alias)
    (halias : '/' ∉ alias ∧ '\x00' ∉ alias)
    (hn : ∀ e ∈ cmdOthers 1 ps, ∀ n b, Contributes W e n b →
      n ≠ [] ∧ Printable n ∧ ¬ "META-INF/".toList <+: n) :
    Accepted negNum isInt up C H W ps qs jar cert alias := by
  refine C164_partial hup hH hp hq halias ?_ ?_ ?_ ?_
  · intro e he b hc
    exact (hn e he _ b hc).2.2 ⟨"MANIFEST.MF".toList, rfl⟩
  · intro e he n b hc ⟨x, hx, _⟩
    exact (hn e he _ b hc).2.2 ⟨x, hx.symm⟩
  · intro e he b ext _ hc
    exact (hn e he _ b hc).2.2 ⟨alias ++ '.' :: ext, by rw [List.append_assoc]⟩
  · intro e he n b hc _
    obtain ⟨h1, h2, _⟩ := hn e he n b hc
    exact ⟨h1, safe_printable h2 h1⟩
end

/-- The three commands, run one after the other: is the archive accepted? -/
def runsThrough (W : World) (create sign : List Str) (cert : Str) : Bool :=
  match jarCreateRun (fun _ => false) (fun _ => false) W create with
  | .error _ => false
  | .ok (jar, z) =>
    match jarSignRun (fun _ => false) (fun _ => false) upLongS echoCrypto tagHashes (W.put jar z) sign with
    | .ok (0, some (out, z')) =>
      match cliVerify upLongS echoCrypto tagHashes ((W.put jar z).put out z').zip [out, cert] with
      | .ok r => r == 0
      | .error _ => false
    | _ => false

theorem runsThrough_of {W : World} {ps qs : List CmdPiece} {jar cert alias : Str}
    (h : Accepted (fun _ => false) (fun _ => false) upLongS echoCrypto tagHashes W ps qs jar cert alias) :
    runsThrough W (cmdWords ps) (cmdWords qs) cert = true := by
  obtain ⟨z, z', out, h1, h2, _, h4, _⟩ := h
  simp only [runsThrough, h1, h2, h4]
  rfl

/-- One file. -/
def fileNamed (n : Str) : World where
  node p := if p = n then .file [1] else .missing
  zip _ := .error eFileNotFound

/-- `jarutil c a.jar n` -/
def packLine (n : Str) : List CmdPiece := [.word "a.jar".toList, .word n]

/-- `jarutil s a.jar c.pem k.pem K` -/
def signLine : List CmdPiece :=
  [.word "a.jar".toList, .word "c.pem".toList, .word "k.pem".toList, .word "K".toList]

theorem packLine_packs {n : Str} (h : IsName n) (h0 : '\x00' ∉ n) (hd : n.head? ≠ some '-') :
    PacksJar (fun _ => false) (fun _ => false) (fileNamed n) (packLine n) "a.jar".toList := by
  refine ⟨?_, ⟨[n], rfl⟩, ?_⟩
  · intro p hp
    simp only [packLine, List.mem_cons, List.not_mem_nil, or_false] at hp
    rcases hp with rfl | rfl
    · exact plainWord_create (by decide) _ _
    · exact plainWord_create hd _ _
  · intro e he
    rw [List.mem_singleton.1 he]
    refine ⟨⟨[n], rfl, by simp, ?_⟩, by simp [fileNamed], fun F hF => ?_⟩
    · intro x hx
      rw [List.mem_singleton.1 hx]
      exact ⟨h, h0⟩
    · simp [fileNamed] at hF

theorem signLine_signs : SignsJar (fun _ => false) (fun _ => false) echoCrypto tagHashes signLine
    "a.jar".toList "c.pem".toList "k.pem".toList "K".toList := by
  refine ⟨?_, rfl, rfl, ⟨_, rfl⟩, ⟨⟨_, rfl⟩, fun data => ⟨_, rfl⟩⟩,
    ⟨(echo_matching (some [])).accepts, (echo_matching (some [])).kind⟩⟩
  intro p hp
  simp only [signLine, List.mem_cons, List.not_mem_nil, or_false] at hp
  rcases hp with rfl | rfl | rfl | rfl
  · exact .inl (by decide)
  · exact .inl (by decide)
  · exact .inl (by decide)
  · exact .inl (by decide)

/-- C164 is false: a file name with a line break breaks the manifest. -/
theorem C164_full_fails : ¬ C164_full := by
  intro h
  have h1 := runsThrough_of (h (fun _ => false) (fun _ => false) upLongS echoCrypto tagHashes
    (fileNamed "b\nc".toList) (packLine "b\nc".toList) signLine "a.jar".toList "c.pem".toList
    "k.pem".toList "K".toList upLongS_isUpper tag_nonempty (packLine_packs (by simp [IsName]) (by decide) (by decide)) signLine_signs)
  have h2 : runsThrough (fileNamed "b\nc".toList) (cmdWords (packLine "b\nc".toList)) (cmdWords signLine)
      "c.pem".toList = false := by decide +kernel
  rw [h2] at h1
  simp at h1

/-- The theorem applies to a file with a plain name. -/
example : Accepted (fun _ => false) (fun _ => false) upLongS echoCrypto tagHashes
    (fileNamed "b".toList) (packLine "b".toList) signLine "a.jar".toList "c.pem".toList "K".toList := by
  refine C164_printable (key := "k.pem".toList) upLongS_isUpper tag_nonempty
    (packLine_packs (by simp [IsName]) (by decide) (by decide)) signLine_signs (by decide) ?_
  intro e he n b hc
  rw [List.mem_singleton.1 he] at hc
  simp only [Contributes, fileNamed, if_true] at hc
  rw [hc.1]
  exact ⟨by decide, by unfold Printable; decide, by decide⟩

end Javatools
