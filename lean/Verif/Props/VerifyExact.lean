import Verif.Props.JarVerify
/-
C49 and C53, exactly: which archives are accepted by `verify`, and which entries are exempt.
-/
namespace Javatools

variable (up : Char → Str)

/-! ### C53 -/

/-- The exempt names, for a mapping to capitals: the manifest, directories, and signature files and
blocks directly in META-INF. -/
def ExemptBy (f : Str) : Prop :=
  upperWith up f = sManifestMf ∨ (∃ d, f = d ++ ['/']) ∨
    ∃ d x, f = d ++ '/' :: x ∧ '/' ∉ d ∧ '/' ∉ x ∧ upperWith up d = sMetaInf ∧ SigName (upperWith up x)

theorem upperWith_append (a b : Str) : upperWith up (a ++ b) = upperWith up a ++ upperWith up b := by
  simp [upperWith]

theorem upper_cons_slash (hup : IsUpper up) (b : Str) :
    upperWith up ('/' :: b) = '/' :: upperWith up b := by
  have hs : up '/' = ['/'] := by
    rw [hup.ascii '/' (by decide)]
    decide
  simp [upperWith, hs]

/-- C53 for all names, if capitals are left alone by the mapping to capitals: an entry is exempt if
and only if its name is one of these. -/
theorem C53_exact (hup : IsUpper up) (hid : ∀ s, upperWith up (upperWith up s) = upperWith up s)
    (f : Str) : skipsVerification up f = true ↔ ExemptBy up f := by
  have hdir : (∃ x, upperWith up f = sMetaInf ++ '/' :: x ∧ '/' ∉ x) ↔
      ∃ d x, f = d ++ '/' :: x ∧ '/' ∉ d ∧ '/' ∉ x ∧ upperWith up d = sMetaInf := by
    constructor
    · rintro ⟨y, h1, h2⟩
      have hm : '/' ∈ f := by rw [← upper_slash hup, h1]; simp
      obtain ⟨a, b, rfl, ha⟩ := exists_split hm
      rw [upperWith_append, upper_cons_slash up hup] at h1
      obtain ⟨h3, h4⟩ := append_cons_inj (fun h => ha ((upper_slash hup a).1 h)) (by decide) h1
      exact ⟨a, b, rfl, ha, by rw [← upper_slash hup, h4]; exact h2, h3⟩
    · rintro ⟨d, x, rfl, _, h2, h3⟩
      refine ⟨upperWith up x, by rw [upperWith_append, upper_cons_slash up hup, h3], ?_⟩
      rw [upper_slash hup]
      exact h2
  have hslash : (∃ a, upperWith up f = a ++ "/".toList) ↔ ∃ d, f = d ++ ['/'] := by
    constructor
    · intro h
      rcases C53_location up hup f (by
        unfold skipsVerification
        simp only [Bool.or_eq_true, endsWith_iff]
        exact .inl (.inl (.inr h))) with h' | ⟨d, x, h1, h2, h3, h4⟩
      · exact h'
      · obtain ⟨a, h⟩ := h
        rw [h1, upperWith_append, upper_cons_slash up hup] at h
        cases x with
        | nil => exact ⟨d, h1⟩
        | cons c x =>
          exfalso
          have hne : upperWith up (c :: x) ≠ [] := by
            intro he
            have hc : up c = [] := by
              have : up c ++ upperWith up x = [] := by simpa [upperWith] using he
              exact (List.append_eq_nil_iff.1 this).1
            by_cases hlt : c.toNat < 128
            · rw [hup.ascii c hlt] at hc; simp at hc
            · exact (hup.other c (by omega)).1 hc
          have hl := congrArg List.getLast? h
          rw [List.getLast?_append, List.getLast?_append, List.getLast?_cons] at hl
          have h6 : (upperWith up (c :: x)).getLast? = some ((upperWith up (c :: x)).getLast hne) :=
            List.getLast?_eq_some_getLast hne
          rw [h6] at hl
          have h5 : ("/".toList).getLast? = some '/' := by decide
          rw [h5] at hl
          simp only [Option.getD_some, Option.some_or, Option.some.injEq] at hl
          apply h3
          rw [← upper_slash hup, ← hl]
          exact List.getLast_mem hne
    · rintro ⟨d, rfl⟩
      exact ⟨upperWith up d, by rw [upperWith_append, upper_cons_slash up hup]; rfl⟩
  unfold skipsVerification ExemptBy
  simp only [Bool.or_eq_true, decide_eq_true_eq, endsWith_iff, hslash, or_assoc]
  refine or_congr Iff.rfl (or_congr Iff.rfl ?_)
  unfold matchesSigblock matchesSigfile
  simp only [Bool.and_eq_true, inSigDir_iff, fnmatches_sf, fnmatches_sig, hid]
  constructor
  · intro h
    have hx : ∃ x, upperWith up f = sMetaInf ++ '/' :: x ∧ '/' ∉ x := by
      rcases h with h | h
      · exact h.1
      · exact h.1
    obtain ⟨d, x, rfl, h2, h3, h4⟩ := hdir.1 hx
    refine ⟨d, x, rfl, h2, h3, h4, ?_⟩
    have hf : upperWith up (d ++ '/' :: x) = sMetaInf ++ '/' :: upperWith up x := by
      rw [upperWith_append, upper_cons_slash up hup, h4]
    have hd : (sMetaInf ++ '/' :: upperWith up x).drop 9 = upperWith up x := rfl
    rw [hf, hd, hid] at h
    rcases h with ⟨_, h⟩ | ⟨_, r, h⟩
    · exact .inr h
    · exact .inl (suffix_after_slash (by decide) h)
  · rintro ⟨d, x, rfl, h2, h3, h4, h5⟩
    have hx := hdir.2 ⟨d, x, rfl, h2, h3, h4⟩
    have hf : upperWith up (d ++ '/' :: x) = sMetaInf ++ '/' :: upperWith up x := by
      rw [upperWith_append, upper_cons_slash up hup, h4]
    have hd : (sMetaInf ++ '/' :: upperWith up x).drop 9 = upperWith up x := rfl
    rcases h5 with ⟨r, h5⟩ | h5
    · exact .inr ⟨hx, sMetaInf ++ '/' :: r, by rw [hf, h5]; simp⟩
    · refine .inl ⟨hx, ?_⟩
      rw [hf, hd, hid]
      exact h5

/-! ### Digests -/

/-- One of the algorithms gives the digest that is recorded in `t`, and those tried before it are
supported. -/
def Verified (H : Hashes) (algs : List Str) (t : Section) (suf : Str) (b : Bytes) : Prop :=
  ∃ pre alg post h, algs = pre ++ alg :: post ∧ (∀ a ∈ pre, ∃ k, H.get a = .ok k) ∧
    H.get alg = .ok h ∧ PyDict.get? t (alg ++ suf) = some (b64encode (h b))

/-- There is nothing to compare, or all algorithms are supported and none gives the recorded
digest. -/
def Unmatched (H : Hashes) (algs : List Str) (t : Section) (suf : Str) (data : Res Bytes) : Prop :=
  algs = [] ∨ ∃ b, data = .ok b ∧ ∀ a ∈ algs, ∃ k, H.get a = .ok k ∧
    PyDict.get? t (a ++ suf) ≠ some (b64encode (k b))

theorem matchDigest_true_iff (H : Hashes) (data : Res Bytes) (t : Section) (suf : Str)
    (algs : List Str) :
    matchDigest H data t suf algs = .ok true ↔ ∃ b, data = .ok b ∧ Verified H algs t suf b := by
  unfold Verified
  induction algs with
  | nil => simp [matchDigest]
  | cons d ds ih =>
    simp only [matchDigest]
    cases data with
    | error e => simp
    | ok b =>
      simp only [Except.ok.injEq, exists_eq_left'] at ih ⊢
      cases hk : H.get d with
      | error e =>
        simp only [reduceCtorEq, false_iff]
        rintro ⟨pre, alg, post, h, h1, h2, h3, _⟩
        cases pre with
        | nil =>
          simp only [List.nil_append, List.cons.injEq] at h1
          rw [← h1.1, hk] at h3
          cases h3
        | cons x pre =>
          simp only [List.cons_append, List.cons.injEq] at h1
          obtain ⟨k, hx⟩ := h2 x (by simp)
          rw [← h1.1, hk] at hx
          cases hx
      | ok k =>
        simp only
        by_cases he : some (b64encode (k b)) = PyDict.get? t (d ++ suf)
        · rw [if_pos he]
          simp only [true_iff]
          exact ⟨[], d, ds, k, rfl, by simp, hk, he.symm⟩
        · rw [if_neg he, ih]
          constructor
          · rintro ⟨pre, alg, post, h, rfl, h2, h3, h4⟩
            refine ⟨d :: pre, alg, post, h, rfl, ?_, h3, h4⟩
            intro a ha
            rcases List.mem_cons.1 ha with rfl | ha
            · exact ⟨k, hk⟩
            · exact h2 a ha
          · rintro ⟨pre, alg, post, h, h1, h2, h3, h4⟩
            cases pre with
            | nil =>
              simp only [List.nil_append, List.cons.injEq] at h1
              obtain ⟨rfl, _⟩ := h1
              rw [hk] at h3
              obtain rfl := Except.ok.inj h3
              exact absurd h4.symm he
            | cons x pre =>
              simp only [List.cons_append, List.cons.injEq] at h1
              exact ⟨pre, alg, post, h, h1.2, fun a ha => h2 a (by simp [ha]), h3, h4⟩

theorem matchDigest_false_iff (H : Hashes) (data : Res Bytes) (t : Section) (suf : Str)
    (algs : List Str) :
    matchDigest H data t suf algs = .ok false ↔ Unmatched H algs t suf data := by
  unfold Unmatched
  induction algs with
  | nil => simp [matchDigest]
  | cons d ds ih =>
    simp only [matchDigest]
    cases data with
    | error e => simp
    | ok b =>
      simp only [Except.ok.injEq, exists_eq_left', List.cons_ne_nil, false_or, List.mem_cons,
        forall_eq_or_imp] at ih ⊢
      have ih' : matchDigest H (.ok b) t suf ds = .ok false ↔ ∀ a ∈ ds, ∃ k, H.get a = .ok k ∧
          PyDict.get? t (a ++ suf) ≠ some (b64encode (k b)) := by
        rw [ih]
        constructor
        · rintro (rfl | h)
          · simp
          · exact h
        · exact .inr
      cases hk : H.get d with
      | error e => simp
      | ok k =>
        simp only [Except.ok.injEq, exists_eq_left']
        by_cases he : some (b64encode (k b)) = PyDict.get? t (d ++ suf)
        · rw [if_pos he]
          simp [he.symm]
        · rw [if_neg he, ih']
          simp [Ne.symm he]

/-! ### Sections that are created on the way -/

/-- The sections of `m` are those of `m0` and empty ones for other names. -/
def SameOrNew (m0 m : Manifest) : Prop :=
  ∀ n, PyDict.get? m.subs n = PyDict.get? m0.subs n ∨
    (PyDict.get? m0.subs n = none ∧ PyDict.get? m.subs n = some (newSection n))

theorem sameOrNew_create {m0 m : Manifest} (h : SameOrNew m0 m) (n : Str) :
    SameOrNew m0 (createSection m n false).2 ∧
      (PyDict.get? m0.subs n = some (createSection m n false).1 ∨
        (PyDict.get? m0.subs n = none ∧ (createSection m n false).1 = newSection n)) := by
  obtain ⟨h1, h2⟩ := C69_keep m n
  cases hg : PyDict.get? m.subs n with
  | some s =>
    rw [h1 s hg]
    refine ⟨h, ?_⟩
    rcases h n with h' | ⟨h', h''⟩
    · left; rw [← h', hg]
    · right
      rw [hg] at h''
      exact ⟨h', Option.some.inj h''⟩
  | none =>
    obtain ⟨h3, _, h4⟩ := h2 hg
    have h0 : PyDict.get? m0.subs n = none := by
      rcases h n with h' | ⟨h', _⟩
      · rw [← h', hg]
      · exact h'
    refine ⟨?_, .inr ⟨h0, h3⟩⟩
    intro k
    rw [h4]
    split
    · rename_i he
      subst he
      exact .inr ⟨h0, rfl⟩
    · exact h k

theorem new_keys (n : Str) : keysWithSuffix (newSection n) sDigest = [] := by
  have : endsWith kName sDigest = false := by decide
  simp [keysWithSuffix, newSection, PyDict.keys, this]

theorem not_verified_nil (H : Hashes) (t : Section) (suf : Str) (b : Bytes) :
    ¬ Verified H [] t suf b := by
  rintro ⟨pre, alg, post, h, h1, _⟩
  simp at h1

theorem not_verified_new (H : Hashes) (algs : List Str) (n : Str) (b : Bytes) :
    ¬ Verified H algs (newSection n) sDigest b := by
  rintro ⟨pre, alg, post, h, _, _, _, h1⟩
  rw [new_no_digest] at h1
  cases h1

/-- The content of an entry is the one recorded in the manifest. -/
def EntryVerified (H : Hashes) (z : Zip) (m : Manifest) (f : Str) : Prop :=
  ∃ b s, zipRead z f = .ok b ∧ PyDict.get? m.subs f = some s ∧
    Verified H (keysWithSuffix s sDigest) s sDigest b

theorem verifyEntries_iff (H : Hashes) (z : Zip) (m0 m : Manifest) (names : List Str)
    (hg : SameOrNew m0 m) :
    (∃ m', verifyEntries up H z true m names = .ok ([], m')) ↔
      ∀ f ∈ names, skipsVerification up f = false → EntryVerified H z m0 f := by
  induction names generalizing m with
  | nil => simp [verifyEntries]
  | cons n names ih =>
    simp only [verifyEntries, List.mem_cons, forall_eq_or_imp]
    by_cases hsk : skipsVerification up n = true
    · simp only [hsk, if_true, ih m hg, Bool.true_eq_false, false_implies, true_and]
    · rw [if_neg hsk]
      obtain ⟨hg2, hget⟩ := sameOrNew_create hg n
      have hsk' : skipsVerification up n = false := by simpa using hsk
      simp only [hsk', true_implies]
      generalize createSection m n false = r at hg2 hget
      have hiff : EntryVerified H z m0 n ↔
          matchDigest H (zipRead z n) r.1 sDigest (keysWithSuffix r.1 sDigest) = .ok true := by
        rw [matchDigest_true_iff]
        unfold EntryVerified
        rcases hget with h1 | ⟨h1, h2⟩
        · constructor
          · rintro ⟨b, s, h2, h3, h4⟩
            rw [h1] at h3
            obtain rfl := Option.some.inj h3
            exact ⟨b, h2, h4⟩
          · rintro ⟨b, h2, h3⟩
            exact ⟨b, _, h2, h1, h3⟩
        · constructor
          · rintro ⟨b, s, _, h3, _⟩
            rw [h1] at h3
            cases h3
          · rintro ⟨b, _, h3⟩
            rw [h2] at h3
            exact absurd h3 (not_verified_new _ _ _ _)
      rw [hiff]
      by_cases hem : (keysWithSuffix r.1 sDigest).isEmpty = true
      · have h0 : keysWithSuffix r.1 sDigest = [] := by simpa using hem
        simp only [h0, List.isEmpty_nil, Bool.and_self, if_true, matchDigest, Except.ok.injEq,
          Bool.false_eq_true, false_and, iff_false, not_exists]
        intro m' h
        split at h <;> simp at h
      · simp only [hem, Bool.false_and, Bool.false_eq_true, if_false]
        cases hm : matchDigest H (zipRead z n) r.1 sDigest (keysWithSuffix r.1 sDigest) with
        | error e => simp
        | ok v =>
          cases v with
          | true => simp [ih r.2 hg2]
          | false =>
            simp only [Except.ok.injEq, Bool.false_eq_true, false_and, iff_false, not_exists]
            intro m' h
            split at h <;> simp at h

/-- A section of the manifest is the one recorded in the signature file, with the algorithms that
are named in the section of the manifest. -/
def SectionVerified (H : Hashes) (ls : Option Str) (sf : Manifest) (s : Section) : Prop :=
  ∃ l b t, ls = some l ∧ sectionData s l = .ok b ∧ PyDict.get? sf.subs (primary s) = some t ∧
    Verified H (keysWithSuffix s sDigest) t sDigest b

theorem verifySections_iff (H : Hashes) (ls : Option Str) (sf0 sf : Manifest) (ss : List Section)
    (hg : SameOrNew sf0 sf) :
    (∃ sf', verifySections H true ls sf ss = .ok ([], sf')) ↔ ∀ s ∈ ss, SectionVerified H ls sf0 s := by
  induction ss generalizing sf with
  | nil => simp [verifySections]
  | cons s ss ih =>
    simp only [verifySections, List.mem_cons, forall_eq_or_imp]
    obtain ⟨hg2, hget⟩ := sameOrNew_create hg (primary s)
    generalize createSection sf (primary s) false = r at hg2 hget
    have hiff : SectionVerified H ls sf0 s ↔
        matchDigest H (sectionDataOpt s ls) r.1 sDigest (keysWithSuffix s sDigest) = .ok true := by
      rw [matchDigest_true_iff]
      unfold SectionVerified
      rcases hget with h1 | ⟨h1, h2⟩
      · constructor
        · rintro ⟨l, b, t, rfl, h2, h3, h4⟩
          rw [h1] at h3
          obtain rfl := Option.some.inj h3
          exact ⟨b, h2, h4⟩
        · rintro ⟨b, h2, h3⟩
          cases ls with
          | none => cases h2
          | some l => exact ⟨l, b, _, rfl, h2, h1, h3⟩
      · constructor
        · rintro ⟨_, b, t, _, _, h3, _⟩
          rw [h1] at h3
          cases h3
        · rintro ⟨b, _, h3⟩
          rw [h2] at h3
          exact absurd h3 (not_verified_new _ _ _ _)
    rw [hiff]
    by_cases hem : (keysWithSuffix s sDigest).isEmpty = true
    · have h0 : keysWithSuffix s sDigest = [] := by simpa using hem
      simp only [h0, List.isEmpty_nil, Bool.and_self, if_true, matchDigest, Except.ok.injEq,
        Bool.false_eq_true, false_and, iff_false, not_exists]
      intro m' h
      split at h <;> simp at h
    · simp only [hem, Bool.false_and, Bool.false_eq_true, if_false]
      cases hm : matchDigest H (sectionDataOpt s ls) r.1 sDigest (keysWithSuffix s sDigest) with
      | error e => simp
      | ok v =>
        cases v with
        | true => simp [ih r.2 hg2]
        | false =>
          simp only [Except.ok.injEq, Bool.false_eq_true, false_and, iff_false, not_exists]
          intro m' h
          split at h <;> simp at h

/-- The manifest is the one recorded in the signature file: either as a whole or, if that digest
is absent or another one, its main section and each of its sections. -/
def ManifestVerified (H : Hashes) (sf m : Manifest) : Prop :=
  (∃ b, m.getData = .ok b ∧
    Verified H (keysWithSuffix sf.main sDigestManifest) sf.main sDigestManifest b) ∨
  (Unmatched H (keysWithSuffix sf.main sDigestManifest) sf.main sDigestManifest m.getData ∧
    (∃ b, m.getMain = .ok b ∧ Verified H (keysWithSuffix sf.main sDigestMain) sf.main sDigestMain b) ∧
    ∀ p ∈ m.subs, SectionVerified H m.linesep sf p.2)

theorem verifyManifest_iff (H : Hashes) (sf m : Manifest) :
    verifyManifest H sf m = .ok [] ↔ ManifestVerified H sf m := by
  unfold verifyManifest ManifestVerified
  rw [← matchDigest_true_iff, ← matchDigest_false_iff, ← matchDigest_true_iff]
  have hs : (∀ p ∈ m.subs, SectionVerified H m.linesep sf p.2) ↔
      ∀ s ∈ m.subs.map Prod.snd, SectionVerified H m.linesep sf s := by
    exact ⟨fun h s hs => by
      obtain ⟨p, hp, rfl⟩ := List.mem_map.1 hs
      exact h p hp, fun h p hp => h _ (List.mem_map.2 ⟨p, hp, rfl⟩)⟩
  rw [hs, ← verifySections_iff H m.linesep sf sf _ fun n => .inl rfl]
  unfold verifyWhole verifyMain
  cases matchDigest H m.getData sf.main sDigestManifest (keysWithSuffix sf.main sDigestManifest) with
  | error e => simp
  | ok v =>
    cases v with
    | true => simp
    | false =>
      simp only [Except.ok.injEq, Bool.false_eq_true, false_or, true_and]
      cases matchDigest H m.getMain sf.main sDigestMain (keysWithSuffix sf.main sDigestMain) with
      | error e => simp
      | ok v =>
        cases v with
        | false => simp
        | true =>
          cases verifySections H true m.linesep sf (m.subs.map Prod.snd) with
          | error e => simp
          | ok r =>
            obtain ⟨fails, sf'⟩ := r
            simp

/-- C49, exactly: which archives are accepted. A signature file can be chosen, there is a block file
for it, the block is accepted for the bytes of the signature file, the signature file and the
manifest can be read, the manifest is the one recorded in the signature file, and every entry that
is not exempt has, when it is read by name, a content recorded in the manifest. -/
theorem C49_exact (C : Crypto) (H : Hashes) (cert : Str) (z : Zip) (sfName : Option Str)
    (hup : IsUpper up) (hid : ∀ s, upperWith up (upperWith up s) = upperWith up s) :
    verify up C H cert z sfName = .ok () ↔
    ∃ f b sfData sig mfData sf m, Chosen up (namelist z) sfName f ∧
      BlockFor (namelist z) (keyAlias f) b ∧ zipRead z f = .ok sfData ∧ zipRead z b = .ok sig ∧
      C.verifyBlock cert sfData sig = .ok () ∧ (emptySignature none).parse sfData = .ok sf ∧
      zipRead z sManifestMf = .ok mfData ∧ emptyManifest.parse mfData = .ok m ∧
      ManifestVerified H sf m ∧
      ∀ e ∈ namelist z, ¬ ExemptBy up e → EntryVerified H z m e := by
  have hent : ∀ m, (∀ e ∈ namelist z, ¬ ExemptBy up e → EntryVerified H z m e) ↔
      ∃ m', verifyJarChecksums up H m z = .ok ([], m') := by
    intro m
    unfold verifyJarChecksums
    rw [verifyEntries_iff up H z m m _ fun n => .inl rfl]
    simp only [← C53_exact up hup hid, Bool.not_eq_true]
  have hload : ∀ m, loadFromJar z = .ok m ↔
      ∃ d, zipRead z sManifestMf = .ok d ∧ emptyManifest.parse d = .ok m := by
    intro m
    unfold loadFromJar
    by_cases hn : sManifestMf ∈ namelist z
    · rw [if_neg (by simpa using hn)]
      obtain ⟨b, hb, _⟩ := zipRead_mem hn
      simp [hb]
    · rw [if_pos hn]
      have : zipRead z sManifestMf = .error .keyError := by
        unfold zipRead
        have : PyDict.get? z.reverse sManifestMf = none := by
          rw [PyDict.get?_eq_none_iff]
          simpa [PyDict.keys, namelist] using hn
        rw [this]
      simp [this]
  have hcont : ∀ sfData, verifyContents up H z sfData = .ok () ↔
      ∃ sf m, (emptySignature none).parse sfData = .ok sf ∧ loadFromJar z = .ok m ∧
        ManifestVerified H sf m ∧ ∃ m', verifyJarChecksums up H m z = .ok ([], m') := by
    intro sfData
    unfold verifyContents
    cases (emptySignature none).parse sfData with
    | error e => simp
    | ok sf =>
      cases loadFromJar z with
      | error e => simp
      | ok m =>
        simp only [Except.ok.injEq, exists_and_left, exists_eq_left']
        rw [← verifyManifest_iff]
        cases verifyManifest H sf m with
        | error e => simp
        | ok fs =>
          cases fs with
          | cons f fs => simp
          | nil =>
            simp only [true_and]
            cases verifyJarChecksums up H m z with
            | error e => simp
            | ok r =>
              obtain ⟨fails, m'⟩ := r
              cases fails <;> simp
  constructor
  · intro h
    obtain ⟨f, b, sfData, sig, h1, h2, h3, h4, h5, h6⟩ := C54_accepts up C H cert z sfName h
    obtain ⟨sf, m, g1, g2, g3, g4⟩ := (hcont sfData).1 h6
    obtain ⟨d, g5, g6⟩ := (hload m).1 g2
    exact ⟨f, b, sfData, sig, d, sf, m, h1, h2, h3, h4, h5, g1, g5, g6, g3, (hent m).2 g4⟩
  · rintro ⟨f, b, sfData, sig, d, sf, m, h1, h2, h3, h4, h5, g1, g5, g6, g3, g4⟩
    obtain ⟨sfData', sig', q1, q2, q3, _⟩ := C54_used up C H cert z sfName f b h1 h2
    rw [h3] at q1
    rw [h4] at q2
    obtain rfl := Except.ok.inj q1
    obtain rfl := Except.ok.inj q2
    rw [q3 h5]
    exact (hcont sfData).2 ⟨sf, m, g1, (hload m).2 ⟨d, g5, g6⟩, g3, (hent m).1 g4⟩

/-- Capitals are left alone by the part of the mapping that is used in the examples. -/
theorem upLongS_idem (s : Str) : upperWith upLongS (upperWith upLongS s) = upperWith upLongS s := by
  have h1 : ∀ c, upperWith upLongS (upLongS c) = upLongS c := by
    intro c
    unfold upLongS
    by_cases h : c.toNat < 128
    · rw [if_pos h]
      have ha : AsciiText [c.toUpper] := by
        have := asciiUpper_ascii (s := [c]) (by intro d hd; rw [List.mem_singleton.1 hd]; exact h)
        exact this
      have := upperWith_ascii upLongS_isUpper ha
      unfold upLongS at this
      rw [this]
      exact asciiUpper_idem [c]
    · rw [if_neg h]
      by_cases h2 : c.toNat = 0x17f
      · rw [if_pos h2]
        decide
      · rw [if_neg h2]
        simp [upperWith, h, h2]
  unfold upperWith
  rw [List.flatMap_assoc]
  congr 1
  funext c
  exact h1 c

/-- A name that is exempt only because 'ſ' becomes 'S' and one that is not exempt. -/
example : ExemptBy upLongS "META-INF/x.ſf".toList ∧ ¬ ExemptBy upLongS "META-INF/a/x.SF".toList := by
  rw [← C53_exact upLongS upLongS_isUpper upLongS_idem, ← C53_exact upLongS upLongS_isUpper upLongS_idem]
  decide +kernel

end Javatools
