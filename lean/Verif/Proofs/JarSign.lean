import Verif.Props.JarVerify
import Verif.Props.ManifestRound
import Verif.Proofs.Text
/-
What signing an archive produces.
-/
namespace Javatools

variable (up : Char → Str)

/-! ### Digest attributes -/

/-- A section that records the digest of some bytes. -/
def digestSection (h : Bytes → Bytes) (alg name : Str) (b : Bytes) : Section :=
  [(kName, name), (alg ++ sDigest, b64encode (h b))]

/-- What is used of the names of digest attributes. -/
structure KeyFacts (k : Str) : Prop where
  legal : ∀ c ∈ k, NameChar c
  ne : k ≠ []
  short : k.length ≤ 68
  name : k ≠ kName
  version : k ≠ kSignatureVersion

theorem key_facts {alg suf : Str} (ha : alg ∈ supported) (hs : IsDigestSuffix suf) :
    KeyFacts (alg ++ suf) := by
  have h : ∀ a ∈ supported, ∀ s ∈ [sDigest, sDigestManifest, sDigestMain],
      (∀ c ∈ a ++ s, c.isAlphanum = true ∨ c = '-' ∨ c = '_') ∧ a ++ s ≠ [] ∧
        (a ++ s).length ≤ 68 ∧ a ++ s ≠ kName ∧ a ++ s ≠ kSignatureVersion := by decide +kernel
  have hs' : suf ∈ [sDigest, sDigestManifest, sDigestMain] := by
    rcases hs with rfl | rfl | rfl <;> simp
  obtain ⟨h1, h2, h3, h4, h5⟩ := h alg ha suf hs'
  exact ⟨h1, h2, h3, h4, h5⟩

theorem b64_printable (b : Bytes) : Printable (b64encode b) := by
  intro c hc
  have := b64encode_ascii b c hc
  omega

theorem digest_round {ls alg suf : Str} (hls : IsSep ls) (ha : alg ∈ supported)
    (hs : IsDigestSuffix suf) {b : Bytes} (hb : b ≠ []) : RoundItem ls (alg ++ suf, b64encode b) := by
  have hk := key_facts ha hs
  have hl := legal_key hk.legal
  exact printable_round hls _ hl.1 hl.2 hk.ne hk.short (b64_printable b) (b64encode_ne_nil hb)

theorem setItem_new {name k v : Str} (hk : KeyFacts k) :
    setItem (newSection name) k v = .ok [(kName, name), (k, v)] := by
  unfold setItem
  rw [if_neg (by have := hk.short; omega)]
  unfold newSection
  rw [PyDict.set_of_not_mem]
  · rfl
  · simp only [PyDict.keys, List.map_cons, List.map_nil, List.mem_singleton]
    exact hk.name

theorem digestSection_keys {alg : Str} (ha : alg ∈ supported) (h : Bytes → Bytes) (name : Str)
    (b : Bytes) : keysWithSuffix (digestSection h alg name b) sDigest = [alg] := by
  have key : ∀ a ∈ supported, keysWithSuffix [(kName, []), (a ++ sDigest, [])] sDigest = [a] := by
    decide +kernel
  have := key alg ha
  simpa [keysWithSuffix, digestSection, PyDict.keys] using this

theorem digestSection_get {alg : Str} (ha : alg ∈ supported) (h : Bytes → Bytes) (name : Str)
    (b : Bytes) : PyDict.get? (digestSection h alg name b) (alg ++ sDigest) = some (b64encode (h b)) := by
  have := (key_facts ha (.inl rfl : IsDigestSuffix sDigest)).name
  simp [digestSection, PyDict.get?, this.symm]

theorem digestSection_get' {alg alg' : Str} {h : Bytes → Bytes} {name : Str} {b : Bytes} {v : Str}
    (hg : PyDict.get? (digestSection h alg name b) (alg' ++ sDigest) = some v) :
    alg' = alg ∧ v = b64encode (h b) := by
  have hm := PyDict.mem_of_get? hg
  simp only [digestSection, List.mem_cons, Prod.mk.injEq, List.not_mem_nil, or_false] at hm
  rcases hm with ⟨h1, _⟩ | ⟨h1, h2⟩
  · exfalso
    have := congrArg List.getLast? h1
    rw [List.getLast?_append] at this
    have e1 : sDigest.getLast? = some 't' := by decide
    have e2 : kName.getLast? = some 'e' := by decide
    rw [e1, e2] at this
    simp at this
  · exact ⟨List.append_cancel_right h1, h2⟩

theorem digestSection_primary (h : Bytes → Bytes) (alg name : Str) (b : Bytes) :
    primary (digestSection h alg name b) = name := by
  simp [primary, digestSection, PyDict.get?]

/-! ### Adding the entries -/

theorem addEntries_spec {h : Bytes → Bytes} {alg : Str} (ha : alg ∈ supported) {z : Zip}
    {m m' : Manifest} {names : List Str}
    (hadd : addEntries up h (alg ++ sDigest) z m names = .ok m') :
    m'.main = m.main ∧ m'.linesep = m.linesep ∧
      ((PyDict.keys m.subs).Nodup → (PyDict.keys m'.subs).Nodup) ∧
      (∀ f ∈ names, skipsVerification up f = false → ∃ b, zipRead z f = .ok b ∧
        PyDict.get? m'.subs f = some (digestSection h alg f b)) ∧
      ∀ f, ¬ (f ∈ names ∧ skipsVerification up f = false) →
        PyDict.get? m'.subs f = PyDict.get? m.subs f := by
  induction names generalizing m with
  | nil =>
    simp only [addEntries, Except.ok.injEq] at hadd
    subst hadd
    simp
  | cons n names ih =>
    simp only [addEntries] at hadd
    by_cases hsk : skipsVerification up n = true
    · rw [if_pos hsk] at hadd
      obtain ⟨h1, h2, h3, h4, h5⟩ := ih hadd
      refine ⟨h1, h2, h3, ?_, ?_⟩
      · intro f hf hs
        rcases List.mem_cons.1 hf with rfl | hf
        · rw [hs] at hsk; simp at hsk
        · exact h4 f hf hs
      · intro f hf
        exact h5 f fun ⟨h6, h7⟩ => hf ⟨by simp [h6], h7⟩
    · rw [if_neg hsk] at hadd
      split at hadd
      · simp at hadd
      · rename_i b hb
        rw [setItem_new (key_facts ha (.inl rfl))] at hadd
        simp only at hadd
        obtain ⟨h1, h2, h3, h4, h5⟩ := ih hadd
        refine ⟨h1, h2, fun hn => h3 (PyDict.nodup_keys_set _ _ _ hn), ?_, ?_⟩
        · intro f hf hs
          by_cases hfn : f ∈ names
          · exact h4 f hfn hs
          · rcases List.mem_cons.1 hf with rfl | hf
            · refine ⟨b, hb, ?_⟩
              rw [h5 f fun hx => hfn hx.1]
              simp only [PyDict.get?_set, if_true]
              rfl
            · exact absurd hf hfn
        · intro f hf
          rw [h5 f fun ⟨h6, h7⟩ => hf ⟨by simp [h6], h7⟩]
          simp only [PyDict.get?_set]
          rw [if_neg]
          rintro rfl
          exact hf ⟨by simp, by simpa using hsk⟩

/-- The sections after adding the entries. -/
theorem added_cases {h : Bytes → Bytes} {alg : Str} (ha : alg ∈ supported) {z : Zip}
    {m m' : Manifest} {names : List Str} (hn : (PyDict.keys m.subs).Nodup)
    (hadd : addEntries up h (alg ++ sDigest) z m names = .ok m') {p : Str × Section}
    (hp : p ∈ m'.subs) :
    (p.1 ∈ names ∧ skipsVerification up p.1 = false ∧
        ∃ b, zipRead z p.1 = .ok b ∧ p.2 = digestSection h alg p.1 b) ∨
      (¬ (p.1 ∈ names ∧ skipsVerification up p.1 = false) ∧ p ∈ m.subs) := by
  obtain ⟨_, _, h3, h4, h5⟩ := addEntries_spec up ha hadd
  have hg := PyDict.get?_of_mem_nodup (h3 hn) (k := p.1) (v := p.2) hp
  by_cases hc : p.1 ∈ names ∧ skipsVerification up p.1 = false
  · left
    obtain ⟨b, hb, hs⟩ := h4 p.1 hc.1 hc.2
    rw [hg] at hs
    exact ⟨hc.1, hc.2, b, hb, Option.some.inj hs⟩
  · right
    rw [h5 p.1 hc] at hg
    exact ⟨hc, PyDict.mem_of_get? hg⟩

/-! ### The signature manifest -/

theorem digestSections_spec {h : Bytes → Bytes} {alg ls : Str} (ha : alg ∈ supported)
    {sf sf' : Manifest} {acc acc' : Bytes} {ss : List Section}
    (hn : (PyDict.keys sf.subs ++ ss.map primary).Nodup)
    (hd : digestSections h (alg ++ sDigest) ls sf acc ss = .ok (sf', acc')) :
    ∃ w ds, writeSections ls ss = .ok w ∧ acc' = acc ++ w ∧ sf'.main = sf.main ∧
      sf'.linesep = sf.linesep ∧ allData ls ss = .ok ds ∧
      sf'.subs = sf.subs ++ ds.map fun p => (primary p.2, digestSection h alg (primary p.2) p.1) := by
  induction ss generalizing sf acc with
  | nil =>
    simp only [digestSections, Except.ok.injEq, Prod.mk.injEq] at hd
    obtain ⟨rfl, rfl⟩ := hd
    exact ⟨[], [], rfl, by simp, rfl, rfl, rfl, by simp⟩
  | cons s ss ih =>
    simp only [digestSections] at hd
    split at hd
    · simp at hd
    · rename_i b hb
      rw [setItem_new (key_facts ha (.inl rfl))] at hd
      simp only at hd
      have hnot : primary s ∉ PyDict.keys sf.subs := by
        rw [List.map_cons] at hn
        intro hm
        exact (List.nodup_append.1 hn).2.2 _ hm _ (by simp) rfl
      rw [PyDict.set_of_not_mem _ _ _ hnot] at hd
      obtain ⟨w, ds, h1, h2, h3, h4, h5, h6⟩ := ih (sf := { sf with subs := sf.subs ++ [(primary s,
        [(kName, primary s), (alg ++ sDigest, b64encode (h b))])] }) (by
          simp only [PyDict.keys, List.map_append, List.map_cons, List.map_nil] at hn ⊢
          simpa using hn) hd
      refine ⟨b ++ w, (b, s) :: ds, ?_, by rw [h2, List.append_assoc], h3, h4, ?_, ?_⟩
      · simp only [writeSections, hb, h1]
      · simp only [allData, hb, h5]
      · rw [h6]
        simp [digestSection]

/-- The main section of a signature file. -/
def sfMain (h : Bytes → Bytes) (alg : Str) (main whole : Bytes) : Section :=
  [(kSignatureVersion, "1.0".toList), (alg ++ sDigestMain, b64encode (h main)),
    (alg ++ sDigestManifest, b64encode (h whole))]

theorem digestManifest_spec {H : Hashes} {h : Bytes → Bytes} {alg ls : Str}
    (hg : H.get alg = .ok h) {m sf : Manifest} (hm : m.linesep = some ls) (hls : IsSep ls)
    (hn : (m.subs.map fun p => primary p.2).Nodup)
    (hd : digestManifest H (emptySignature m.linesep) m alg = .ok sf) :
    ∃ main w ds, sectionData m.main ls = .ok main ∧ writeSections ls (m.subs.map Prod.snd) = .ok w ∧
      allData ls (m.subs.map Prod.snd) = .ok ds ∧
      sf = { main := sfMain h alg main (main ++ w)
             subs := ds.map fun p => (primary p.2, digestSection h alg (primary p.2) p.1)
             linesep := some ls } := by
  have ha := get_supported hg
  have hk1 := key_facts ha (.inr (.inr rfl) : IsDigestSuffix sDigestMain)
  have hk2 := key_facts ha (.inr (.inl rfl) : IsDigestSuffix sDigestManifest)
  have hor : orLinesep none m.linesep = ls := by
    rw [hm]
    rcases hls with rfl | rfl <;> rfl
  unfold digestManifest at hd
  simp only [hg, hor, Manifest.getMain] at hd
  split at hd
  · simp at hd
  · rename_i main hmain
    split at hd
    · simp at hd
    · rename_i main1 hset1
      split at hd
      · simp at hd
      · rename_i sf1 acc hds
        split at hd
        · simp at hd
        · rename_i main2 hset2
          simp only [Except.ok.injEq] at hd
          obtain ⟨w, ds, h1, h2, h3, h4, h5, h6⟩ := digestSections_spec ha (by
            simpa [emptySignature, Manifest.new, PyDict.keys, Function.comp_def] using hn) hds
          refine ⟨main, w, ds, hmain, h1, h5, ?_⟩
          subst hd
          simp only [emptySignature, Manifest.new] at hset1 h3 h4 h6
          unfold setItem at hset1 hset2
          rw [if_neg (by have := hk1.short; omega)] at hset1
          rw [if_neg (by have := hk2.short; omega), h3] at hset2
          have e1 : main1 = [(kSignatureVersion, "1.0".toList),
              (alg ++ sDigestMain, b64encode (h main))] := by
            have := Except.ok.inj hset1
            rw [← this, PyDict.set_of_not_mem]
            · rfl
            · simp only [PyDict.keys, List.map_cons, List.map_nil, List.mem_singleton]
              exact hk1.version
          have hne : alg ++ sDigestManifest ≠ alg ++ sDigestMain := by
            intro h
            exact absurd (List.append_cancel_left h) (by decide)
          have e2 : main2 = sfMain h alg main acc := by
            have := Except.ok.inj hset2
            rw [← this, e1, PyDict.set_of_not_mem]
            · rfl
            · simp only [PyDict.keys, List.map_cons, List.map_nil, List.mem_cons,
                List.not_mem_nil, or_false, not_or]
              exact ⟨hk2.version, hne⟩
          simp only [e2, h2, h6, List.nil_append, h4, hm]

/-! ### The new archive -/

theorem zipRead_nil (n : Str) : zipRead [] n = .error .keyError := rfl

theorem zipRead_cons (p : Str × Bytes) (z : Zip) (n : Str) :
    zipRead (p :: z) n =
      if n ∈ namelist z then zipRead z n else if p.1 = n then .ok p.2 else .error .keyError := by
  have key : ∀ (l : Zip) (q : Str × Bytes), PyDict.get? (l ++ [q]) n =
      (PyDict.get? l n).or (if q.1 = n then some q.2 else none) := by
    intro l q
    induction l with
    | nil => simp [PyDict.get?]
    | cons x l ih =>
      simp only [List.cons_append, PyDict.get?]
      split
      · simp
      · exact ih
  unfold zipRead
  rw [List.reverse_cons, key]
  by_cases hn : n ∈ namelist z
  · rw [if_pos hn]
    have h1 : n ∈ PyDict.keys z.reverse := by simpa [PyDict.keys, namelist] using hn
    cases hg : PyDict.get? z.reverse n with
    | none => exact absurd h1 ((PyDict.get?_eq_none_iff _ _).1 hg)
    | some b => simp
  · rw [if_neg hn]
    have h1 : PyDict.get? z.reverse n = none := by
      rw [PyDict.get?_eq_none_iff]
      simpa [PyDict.keys, namelist] using hn
    rw [h1]
    simp only [Option.none_or]
    by_cases he : p.1 = n
    · simp [he]
    · simp [he]

theorem copyEntries_spec {z rest : Zip} {names : List Str} (h : copyEntries up z names = .ok rest) :
    namelist rest = names.filter (fun n => ¬ upperWith up n = sManifestMf) ∧
      ∀ p ∈ rest, zipRead z p.1 = .ok p.2 := by
  induction names generalizing rest with
  | nil =>
    simp only [copyEntries, Except.ok.injEq] at h
    subst h
    simp [namelist]
  | cons n names ih =>
    simp only [copyEntries] at h
    by_cases hu : upperWith up n = sManifestMf
    · rw [if_pos hu] at h
      obtain ⟨h1, h2⟩ := ih h
      refine ⟨?_, h2⟩
      rw [h1, List.filter_cons_of_neg]
      simpa using hu
    · rw [if_neg hu] at h
      split at h
      · simp at h
      · rename_i b hb
        split at h
        · simp at h
        · rename_i r hr
          simp only [Except.ok.injEq] at h
          subst h
          obtain ⟨h1, h2⟩ := ih hr
          constructor
          · rw [List.filter_cons_of_pos (by simpa using hu), ← h1]
            rfl
          · intro p hp
            rcases List.mem_cons.1 hp with rfl | hp
            · exact hb
            · exact h2 p hp

theorem copied_read {z rest : Zip} {names : List Str} (h : copyEntries up z names = .ok rest)
    {n : Str} (hn : n ∈ namelist rest) : zipRead rest n = zipRead z n := by
  obtain ⟨b, hb, hm⟩ := zipRead_mem hn
  rw [hb, (copyEntries_spec up h).2 _ hm]

/-- The parts of a successful signing. -/
structure Signed (C : Crypto) (H : Hashes) (z : Zip) (cert key alias : Str)
    (extra : Option (List Str)) (alg : Str) (z' : Zip) where
  m0 : Manifest
  m : Manifest
  sf : Manifest
  h : Bytes → Bytes
  ext : Str
  sfData : Bytes
  sig : Bytes
  mfData : Bytes
  rest : Zip
  load : loadFromJar z = .ok m0
  get : H.get alg = .ok h
  add : addEntries up h (alg ++ sDigest) z m0 (namelist z) = .ok m
  digest : digestManifest H (emptySignature m.linesep) m alg = .ok sf
  kind : C.keyType key = .ok ext
  sfD : sf.getData = .ok sfData
  block : C.signBlock alg cert key extra sfData = .ok sig
  mfD : m.getData = .ok mfData
  copy : copyEntries up z (namelist z) = .ok rest
  eq : z' = (sManifestMf, mfData) :: (zipName (sMetaInfDir ++ alias ++ ".SF".toList), sfData) ::
    (zipName (sMetaInfDir ++ alias ++ '.' :: ext), sig) :: rest

theorem sign_signed {C : Crypto} {H : Hashes} {z : Zip} {cert key alias : Str}
    {extra : Option (List Str)} {alg : Str} {z' : Zip}
    (hs : sign up C H z cert key alias extra alg = .ok z') :
    Nonempty (Signed up C H z cert key alias extra alg z') := by
  unfold sign at hs
  split at hs
  · simp at hs
  · rename_i m0 h0
    split at hs
    · simp at hs
    · rename_i m h1
      split at hs
      · simp at hs
      · rename_i sf h2
        split at hs
        · simp at hs
        · rename_i ext h3
          split at hs
          · simp at hs
          · rename_i h h4
            split at hs
            · simp at hs
            · rename_i sfData h5
              split at hs
              · simp at hs
              · rename_i sig h6
                split at hs
                · simp at hs
                · rename_i mfData h7
                  split at hs
                  · simp at hs
                  · rename_i rest h8
                    simp only [Except.ok.injEq] at hs
                    unfold addJarEntries at h1
                    rw [h4] at h1
                    exact ⟨⟨m0, m, sf, h, ext, sfData, sig, mfData, rest, h0, h4, h1, h2, h3, h5, h6,
                      h7, h8, hs.symm⟩⟩

/-! ### Accepting -/

theorem matchDigest_ok {H : Hashes} {b : Bytes} {s : Section} {suf : Str} {ds : List Str}
    (hd : ∀ d ∈ ds, ∃ h, H.get d = .ok h) : ∃ r, matchDigest H (.ok b) s suf ds = .ok r := by
  induction ds with
  | nil => exact ⟨false, rfl⟩
  | cons d ds ih =>
    obtain ⟨h, hh⟩ := hd d (by simp)
    simp only [matchDigest, hh]
    split
    · exact ⟨true, rfl⟩
    · exact ih fun x hx => hd x (by simp [hx])

theorem matchDigest_hit {H : Hashes} {b : Bytes} {s : Section} {suf : Str} {ds : List Str}
    (hd : ∀ d ∈ ds, ∃ h, H.get d = .ok h) {alg : Str} {h : Bytes → Bytes} (ha : alg ∈ ds)
    (hg : H.get alg = .ok h) (hs : PyDict.get? s (alg ++ suf) = some (b64encode (h b))) :
    matchDigest H (.ok b) s suf ds = .ok true := by
  induction ds with
  | nil => simp at ha
  | cons d ds ih =>
    obtain ⟨k, hk⟩ := hd d (by simp)
    simp only [matchDigest, hk]
    split
    · rfl
    · rename_i hne
      rcases List.mem_cons.1 ha with rfl | ha
      · rw [hg] at hk
        rw [← Except.ok.inj hk, hs] at hne
        exact absurd rfl hne
      · exact ih (fun x hx => hd x (by simp [hx])) ha

theorem create_existing {m : Manifest} {n : Str} {s : Section} (h : PyDict.get? m.subs n = some s) :
    createSection m n false = (s, m) := (C69_keep m n).1 s h

/-- A section that the signature file vouches for. -/
structure SectionOk (H : Hashes) (h : Bytes → Bytes) (alg ls : Str) (sf : Manifest) (s : Section) :
    Prop where
  present : alg ∈ keysWithSuffix s sDigest
  known : ∀ d ∈ keysWithSuffix s sDigest, ∃ k, H.get d = .ok k
  data : ∃ b t, sectionData s ls = .ok b ∧ PyDict.get? sf.subs (primary s) = some t ∧
    PyDict.get? t (alg ++ sDigest) = some (b64encode (h b))

theorem verifySections_ok {H : Hashes} {h : Bytes → Bytes} {alg ls : Str} (hg : H.get alg = .ok h)
    {sf : Manifest} {ss : List Section} (hs : ∀ s ∈ ss, SectionOk H h alg ls sf s) :
    verifySections H true (some ls) sf ss = .ok ([], sf) := by
  induction ss with
  | nil => rfl
  | cons s ss ih =>
    have h1 := hs s (by simp)
    obtain ⟨b, t, h2, h3, h4⟩ := h1.data
    simp only [verifySections, create_existing h3, sectionDataOpt, h2]
    rw [if_neg, matchDigest_hit h1.known h1.present hg h4]
    · exact ih fun x hx => hs x (by simp [hx])
    · have := h1.present
      cases hk : keysWithSuffix s sDigest with
      | nil => rw [hk] at this; simp at this
      | cons a l => simp

theorem verifyEntries_ok {H : Hashes} {h : Bytes → Bytes} {alg : Str} (hg : H.get alg = .ok h)
    {z : Zip} {m : Manifest} {names : List Str}
    (hs : ∀ f ∈ names, skipsVerification up f = false →
      ∃ b, zipRead z f = .ok b ∧ PyDict.get? m.subs f = some (digestSection h alg f b)) :
    verifyEntries up H z true m names = .ok ([], m) := by
  induction names with
  | nil => rfl
  | cons f names ih =>
    have ih := ih fun x hx => hs x (by simp [hx])
    simp only [verifyEntries]
    by_cases hsk : skipsVerification up f = true
    · rw [if_pos hsk]
      exact ih
    · rw [if_neg hsk]
      obtain ⟨b, h1, h2⟩ := hs f (by simp) (by simpa using hsk)
      simp only [create_existing h2]
      have ha := get_supported hg
      rw [digestSection_keys ha, h1, matchDigest_hit (alg := alg) (h := h) (b := b)]
      · simp only [List.isEmpty_cons, Bool.false_and, Bool.false_eq_true, if_false]
        exact ih
      · intro d hd
        rw [List.mem_singleton.1 hd]
        exact ⟨h, hg⟩
      · simp
      · exact hg
      · exact digestSection_get ha h f b

theorem sfMain_manifest {alg : Str} (ha : alg ∈ supported) (h : Bytes → Bytes) (a b : Bytes) :
    keysWithSuffix (sfMain h alg a b) sDigestManifest = [alg] := by
  have key : ∀ x ∈ supported, keysWithSuffix [(kSignatureVersion, []), (x ++ sDigestMain, []),
      (x ++ sDigestManifest, [])] sDigestManifest = [x] := by decide +kernel
  have := key alg ha
  simpa [keysWithSuffix, sfMain, PyDict.keys] using this

theorem sfMain_main {alg : Str} (ha : alg ∈ supported) (h : Bytes → Bytes) (a b : Bytes) :
    keysWithSuffix (sfMain h alg a b) sDigestMain = [alg] ∧
      PyDict.get? (sfMain h alg a b) (alg ++ sDigestMain) = some (b64encode (h a)) := by
  have key : ∀ x ∈ supported, keysWithSuffix [(kSignatureVersion, []), (x ++ sDigestMain, []),
      (x ++ sDigestManifest, [])] sDigestMain = [x] := by decide +kernel
  have := key alg ha
  refine ⟨by simpa [keysWithSuffix, sfMain, PyDict.keys] using this, ?_⟩
  have hk := (key_facts ha (.inr (.inr rfl) : IsDigestSuffix sDigestMain)).version
  simp [sfMain, PyDict.get?, hk.symm]

/-- When the contents of an archive are accepted. -/
theorem contents_ok {H : Hashes} {h : Bytes → Bytes} {alg ls : Str} (hg : H.get alg = .ok h)
    (hls : IsSep ls) {z : Zip} {sfData : Bytes} {sf m : Manifest}
    (hsf : (emptySignature none).parse sfData = .ok sf) (hm : loadFromJar z = .ok m)
    (hsep : m.linesep = some ls) {main whole mf : Bytes} (hmain : sf.main = sfMain h alg main whole)
    (hmd : sectionData m.main ls = .ok main) (hmf : m.getData = .ok mf)
    (hsec : ∀ s ∈ m.subs.map Prod.snd, SectionOk H h alg ls sf s)
    (hent : ∀ f ∈ namelist z, skipsVerification up f = false →
      ∃ b, zipRead z f = .ok b ∧ PyDict.get? m.subs f = some (digestSection h alg f b)) :
    verifyContents up H z sfData = .ok () := by
  have ha := get_supported hg
  have hjar : verifyJarChecksums up H m z = .ok ([], m) := verifyEntries_ok up hg hent
  have hor : orLinesep none m.linesep = ls := by
    rw [hsep]
    rcases hls with rfl | rfl <;> rfl
  have hman : verifyManifest H sf m = .ok [] := by
    unfold verifyManifest
    obtain ⟨r, hr⟩ : ∃ r, verifyWhole H sf m = .ok r := by
      unfold verifyWhole
      rw [hmf, hmain, sfMain_manifest ha]
      exact matchDigest_ok fun d hd => ⟨h, by rw [List.mem_singleton.1 hd]; exact hg⟩
    rw [hr]
    cases r with
    | true => rfl
    | false =>
      have hmm : verifyMain H sf m = .ok true := by
        unfold verifyMain Manifest.getMain
        rw [hor, hmd, hmain, (sfMain_main ha h main whole).1]
        refine matchDigest_hit (fun d hd => ⟨h, by rw [List.mem_singleton.1 hd]; exact hg⟩)
          (List.mem_singleton.2 rfl) hg (sfMain_main ha h main whole).2
      simp only [hmm]
      rw [hsep, verifySections_ok hg hsec]
  unfold verifyContents
  simp only [hsf, hm, hman, hjar]

/-! ### Exempt names of the new entries -/

theorem upper_append (a b : Str) : upperWith up (a ++ b) = upperWith up a ++ upperWith up b := by
  simp [upperWith]

theorem upper_const (hup : IsUpper up) {s : Str} (h : AsciiText s) (h2 : asciiUpper s = s) :
    upperWith up s = s := by rw [upperWith_ascii hup h, h2]

theorem skips_manifest (hup : IsUpper up) : skipsVerification up sManifestMf = true := by
  unfold skipsVerification
  rw [upper_const up hup (by unfold AsciiText; decide) (by decide)]
  simp

theorem skips_sf (hup : IsUpper up) {alias : Str} (ha : '/' ∉ alias) :
    skipsVerification up (sMetaInfDir ++ alias ++ ".SF".toList) = true ∧
      IsSf up (sMetaInfDir ++ alias ++ ".SF".toList) := by
  have e1 : upperWith up sMetaInfDir = sMetaInfDir :=
    upper_const up hup (by unfold AsciiText; decide) (by decide)
  have e2 : upperWith up ".SF".toList = ".SF".toList :=
    upper_const up hup (by unfold AsciiText; decide) (by decide)
  have key : ∀ a : Str, '/' ∉ a → IsSf up (sMetaInfDir ++ a ++ ".SF".toList) := by
    intro a ha
    refine ⟨a ++ ".SF".toList, by simp, ?_, sMetaInfDir ++ upperWith up a, ?_⟩
    · rw [List.mem_append, not_or]
      exact ⟨ha, by decide⟩
    · rw [upper_append, upper_append, e1, e2]
  refine ⟨?_, key alias ha⟩
  unfold skipsVerification
  simp only [upper_append, e1, e2]
  rw [(matchesSigfile_iff up _).2 (key (upperWith up alias)
    fun h => ha ((upper_slash hup alias).1 h))]
  simp

theorem skips_block (hup : IsUpper up) {alias ext : Str} (ha : '/' ∉ alias)
    (he : ext ∈ ["RSA".toList, "DSA".toList, "EC".toList]) :
    skipsVerification up (sMetaInfDir ++ alias ++ '.' :: ext) = true := by
  have e1 : upperWith up sMetaInfDir = sMetaInfDir :=
    upper_const up hup (by unfold AsciiText; decide) (by decide)
  have h0 : ∀ x ∈ ["RSA".toList, "DSA".toList, "EC".toList], (∀ c ∈ '.' :: x, c.toNat < 128) ∧
      asciiUpper ('.' :: x) = '.' :: x ∧ '/' ∉ '.' :: x := by decide
  obtain ⟨h1, h2, h3⟩ := h0 ext he
  have e2 : upperWith up ('.' :: ext) = '.' :: ext := upper_const up hup h1 h2
  unfold skipsVerification
  simp only [upper_append, e1, e2]
  have hb : matchesSigblock up (sMetaInfDir ++ upperWith up alias ++ '.' :: ext) = true := by
    unfold matchesSigblock
    rw [Bool.and_eq_true, inSigDir_iff, fnmatches_sig]
    refine ⟨⟨upperWith up alias ++ '.' :: ext, ?_, ?_⟩, ?_⟩
    · have : sMetaInfDir = sMetaInf ++ ['/'] := by decide
      rw [this]
      simp
    · rw [List.mem_append, not_or]
      exact ⟨fun h => ha ((upper_slash hup alias).1 h), h3⟩
    · have hd : (sMetaInfDir ++ upperWith up alias ++ '.' :: ext).drop 9 =
          upperWith up alias ++ '.' :: ext := by
        have h9 : sMetaInfDir.length = 9 := by decide
        rw [List.append_assoc, List.drop_append_of_le_length (by omega)]
        have : sMetaInfDir.drop 9 = [] := by decide
        rw [this, List.nil_append]
      rw [hd, upper_append, e2]
      simp only [List.mem_cons, List.not_mem_nil, or_false] at he
      rcases he with rfl | rfl | rfl
      · exact .inl ⟨_, rfl⟩
      · exact .inr (.inl ⟨_, rfl⟩)
      · exact .inr (.inr (.inl ⟨_, rfl⟩))
  rw [hb]
  simp

theorem zipName_id {n : Str} (h : '\x00' ∉ n) : zipName n = n := by
  unfold zipName
  induction n with
  | nil => rfl
  | cons c n ih =>
    rw [List.mem_cons, not_or] at h
    rw [List.takeWhile_cons, if_pos (by simpa using fun e => h.1 e.symm), ih h.2]

end Javatools
