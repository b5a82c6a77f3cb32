import Verif.Props.ManifestCli
/-
C91-C94 and C96: exit status and answers of the manifest and jarutil commands.
-/
namespace Javatools

variable (up : Char → Str)

/-! ### C91: `manifest v` -/

/-- Every digest attribute of the manifest is for an algorithm that is known. -/
def KnownDigests (H : Hashes) (m : Manifest) : Prop :=
  ∀ n s, PyDict.get? m.subs n = some s → ∀ d ∈ keysWithSuffix s sDigest, ∃ h, H.get d = .ok h

/-- Specification: the entry must match and does not. -/
def Faulty (H : Hashes) (m : Manifest) (z : Zip) (n : Str) : Prop :=
  ¬ Exempt n ∧ ¬ ∃ b, zipRead z n = .ok b ∧ EntryMatch H m n b

theorem new_no_keys (n : Str) : keysWithSuffix (newSection n) sDigest = [] := by
  simp only [newSection, keysWithSuffix, PyDict.keys, List.map_cons, List.map_nil]
  have : endsWith kName sDigest = false := by decide
  simp [this]

open Classical in
theorem verifyEntries_exact (hup : IsUpper up) {H : Hashes} {m0 m : Manifest} {z : Zip} (strict : Bool)
    (hk : KnownDigests H m0) (hg : Grown m0 m)
    (hkeep : ∀ n s, PyDict.get? m0.subs n = some s → PyDict.get? m.subs n = some s)
    (names : List Str) (hn : ∀ n ∈ names, n ∈ namelist z ∧ AsciiText n) :
    ∃ m', verifyEntries up H z strict m names =
      .ok (names.filter fun n => decide (Faulty H m0 z n), m') := by
  induction names generalizing m with
  | nil => exact ⟨m, rfl⟩
  | cons f fs ih =>
    have hfs := fun x (hx : x ∈ fs) => hn x (by simp [hx])
    obtain ⟨hmem, hasc⟩ := hn f (by simp)
    simp only [verifyEntries]
    by_cases hsk : skipsVerification up f = true
    · rw [if_pos hsk]
      obtain ⟨m', hm⟩ := ih hg hkeep hfs
      refine ⟨m', ?_⟩
      rw [hm, List.filter_cons_of_neg]
      simp only [decide_eq_true_eq]
      exact fun hl => hl.1 ((C53_partial up hup f hasc).1 hsk)
    · rw [if_neg hsk]
      have hex : ¬ Exempt f := fun he => hsk ((C53_partial up hup f hasc).2 he)
      obtain ⟨hg2, hget⟩ := grown_create hg f
      have hkeep2 : ∀ n s, PyDict.get? m0.subs n = some s →
          PyDict.get? (createSection m f false).2.subs n = some s := by
        intro n s hs
        cases hf : PyDict.get? m.subs f with
        | some s' => rw [create_existing hf]; exact hkeep n s hs
        | none =>
          obtain ⟨_, _, h2⟩ := (C69_keep m f).2 hf
          rw [h2, if_neg]
          · exact hkeep n s hs
          · rintro rfl
            rw [hkeep _ s hs] at hf
            cases hf
      obtain ⟨b, hb, _⟩ := zipRead_mem hmem
      obtain ⟨m', hm⟩ := ih hg2 hkeep2 hfs
      generalize createSection m f false = r at hget hg2 hkeep2 hm
      have hcase : PyDict.get? m0.subs f = some r.1 ∨
          (PyDict.get? m0.subs f = none ∧ r.1 = newSection f) := by
        rcases hg2 f r.1 hget with h | h
        · exact .inl h
        · cases h0 : PyDict.get? m0.subs f with
          | none => exact .inr ⟨rfl, h⟩
          | some s =>
            have := hkeep2 f s h0
            rw [hget] at this
            exact .inl this.symm
      have hknown : ∀ d ∈ keysWithSuffix r.1 sDigest, ∃ h, H.get d = .ok h := by
        rcases hcase with h | ⟨_, h⟩
        · exact hk f _ h
        · rw [h, new_no_keys]; simp
      have hiff : matchDigest H (.ok b) r.1 sDigest (keysWithSuffix r.1 sDigest) = .ok true ↔
          EntryMatch H m0 f b := by
        constructor
        · intro h
          obtain ⟨b', alg, k, e1, e2, e3⟩ := C48_accepts H _ _ _ h
          cases e1
          rcases hcase with h | ⟨_, h⟩
          · exact ⟨alg, k, _, e2, h, e3⟩
          · rw [h, new_no_digest] at e3
            cases e3
        · rintro ⟨alg, k, s, e1, e2, e3⟩
          rcases hcase with h | ⟨h, _⟩
          · rw [h] at e2
            cases e2
            refine matchDigest_hit hknown (C48_supported _ _ _ (.inl rfl) (get_supported e1) ?_) e1 e3
            exact (PyDict.get?_isSome_iff _ _).1 (by rw [e3]; rfl)
          · rw [h] at e2
            cases e2
      have hfaulty : Faulty H m0 z f ↔ ¬ EntryMatch H m0 f b := by
        unfold Faulty
        constructor
        · rintro ⟨_, h⟩ he
          exact h ⟨b, hb, he⟩
        · intro h
          refine ⟨hex, ?_⟩
          rintro ⟨b', hb', he⟩
          rw [hb] at hb'
          cases hb'
          exact h he
      obtain ⟨v, hv⟩ := matchDigest_ok (b := b) (s := r.1) (suf := sDigest) hknown
      rw [hb]
      cases hds : keysWithSuffix r.1 sDigest with
      | nil =>
        rw [hds] at hiff
        have hf : Faulty H m0 z f := hfaulty.2 fun h => by
          have := hiff.2 h
          simp [matchDigest] at this
        rw [List.filter_cons_of_pos (by simpa using hf)]
        refine ⟨m', ?_⟩
        cases strict <;> simp [matchDigest, hm]
      | cons d ds =>
        rw [hds] at hv hiff
        simp only [List.isEmpty_cons, Bool.false_and, Bool.false_eq_true, if_false, hv]
        cases v with
        | true =>
          rw [List.filter_cons_of_neg]
          · exact ⟨m', hm⟩
          · simp only [decide_eq_true_eq]
            exact fun h => hfaulty.1 h (hiff.1 hv)
        | false =>
          have hf : Faulty H m0 z f := hfaulty.2 fun h => by
            have := hiff.2 h
            rw [hv] at this
            cases this
          rw [List.filter_cons_of_pos (by simpa using hf)]
          exact ⟨m', by simp only [hm]⟩

open Classical in
/-- C91: for one argument the entries printed are exactly the faulty ones, in order, and the status
is 0 if there are none and 1 otherwise. -/
theorem C91_exact (hup : IsUpper up) (H : Hashes) (W : World) (jar : Str) (z : Zip) (m : Manifest)
    (hj : jar ≠ "-h".toList) (hz : W.zip jar = .ok z) (hm : loadFromJar z = .ok m)
    (ha : ∀ n ∈ namelist z, AsciiText n) (hk : KnownDigests H m) :
    cliVerifyManifest up H W [jar] =
      .ok (if ∃ n ∈ namelist z, Faulty H m z n then 1 else 0,
        (namelist z).filter fun n => decide (Faulty H m z n)) := by
  obtain ⟨m', h⟩ := verifyEntries_exact up hup true (z := z) hk (m := m)
    (fun _ _ h => .inl h) (fun _ _ h => h) (namelist z) fun n hn => ⟨hn, ha n hn⟩
  simp only [cliVerifyManifest, if_neg hj, hz, hm, verifyJarChecksums, h]
  by_cases hex : ∃ n ∈ namelist z, Faulty H m z n
  · rw [if_pos hex, if_pos]
    obtain ⟨n, hn, hf⟩ := hex
    exact List.length_pos_of_mem (List.mem_filter.2 ⟨hn, by simpa using hf⟩)
  · have hnil : (namelist z).filter (fun n => decide (Faulty H m z n)) = [] := by
      rw [List.filter_eq_nil_iff]
      intro n hn hf
      exact hex ⟨n, hn, by simpa using hf⟩
    rw [if_neg hex, hnil]
    simp

/-- C91: without exactly one argument, or with `-h`, the usage is shown with status 2. -/
theorem C91_usage (H : Hashes) (W : World) (args : List Str)
    (h : args.length ≠ 1 ∨ "-h".toList ∈ args) : cliVerifyManifest up H W args = .ok (2, []) := by
  match args with
  | [] => rfl
  | [a] =>
    rcases h with h | h
    · simp at h
    · simp only [List.mem_singleton] at h
      simp [cliVerifyManifest, ← h]
  | _ :: _ :: _ => rfl

/-- C91: an archive without a manifest raises `MissingManifestError`. -/
theorem C91_no_manifest (H : Hashes) (W : World) (jar : Str) (z : Zip) (hj : jar ≠ "-h".toList)
    (hz : W.zip jar = .ok z) (hm : sManifestMf ∉ namelist z) :
    cliVerifyManifest up H W [jar] = .error eMissingManifest := by
  simp only [cliVerifyManifest, if_neg hj, hz, loadFromJar, if_pos hm]
  rfl

/-- An archive with a correct, a wrong and an unrecorded entry. -/
example : cliVerifyManifest upLongS idHashes (oneJar [(sManifestMf, encodeUtf8
      "Manifest-Version: 1.0\n\nName: a\nMD5-Digest: aGk=\n\nName: b\nMD5-Digest: aGk=\n\n".toList),
      ("a".toList, encodeUtf8 "hi".toList), ("b".toList, encodeUtf8 "ho".toList),
      ("c".toList, [])]) ["x.jar".toList] = .ok (1, ["b".toList, "c".toList]) := by
  decide +kernel

/-! ### C92: `manifest q` -/

/-- The text printed for a value. -/
def shownValue (v : Option Str) : Str := v.getD "None".toList

theorem orNone_eq (v : Option Str) : orNone v = shownValue v := by cases v <;> rfl

/-- C92 as stated: `section:key` asks for an attribute of a section, whatever the section is
called. -/
def C92_full : Prop :=
  ∀ (m : Manifest) (a b : Str) (s : Section), PyDict.get? m.subs a = some s → s ≠ [] →
    queryLine m (a ++ ':' :: b) = a ++ ':' :: b ++ " = ".toList ++ shownValue (PyDict.get? s b)

/-- C92: a query without a colon is answered from the main section. -/
theorem C92_main (m : Manifest) (q : Str) (h : ':' ∉ q) :
    queryLine m q = q ++ " = ".toList ++ shownValue (PyDict.get? m.main q) := by
  unfold queryLine
  rw [splitFirst_none.2 h]
  simp only [orNone_eq]

/-- C92 for sections without a colon in their name. Missing: sections with one, where only the part
before the first colon is taken for the name, see `C92_colon`. -/
theorem C92_partial (m : Manifest) (a b : Str) (h : ':' ∉ a) :
    (∀ s, PyDict.get? m.subs a = some s → s ≠ [] →
      queryLine m (a ++ ':' :: b) = a ++ ':' :: b ++ " = ".toList ++ shownValue (PyDict.get? s b)) ∧
    (PyDict.get? m.subs a = none →
      queryLine m (a ++ ':' :: b) = a ++ ':' :: b ++ " : No such section".toList) := by
  unfold queryLine
  rw [splitFirst_some h]
  constructor
  · intro s hs hne
    cases s with
    | nil => exact absurd rfl hne
    | cons i s => simp only [hs, orNone_eq]
  · intro hn
    simp only [hn]

/-- C92: the answer to a query for a section whose name has a colon depends on the section named by
the part before it. -/
theorem C92_colon (m : Manifest) (a a' b : Str) (h : ':' ∉ a) (hn : PyDict.get? m.subs a = none) :
    queryLine m ((a ++ ':' :: a') ++ ':' :: b) =
      (a ++ ':' :: a') ++ ':' :: b ++ " : No such section".toList := by
  have := (C92_partial m a (a' ++ ':' :: b) h).2 hn
  simpa using this

theorem C92_full_fails : ¬ C92_full := by
  intro h
  have h1 := h { main := [], subs := [("a:b".toList, [(kName, "a:b".toList)])], linesep := none }
    "a:b".toList kName [(kName, "a:b".toList)] (by decide) (by simp)
  revert h1
  decide +kernel

/-- C92: the queries are answered one line each, in order. -/
theorem C92_lines (W : World) (jar : Str) (qs : List Str) (z : Zip) (m : Manifest) (hq : qs ≠ [])
    (hh : "-h".toList ∉ jar :: qs) (hz : W.zip jar = .ok z) (hm : loadFromJar z = .ok m) :
    cliQuery W (jar :: qs) = .ok (0, qs.map (queryLine m)) := by
  cases qs with
  | nil => exact absurd rfl hq
  | cons q qs => simp only [cliQuery, if_neg hh, hz, hm]

/-- C92: without a query, or with `-h`, the usage is shown with status 1. -/
theorem C92_usage (W : World) (args : List Str) (h : args.length < 2 ∨ "-h".toList ∈ args) :
    ∃ l, cliQuery W args = .ok (1, [l]) := by
  match args with
  | [] => exact ⟨_, rfl⟩
  | [_] => exact ⟨_, rfl⟩
  | a :: b :: c =>
    rcases h with h | h
    · simp only [List.length_cons] at h
      omega
    · exact ⟨"Usage: manifest q file.jar key_to_query...".toList, by simp only [cliQuery, if_pos h]⟩

/-- Queries to the main section, to a section and to a section that is not there. -/
example : cliQuery (oneJar [(sManifestMf, encodeUtf8
      "Manifest-Version: 1.0\n\nName: a\nMD5-Digest: aGk=\n\n".toList)])
      ["x.jar".toList, "Manifest-Version".toList, "a:MD5-Digest".toList, "Main-Class".toList,
        "b:Name".toList] =
    .ok (0, ["Manifest-Version = 1.0".toList, "a:MD5-Digest = aGk=".toList, "Main-Class = None".toList,
      "b:Name : No such section".toList]) := by decide +kernel

/-! ### C93: `strict` -/

/-- C93 as stated: without `strict`, entries for which no digest is recorded are accepted. -/
def C93_full : Prop :=
  ∀ (up : Char → Str) (H : Hashes) (m m' : Manifest) (z : Zip) (fails : List Str),
    verifyJarChecksums up H m z false = .ok (fails, m') →
    ∀ n ∈ fails, ∃ s, PyDict.get? m.subs n = some s ∧ keysWithSuffix s sDigest ≠ []

/-- C93: `strict` makes no difference. -/
theorem C93_no_effect (H : Hashes) (m : Manifest) (z : Zip) :
    verifyJarChecksums up H m z false = verifyJarChecksums up H m z true := by
  unfold verifyJarChecksums
  generalize namelist z = names
  induction names generalizing m with
  | nil => rfl
  | cons f fs ih =>
    simp only [verifyEntries, ih]
    split
    · rfl
    · cases hk : keysWithSuffix (createSection m f false).1 sDigest with
      | nil => simp [matchDigest]
      | cons d ds => simp

theorem verifyEntries_sub {H : Hashes} {z : Zip} {strict : Bool} {m m' : Manifest}
    {names fails : List Str} (h : verifyEntries up H z strict m names = .ok (fails, m')) :
    ∀ n ∈ fails, n ∈ names ∧ skipsVerification up n = false := by
  induction names generalizing m m' fails with
  | nil =>
    simp only [verifyEntries, Except.ok.injEq, Prod.mk.injEq] at h
    rw [← h.1]
    simp
  | cons f fs ih =>
    have hcons : ∀ {m m' : Manifest} {fails : List Str},
        verifyEntries up H z strict m fs = .ok (fails, m') →
        ∀ n ∈ fails, n ∈ f :: fs ∧ skipsVerification up n = false := fun hv n hn =>
      ⟨List.mem_cons_of_mem _ (ih hv n hn).1, (ih hv n hn).2⟩
    simp only [verifyEntries] at h
    split at h
    · exact hcons h
    · rename_i hsk
      have hadd : ∀ {r : Res (List Str × Manifest)} {m0 : Manifest},
          verifyEntries up H z strict m0 fs = r →
          (match r with
            | .error e => .error e
            | .ok (fails, m') => .ok (f :: fails, m')) = (.ok (fails, m') : Res _) →
          ∀ n ∈ fails, n ∈ f :: fs ∧ skipsVerification up n = false := by
        intro r m0 hr he n hn
        cases r with
        | error e => cases he
        | ok r =>
          obtain ⟨fl, m1⟩ := r
          simp only [Except.ok.injEq, Prod.mk.injEq] at he
          rw [← he.1] at hn
          rcases List.mem_cons.1 hn with rfl | hn
          · exact ⟨by simp, by simpa using hsk⟩
          · exact hcons hr n hn
      split at h
      · exact hadd rfl h
      · split at h
        · cases h
        · exact hcons h
        · exact hadd rfl h

/-- C93, partial: if a digest is recorded for every entry that has to match, then no other entry is
reported. Missing: archives with entries without digests, which are reported (`C93_no_effect`). -/
theorem C93_partial (H : Hashes) (m m' : Manifest) (z : Zip) (fails : List Str)
    (hz : ∀ n ∈ namelist z, skipsVerification up n = false →
      ∃ s, PyDict.get? m.subs n = some s ∧ keysWithSuffix s sDigest ≠ [])
    (h : verifyJarChecksums up H m z false = .ok (fails, m')) :
    ∀ n ∈ fails, ∃ s, PyDict.get? m.subs n = some s ∧ keysWithSuffix s sDigest ≠ [] := fun n hn =>
  let ⟨h1, h2⟩ := verifyEntries_sub up h n hn
  hz n h1 h2

theorem C93_full_fails : ¬ C93_full := by
  intro h
  have e : ∃ m', verifyJarChecksums upLongS idHashes emptyManifest [("a".toList, [])] false =
      .ok (["a".toList], m')   :=
    ⟨{ emptyManifest with subs := [("a".toList, newSection "a".toList)] }, by decide +kernel⟩
  obtain ⟨m', e⟩ := e
  obtain ⟨s, hs, _⟩ := h upLongS idHashes emptyManifest m' [("a".toList, [])] ["a".toList] e "a".toList
    (by simp)
  cases hs

/-! ### C94: the commands -/

/-- `c` is the word or an abbreviation of it. -/
def Abbreviates (c word : Str) : Prop := c ≠ [] ∧ c <+: word

/-- Documented commands of the manifest tool: create, query, verify. -/
theorem C94_manifest (prog c : Str) (rest : List Str) :
    (Abbreviates c "create".toList → manifestMain (prog :: c :: rest) = (.create, rest)) ∧
    (Abbreviates c "query".toList → manifestMain (prog :: c :: rest) = (.query, rest)) ∧
    (Abbreviates c "verify".toList → manifestMain (prog :: c :: rest) = (.verify, rest)) ∧
    (c ≠ [] → ¬ Abbreviates c "create".toList → ¬ Abbreviates c "query".toList →
      ¬ Abbreviates c "verify".toList → manifestMain (prog :: c :: rest) = (.usage, [])) := by
  have key : ∀ w : Str, c.isPrefixOf w = true ↔ c <+: w := fun w => List.isPrefixOf_iff_prefix
  have first : ∀ w d : Str, Abbreviates c w → w.head? ≠ d.head? → ¬ c <+: d := by
    rintro w d ⟨h1, x, rfl⟩ h2 ⟨y, hy⟩
    cases c with
    | nil => exact h1 rfl
    | cons a c =>
      subst hy
      exact h2 rfl
  refine ⟨?_, ?_, ?_, ?_⟩
  · intro h
    simp only [manifestMain]
    rw [if_pos ((key _).2 h.2)]
  · intro h
    simp only [manifestMain]
    rw [if_neg, if_pos ((key _).2 h.2)]
    rw [key]
    exact first _ _ h (by decide)
  · intro h
    simp only [manifestMain]
    rw [if_neg, if_neg, if_pos ((key _).2 h.2)]
    · rw [key]
      exact first _ _ h (by decide)
    · rw [key]
      exact first _ _ h (by decide)
  · intro h h1 h2 h3
    simp only [manifestMain]
    rw [if_neg, if_neg, if_neg]
    · rw [key]; exact fun hp => h3 ⟨h, hp⟩
    · rw [key]; exact fun hp => h2 ⟨h, hp⟩
    · rw [key]; exact fun hp => h1 ⟨h, hp⟩

/-- C94 as stated for jarutil: create, sign and verify, each by its name or an abbreviation. -/
def C94_full : Prop :=
  ∀ (prog c : Str) (rest : List Str),
    (Abbreviates c "create".toList → jarutilMain (prog :: c :: rest) = (.create, rest)) ∧
    (Abbreviates c "sign".toList → jarutilMain (prog :: c :: rest) = (.sign, rest)) ∧
    (Abbreviates c "verify".toList → jarutilMain (prog :: c :: rest) = (.verify, rest))

/-- C94 for jarutil: verification is called "view". Missing: every abbreviation of "verify" longer
than "v" only shows the usage. -/
theorem C94_jarutil_partial (prog c : Str) (rest : List Str) :
    (Abbreviates c "create".toList → jarutilMain (prog :: c :: rest) = (.create, rest)) ∧
    (Abbreviates c "sign".toList → jarutilMain (prog :: c :: rest) = (.sign, rest)) ∧
    (Abbreviates c "view".toList → jarutilMain (prog :: c :: rest) = (.verify, rest)) ∧
    (Abbreviates c "verify".toList → c ≠ "v".toList → jarutilMain (prog :: c :: rest) = (.usage, [])) ∧
    (c ≠ [] → ¬ Abbreviates c "create".toList → ¬ Abbreviates c "sign".toList →
      ¬ Abbreviates c "view".toList → jarutilMain (prog :: c :: rest) = (.usage, [])) := by
  have key : ∀ w : Str, c.isPrefixOf w = true ↔ c <+: w := fun w => List.isPrefixOf_iff_prefix
  have first : ∀ w d : Str, Abbreviates c w → w.head? ≠ d.head? → ¬ c <+: d := by
    rintro w d ⟨h1, x, rfl⟩ h2 ⟨y, hy⟩
    cases c with
    | nil => exact h1 rfl
    | cons a c =>
      subst hy
      exact h2 rfl
  have last : c ≠ [] → ¬ Abbreviates c "create".toList → ¬ Abbreviates c "sign".toList →
      ¬ Abbreviates c "view".toList → jarutilMain (prog :: c :: rest) = (.usage, []) := by
    intro h h1 h2 h3
    simp only [jarutilMain]
    rw [if_neg, if_neg, if_neg]
    · rw [key]; exact fun hp => h3 ⟨h, hp⟩
    · rw [key]; exact fun hp => h2 ⟨h, hp⟩
    · rw [key]; exact fun hp => h1 ⟨h, hp⟩
  refine ⟨?_, ?_, ?_, ?_, last⟩
  · intro h
    simp only [jarutilMain]
    rw [if_pos ((key _).2 h.2)]
  · intro h
    simp only [jarutilMain]
    rw [if_neg, if_pos ((key _).2 h.2)]
    rw [key]
    exact first _ _ h (by decide)
  · intro h
    simp only [jarutilMain]
    rw [if_neg, if_neg, if_pos ((key _).2 h.2)]
    · rw [key]
      exact first _ _ h (by decide)
    · rw [key]
      exact first _ _ h (by decide)
  · intro h hv
    refine last h.1 (fun hc => first _ _ h (by decide) hc.2) (fun hc => first _ _ h (by decide) hc.2) ?_
    rintro ⟨_, h2⟩
    match c, h, hv, h2 with
    | [], h, _, _ => exact h.1 rfl
    | [a], h, hv, _ =>
      have := h.2
      simp only [show "verify".toList = 'v' :: "erify".toList from rfl, List.cons_prefix_cons] at this
      exact hv (by rw [this.1]; rfl)
    | a :: b :: c, h, _, h2 =>
      have h1 := h.2
      simp only [show "verify".toList = 'v' :: 'e' :: "rify".toList from rfl,
        List.cons_prefix_cons] at h1
      simp only [show "view".toList = 'v' :: 'i' :: "ew".toList from rfl,
        List.cons_prefix_cons] at h2
      rw [h1.2.1] at h2
      exact absurd h2.2.1 (by decide)

theorem C94_full_fails : ¬ C94_full := by
  intro h
  have h1 := (h [] "verify".toList []).2.2 ⟨by simp, List.prefix_rfl⟩
  revert h1
  decide

example : jarutilMain ["jarutil".toList, "v".toList, "x.jar".toList] = (.verify, ["x.jar".toList]) ∧
    manifestMain ["manifest".toList, "qu".toList] = (.query, []) := by decide

/-! ### C96: `jarutil s` -/

/-- C96: the status is 0 exactly if the archive was signed, and then what is written is the signed
archive. -/
theorem C96_signed (C : Crypto) (H : Hashes) (W : World) (jar cert key alias : Str)
    (chain : List Str) (digest : Str) (z : Zip) (hz : W.zip jar = .ok z) (out : Option Zip) :
    cliSign up C H W jar cert key alias chain digest = .ok (0, out) ↔
      ∃ z', sign up C H z cert key alias (some chain) digest = .ok z' ∧ out = some z' := by
  simp only [cliSign, hz]
  cases hs : sign up C H z cert key alias (some chain) digest with
  | ok z' =>
    simp only [Except.ok.injEq, Prod.mk.injEq, true_and]
    exact ⟨fun h => ⟨z', rfl, h.symm⟩, fun ⟨w, h, e⟩ => by rw [e, h]⟩
  | error e =>
    simp only [reduceCtorEq, false_and, exists_false, iff_false]
    split
    · simp
    · split
      · simp
      · split <;> simp

/-- C96: with any other status nothing is written. -/
theorem C96_unsigned (C : Crypto) (H : Hashes) (W : World) (jar cert key alias : Str)
    (chain : List Str) (digest : Str) (st : Int) (out : Option Zip)
    (h : cliSign up C H W jar cert key alias chain digest = .ok (st, out)) (hst : st ≠ 0) :
    out = none ∧ (st = -1 ∨ st = 1 ∨ st = 2) := by
  unfold cliSign at h
  split at h
  · cases h
  · split at h
    · cases h; exact absurd rfl hst
    · split at h
      · cases h; exact ⟨rfl, .inl rfl⟩
      · split at h
        · cases h; exact ⟨rfl, .inr (.inl rfl)⟩
        · split at h
          · cases h; exact ⟨rfl, .inr (.inr rfl)⟩
          · cases h

/-- C96: an archive without a manifest gives status 2. -/
theorem C96_no_manifest (C : Crypto) (H : Hashes) (W : World) (jar cert key alias : Str)
    (chain : List Str) (digest : Str) (z : Zip) (hz : W.zip jar = .ok z)
    (hm : sManifestMf ∉ namelist z) :
    cliSign up C H W jar cert key alias chain digest = .ok (2, none) := by
  have : sign up C H z cert key alias (some chain) digest = .error eMissingManifest := by
    simp only [sign, loadFromJar, if_pos hm]
    rfl
  simp only [cliSign, hz, this]
  decide

/-- C96: a key of an unknown type gives status 1, if the archive has a manifest that can be
extended. -/
theorem C96_key (C : Crypto) (H : Hashes) (W : World) (jar cert key alias : Str)
    (chain : List Str) (digest : Str) (z : Zip) (m0 m sf : Manifest) (hz : W.zip jar = .ok z)
    (h0 : loadFromJar z = .ok m0) (h1 : addJarEntries up H m0 z digest = .ok m)
    (h2 : digestManifest H (emptySignature m.linesep) m digest = .ok sf)
    (hk : C.keyType key = .error eCannotFindKeyType) :
    cliSign up C H W jar cert key alias chain digest = .ok (1, none) := by
  have : sign up C H z cert key alias (some chain) digest = .error eCannotFindKeyType := by
    simp only [sign, h0, h1, h2, hk]
  simp only [cliSign, hz, this]
  decide

/-- Signing with the example signature scheme. -/
def runSign (z : Zip) : Res (Int × Option Zip) :=
  cliSign upLongS echoCrypto idHashes (oneJar z) "x.jar".toList [] [] "K".toList [] "SHA1".toList

/-- An archive without and one with a manifest. -/
example : (runSign [("a".toList, [1])]).map (fun r => (r.1, r.2.map namelist)) = .ok (2, none) ∧
    (runSign [(sManifestMf, exMf), ("a".toList, [1])]).map (fun r => (r.1, r.2.map namelist)) =
      .ok (0, some ["META-INF/MANIFEST.MF".toList, "META-INF/K.SF".toList, "META-INF/K.RSA".toList,
        "a".toList]) := by decide +kernel

end Javatools
