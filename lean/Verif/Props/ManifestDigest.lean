import Verif.Props.Manifest
import Verif.Props.Glob
/-
C48: digest attributes. C53: entries exempt from verification.
-/
namespace Javatools

/-! ### C48 -/

theorem endsWith_iff (s suf : Str) : endsWith s suf = true ↔ ∃ a, s = a ++ suf := by
  unfold endsWith
  rw [List.isSuffixOf_iff_suffix]
  constructor
  · rintro ⟨a, h⟩; exact ⟨a, h.symm⟩
  · rintro ⟨a, h⟩; exact ⟨a, h.symm⟩

theorem mem_takeWhile_contains {chars l : Str} {c : Char}
    (h : c ∈ l.takeWhile fun c => chars.contains c) : c ∈ chars := by
  induction l with
  | nil => simp at h
  | cons d l ih =>
    rw [List.takeWhile_cons] at h
    split at h
    · rename_i hd
      rcases List.mem_cons.1 h with rfl | h
      · simpa using hd
      · exact ih h
    · simp at h

/-- What `rstrip` leaves: the text up to its last character outside the set. -/
theorem rstripChars_spec (s chars : Str) :
    ∃ t, s = rstripChars s chars ++ t ∧ (∀ c ∈ t, c ∈ chars) ∧
      ∀ c, (rstripChars s chars).getLast? = some c → c ∉ chars := by
  unfold rstripChars
  refine ⟨(s.reverse.takeWhile fun c => chars.contains c).reverse, ?_, ?_, ?_⟩
  · rw [← List.reverse_append, List.takeWhile_append_dropWhile, List.reverse_reverse]
  · intro c hc
    rw [List.mem_reverse] at hc
    exact mem_takeWhile_contains hc
  · intro c hc
    rw [List.getLast?_reverse] at hc
    have := List.head?_dropWhile_not (fun c => chars.contains c) s.reverse
    rw [hc] at this
    simpa using this

theorem rstripChars_append {a t chars : Str} (ht : ∀ c ∈ t, c ∈ chars)
    (ha : ∀ c, a.getLast? = some c → c ∉ chars) : rstripChars (a ++ t) chars = a := by
  unfold rstripChars
  rw [List.reverse_append, List.dropWhile_append_of_pos (by
    intro c hc
    rw [List.mem_reverse] at hc
    simpa using ht c hc)]
  cases h : a.reverse with
  | nil =>
    have : a = [] := by simpa using h
    subst this
    rfl
  | cons c r =>
    have hl : a.getLast? = some c := by
      rw [List.getLast?_eq_head?_reverse, h]
      rfl
    rw [List.dropWhile_cons_of_neg (by simpa using ha c hl), ← h, List.reverse_reverse]

/-- C48 as stated: the algorithms tried are those of the attributes `<alg>-Digest`. -/
def C48_full : Prop :=
  ∀ (s : Section) (alg : Str), alg ∈ keysWithSuffix s sDigest ↔ alg ++ sDigest ∈ PyDict.keys s

/-- Exactly which names are tried: every attribute that ends with the suffix, with all trailing
characters of the suffix removed. -/
theorem C48_exact (s : Section) (suf alg : Str) :
    alg ∈ keysWithSuffix s suf ↔
      (∃ t, alg ++ t ∈ PyDict.keys s ∧ (∃ a, alg ++ t = a ++ suf) ∧ ∀ c ∈ t, c ∈ suf) ∧
        ∀ c, alg.getLast? = some c → c ∉ suf := by
  unfold keysWithSuffix
  simp only [List.mem_map, List.mem_filter]
  constructor
  · rintro ⟨k, ⟨hk, he⟩, rfl⟩
    obtain ⟨t, h1, h2, h3⟩ := rstripChars_spec k suf
    refine ⟨⟨t, by rw [← h1]; exact hk, ?_, h2⟩, h3⟩
    rw [← h1]
    exact (endsWith_iff _ _).1 he
  · rintro ⟨⟨t, h1, h2, h3⟩, h4⟩
    exact ⟨alg ++ t, ⟨h1, (endsWith_iff _ _).2 h2⟩, rstripChars_append h3 h4⟩

/-- C48 for attributes whose algorithm name does not end with a character of the suffix, in order.
Missing: names like "test-Digest", where `rstrip` removes more than the suffix. -/
theorem C48_partial (s : Section) (suf : Str) (algs : List Str)
    (hs : (PyDict.keys s).filter (fun k => endsWith k suf) = algs.map (· ++ suf))
    (ha : ∀ a ∈ algs, ∀ c, a.getLast? = some c → c ∉ suf) : keysWithSuffix s suf = algs := by
  unfold keysWithSuffix
  rw [hs, List.map_map]
  conv => rhs; rw [← List.map_id algs]
  apply List.map_congr_left
  intro a h
  exact rstripChars_append (fun c hc => hc) (ha a h)

/-- The names javatools knows. -/
def supported : List Str :=
  ["MD2".toList, "MD5".toList, "SHA1".toList, "SHA-256".toList, "SHA-384".toList, "SHA-512".toList]

theorem get_supported {H : Hashes} {alg : Str} {h : Bytes → Bytes} (hg : H.get alg = .ok h) :
    alg ∈ supported := by
  unfold Hashes.get at hg
  unfold supported
  split at hg
  · rename_i e; simp [e]
  · split at hg
    · rename_i e; simp [e]
    · split at hg
      · rename_i e; simp [e]
      · split at hg
        · rename_i e; simp [e]
        · split at hg
          · rename_i e; simp [e]
          · split at hg
            · rename_i e; simp [e]
            · simp at hg

/-- The three suffixes used. -/
def IsDigestSuffix (suf : Str) : Prop := suf = sDigest ∨ suf = sDigestManifest ∨ suf = sDigestMain

theorem supported_last {alg suf : Str} (ha : alg ∈ supported) (hs : IsDigestSuffix suf) :
    ∀ c, alg.getLast? = some c → c ∉ suf := by
  have key : ∀ a ∈ supported, ∀ s ∈ [sDigest, sDigestManifest, sDigestMain],
      (a.getLast?.any fun c => s.contains c) = false := by decide +kernel
  have hs' : suf ∈ [sDigest, sDigestManifest, sDigestMain] := by
    rcases hs with rfl | rfl | rfl <;> simp
  intro c hc
  have := key alg ha suf hs'
  rw [hc] at this
  simpa using this

/-- C48 for the algorithms javatools supports: an attribute `<alg>-Digest` is always tried. -/
theorem C48_supported (s : Section) (suf alg : Str) (hsuf : IsDigestSuffix suf)
    (ha : alg ∈ supported) (hk : alg ++ suf ∈ PyDict.keys s) : alg ∈ keysWithSuffix s suf :=
  (C48_exact s suf alg).2 ⟨⟨suf, hk, ⟨alg, rfl⟩, fun _ hc => hc⟩, supported_last ha hsuf⟩

/-- The loop over the digests, exactly as far as acceptance goes. -/
theorem matchDigest_true {H : Hashes} {data : Res Bytes} {s : Section} {suf : Str} {ds : List Str}
    (h : matchDigest H data s suf ds = .ok true) :
    ∃ b, data = .ok b ∧ ∃ alg ∈ ds, ∃ f, H.get alg = .ok f ∧
      PyDict.get? s (alg ++ suf) = some (b64encode (f b)) := by
  induction ds with
  | nil => simp [matchDigest] at h
  | cons d ds ih =>
    simp only [matchDigest] at h
    split at h
    · simp at h
    · rename_i b
      split at h
      · simp at h
      · rename_i f hf
        split at h
        · rename_i he
          exact ⟨b, rfl, d, by simp, f, hf, he.symm⟩
        · obtain ⟨b', hb, alg, ha, f', hf', hg⟩ := ih h
          exact ⟨b', hb, alg, by simp [ha], f', hf', hg⟩

/-- C48: attributes of other shapes are never accepted as digests. If the check succeeds there is
an attribute `<alg>-Digest`, for a supported algorithm, that holds the digest of the data. -/
theorem C48_accepts (H : Hashes) (data : Res Bytes) (s : Section) (suf : Str)
    (h : matchDigest H data s suf (keysWithSuffix s suf) = .ok true) :
    ∃ b alg f, data = .ok b ∧ H.get alg = .ok f ∧
      PyDict.get? s (alg ++ suf) = some (b64encode (f b)) := by
  obtain ⟨b, hb, alg, _, f, hf, hg⟩ := matchDigest_true h
  exact ⟨b, alg, f, hb, hf, hg⟩

theorem C48_full_fails : ¬ C48_full := by
  intro h
  have := (h [(kName, "x".toList), ("Test-Digest".toList, "y".toList)] "Test".toList).2 (by decide)
  revert this
  decide

/-- Two digests and other attributes; and the names that `rstrip` spoils. -/
example : keysWithSuffix [(kName, "x".toList), ("MD5-Digest".toList, "a".toList),
      ("SHA-256-Digest".toList, "b".toList), ("Digest".toList, "c".toList),
      ("MD5-Digest-Manifest".toList, "d".toList)] sDigest = ["MD5".toList, "SHA-256".toList] ∧
    keysWithSuffix [("Best-Digest".toList, []), ("SHA1-Digest-Digest".toList, [])] sDigest =
      ["B".toList, "SHA1".toList] := by decide +kernel

/-! ### C53 -/

/-- The ASCII letters made capital. -/
def asciiUpper (s : Str) : Str := s.map Char.toUpper

/-- The name of a signature file or block inside META-INF. -/
def SigName (x : Str) : Prop :=
  (∃ r, x = r ++ ".SF".toList) ∨ (∃ r, x = r ++ ".RSA".toList) ∨ (∃ r, x = r ++ ".DSA".toList) ∨
    (∃ r, x = r ++ ".EC".toList) ∨ (∃ r, x = "SIG-".toList ++ r)

/-- Specification: the manifest, a directory, or a signature file or block directly in META-INF;
letter case does not matter. -/
def Exempt (f : Str) : Prop :=
  asciiUpper f = sManifestMf ∨ (∃ d, f = d ++ ['/']) ∨
    ∃ x, asciiUpper f = sMetaInf ++ '/' :: x ∧ '/' ∉ x ∧ SigName x

/-- C53 as stated, for Unicode's upper case mapping. -/
def C53_full : Prop :=
  ∀ up, IsUpper up → ∀ f, skipsVerification up f = true ↔ Exempt f

theorem splitAll_no {x : Char} {s : Str} (h : x ∉ s) : splitAll x s = [s] := by
  induction s with
  | nil => rfl
  | cons c s ih =>
    simp only [List.mem_cons, not_or] at h
    simp only [splitAll]
    rw [if_neg (fun e => h.1 e.symm), ih h.2]

theorem splitAll_cons {x : Char} {a b : Str} (h : x ∉ a) :
    splitAll x (a ++ x :: b) = a :: splitAll x b := by
  induction a with
  | nil => simp [splitAll]
  | cons c a ih =>
    simp only [List.mem_cons, not_or] at h
    simp only [List.cons_append, splitAll]
    rw [if_neg (fun e => h.1 e.symm), ih h.2]

theorem exists_split {x : Char} {s : Str} (h : x ∈ s) : ∃ a b, s = a ++ x :: b ∧ x ∉ a := by
  induction s with
  | nil => simp at h
  | cons c s ih =>
    by_cases hc : c = x
    · exact ⟨[], s, by simp [hc], by simp⟩
    · have : x ∈ s := by
        rcases List.mem_cons.1 h with h | h
        · exact absurd h.symm hc
        · exact h
      obtain ⟨a, b, rfl, h2⟩ := ih this
      refine ⟨c :: a, b, rfl, ?_⟩
      simp only [List.mem_cons, not_or]
      exact ⟨fun e => hc e.symm, h2⟩

theorem splitAll_ne_nil (x : Char) (s : Str) : splitAll x s ≠ [] := by
  cases s with
  | nil => simp [splitAll]
  | cons c s =>
    simp only [splitAll]
    split
    · simp
    · split <;> simp

theorem inSigDir_iff (f : Str) :
    inSigDir f = true ↔ ∃ x, f = sMetaInf ++ '/' :: x ∧ '/' ∉ x := by
  have hm : '/' ∉ sMetaInf := by decide
  unfold inSigDir
  constructor
  · intro h
    by_cases hs : '/' ∈ f
    · obtain ⟨a, b, rfl, ha⟩ := exists_split hs
      rw [splitAll_cons ha] at h
      by_cases hb : '/' ∈ b
      · obtain ⟨c, d, rfl, hc⟩ := exists_split hb
        rw [splitAll_cons hc] at h
        cases hd : splitAll '/' d with
        | nil => exact absurd hd (splitAll_ne_nil _ _)
        | cons p ps => rw [hd] at h; simp at h
      · rw [splitAll_no hb] at h
        simp only [decide_eq_true_eq] at h
        exact ⟨b, by rw [h], hb⟩
    · rw [splitAll_no hs] at h
      simp at h
  · rintro ⟨x, rfl, hx⟩
    rw [splitAll_cons hm, splitAll_no hx]
    simp

theorem fnmatch_prefix (name pre : Str) (h : ∀ c ∈ pre, c ≠ '*' ∧ c ≠ '?' ∧ c ≠ '[') :
    fnmatch name (pre ++ ['*']) = true ↔ ∃ r, name = pre ++ r := by
  rw [C61_fnmatch]
  induction pre generalizing name with
  | nil =>
    simp only [List.nil_append, exists_eq', iff_true]
    have := Glob.star [] name [] .nil
    simpa using this
  | cons c pre ih =>
    obtain ⟨h1, h2, h3⟩ := h c (by simp)
    have ih' := fun n => ih n fun d hd => h d (by simp [hd])
    constructor
    · intro hg
      cases hg with
      | star => exact absurd rfl h1
      | any => exact absurd rfl h2
      | lit _ _ s _ hg =>
        obtain ⟨r, rfl⟩ := (ih' s).1 hg
        exact ⟨r, rfl⟩
      | set => exact absurd rfl h3
      | unclosed => exact absurd rfl h3
    · rintro ⟨r, rfl⟩
      exact .lit _ _ _ ⟨h1, h2, h3⟩ ((ih' (pre ++ r)).2 ⟨r, rfl⟩)

theorem suffix_iff (s suf : Str) : suf <:+ s ↔ ∃ r, s = r ++ suf := by
  constructor
  · rintro ⟨r, h⟩; exact ⟨r, h.symm⟩
  · rintro ⟨r, h⟩; exact ⟨r, h.symm⟩

theorem fnmatches_sig (x : Str) :
    fnmatches x ["*.RSA".toList, "*.DSA".toList, "*.EC".toList, "SIG-*".toList] = true ↔
      (∃ r, x = r ++ ".RSA".toList) ∨ (∃ r, x = r ++ ".DSA".toList) ∨ (∃ r, x = r ++ ".EC".toList) ∨
        (∃ r, x = "SIG-".toList ++ r) := by
  have e1 := C61_star_suffix x ".RSA".toList (by decide)
  have e2 := C61_star_suffix x ".DSA".toList (by decide)
  have e3 := C61_star_suffix x ".EC".toList (by decide)
  have e4 := fnmatch_prefix x "SIG-".toList (by decide)
  rw [suffix_iff] at e1 e2 e3
  rw [← e1, ← e2, ← e3, ← e4]
  have p1 : "*.RSA".toList = '*' :: ".RSA".toList := by decide
  have p2 : "*.DSA".toList = '*' :: ".DSA".toList := by decide
  have p3 : "*.EC".toList = '*' :: ".EC".toList := by decide
  have p4 : "SIG-*".toList = "SIG-".toList ++ ['*'] := by decide
  rw [C61_fnmatches]
  simp only [List.mem_cons, List.not_mem_nil, or_false, ← C61_fnmatch]
  constructor
  · rintro ⟨p, (rfl | rfl | rfl | rfl), _, h⟩
    · exact .inl (p1 ▸ h)
    · exact .inr (.inl (p2 ▸ h))
    · exact .inr (.inr (.inl (p3 ▸ h)))
    · exact .inr (.inr (.inr (p4 ▸ h)))
  · rintro (h | h | h | h)
    · exact ⟨_, .inl rfl, by decide, p1 ▸ h⟩
    · exact ⟨_, .inr (.inl rfl), by decide, p2 ▸ h⟩
    · exact ⟨_, .inr (.inr (.inl rfl)), by decide, p3 ▸ h⟩
    · exact ⟨_, .inr (.inr (.inr rfl)), by decide, p4 ▸ h⟩

theorem fnmatches_sf (x : Str) :
    fnmatches x ["*.SF".toList] = true ↔ ∃ r, x = r ++ ".SF".toList := by
  have e1 := C61_star_suffix x ".SF".toList (by decide)
  rw [suffix_iff] at e1
  rw [← e1]
  have p1 : "*.SF".toList = '*' :: ".SF".toList := by decide
  rw [C61_fnmatches]
  simp only [List.mem_cons, List.not_mem_nil, or_false, ← C61_fnmatch]
  constructor
  · rintro ⟨p, rfl, _, h⟩; exact p1 ▸ h
  · intro h; exact ⟨_, rfl, by decide, p1 ▸ h⟩

/-- A suffix without a slash of `d ++ "/" ++ x` is a suffix of `x`. -/
theorem suffix_after_slash {d x suf r : Str} (hs : '/' ∉ suf) (h : d ++ '/' :: x = r ++ suf) :
    ∃ r', x = r' ++ suf := by
  rcases List.append_eq_append_iff.1 h with ⟨a, h1, h2⟩ | ⟨c, h1, h2⟩
  · cases a with
    | nil => simp only [List.nil_append] at h2; rw [← h2] at hs; simp at hs
    | cons y a =>
      simp only [List.cons_append, List.cons.injEq] at h2
      exact ⟨a, h2.2⟩
  · exfalso
    apply hs
    rw [h2]
    simp

theorem toUpper_table : ∀ n : Fin 128, (Char.ofNat n.1).toUpper =
    if 97 ≤ n.1 ∧ n.1 ≤ 122 then Char.ofNat (n.1 - 32) else Char.ofNat n.1 := by decide +kernel

theorem toUpper_eq (c : Char) :
    c.toUpper = if 97 ≤ c.toNat ∧ c.toNat ≤ 122 then Char.ofNat (c.toNat - 32) else c := by
  by_cases h : c.toNat < 128
  · have := toUpper_table ⟨c.toNat, h⟩
    simpa [char_ofNat_toNat] using this
  · rw [if_neg (by omega)]
    unfold Char.toUpper
    rw [dif_neg]
    rintro ⟨-, h2⟩
    have : c.toNat ≤ 122 := h2
    omega

theorem toNat_small {n : Nat} (h : n < 128) : (Char.ofNat n).toNat = n := by
  have : ∀ n : Fin 128, (Char.ofNat n.1).toNat = n.1 := by decide +kernel
  exact this ⟨n, h⟩

theorem toNat_toUpper (c : Char) :
    c.toUpper.toNat = if 97 ≤ c.toNat ∧ c.toNat ≤ 122 then c.toNat - 32 else c.toNat := by
  rw [toUpper_eq]
  split
  · rw [toNat_small (by omega)]
  · rfl

theorem char_eq_iff (c d : Char) : c = d ↔ c.toNat = d.toNat :=
  ⟨fun h => by rw [h], fun h => by rw [← char_ofNat_toNat c, h, char_ofNat_toNat]⟩

theorem toUpper_slash (c : Char) : c.toUpper = '/' ↔ c = '/' := by
  rw [char_eq_iff, char_eq_iff, toNat_toUpper]
  have : ('/' : Char).toNat = 47 := by decide
  rw [this]
  split <;> omega

theorem toUpper_idem (c : Char) : c.toUpper.toUpper = c.toUpper := by
  rw [char_eq_iff, toNat_toUpper, toNat_toUpper]
  split
  · rw [if_neg (by omega)]
  · rfl

theorem asciiUpper_idem (s : Str) : asciiUpper (asciiUpper s) = asciiUpper s := by
  simp [asciiUpper, toUpper_idem]

/-- All characters are ASCII. -/
def AsciiText (s : Str) : Prop := ∀ c ∈ s, c.toNat < 128

theorem asciiUpper_ascii {s : Str} (h : AsciiText s) : AsciiText (asciiUpper s) := by
  intro c hc
  obtain ⟨d, hd, rfl⟩ := List.mem_map.1 hc
  have := h d hd
  rw [toNat_toUpper]
  split <;> omega

theorem upperWith_ascii {up : Char → Str} (hup : IsUpper up) {s : Str} (h : AsciiText s) :
    upperWith up s = asciiUpper s := by
  induction s with
  | nil => rfl
  | cons c s ih =>
    have h1 := hup.ascii c (h c (by simp))
    have h2 := ih fun d hd => h d (by simp [hd])
    simp only [upperWith, asciiUpper, List.flatMap_cons, List.map_cons] at h2 ⊢
    rw [h1, h2]
    rfl

theorem asciiUpper_endsSlash (f : Str) :
    (∃ d, asciiUpper f = d ++ ['/']) ↔ ∃ d, f = d ++ ['/'] := by
  constructor
  · rintro ⟨d, h⟩
    have hne : f ≠ [] := by rintro rfl; simp [asciiUpper] at h
    obtain ⟨r, c, rfl⟩ : ∃ r c, f = r ++ [c] :=
      ⟨f.dropLast, f.getLast hne, (List.dropLast_concat_getLast hne).symm⟩
    simp only [asciiUpper, List.map_append, List.map_cons, List.map_nil] at h
    have h2 := List.append_inj_right' h rfl
    simp only [List.cons.injEq, and_true] at h2
    exact ⟨r, by rw [(toUpper_slash c).1 h2]⟩
  · rintro ⟨d, rfl⟩
    exact ⟨asciiUpper d, by simp [asciiUpper]⟩

/-- C53 for names of ASCII characters. Missing: names with characters whose upper case form is an
ASCII letter, such as 'ſ'. -/
theorem C53_partial (up : Char → Str) (hup : IsUpper up) (f : Str) (hf : AsciiText f) :
    skipsVerification up f = true ↔ Exempt f := by
  have hu : upperWith up f = asciiUpper f := upperWith_ascii hup hf
  have huu : upperWith up (asciiUpper f) = asciiUpper f := by
    rw [upperWith_ascii hup (asciiUpper_ascii hf), asciiUpper_idem]
  unfold skipsVerification
  simp only [hu, Bool.or_eq_true, decide_eq_true_eq, endsWith_iff]
  have hslash : (∃ a, asciiUpper f = a ++ "/".toList) ↔ ∃ d, f = d ++ ['/'] :=
    asciiUpper_endsSlash f
  rw [hslash]
  unfold Exempt
  have hsig : (matchesSigblock up (asciiUpper f) = true ∨ matchesSigfile up (asciiUpper f) = true) ↔
      ∃ x, asciiUpper f = sMetaInf ++ '/' :: x ∧ '/' ∉ x ∧ SigName x := by
    unfold matchesSigblock matchesSigfile
    simp only [Bool.and_eq_true, inSigDir_iff, huu, fnmatches_sf, fnmatches_sig]
    constructor
    · rintro (⟨⟨x, h1, h2⟩, h3⟩ | ⟨⟨x, h1, h2⟩, r, h3⟩)
      · refine ⟨x, h1, h2, .inr ?_⟩
        have hd : (asciiUpper f).drop 9 = x := by rw [h1]; rfl
        have hx : upperWith up x = x := by
          have ha : AsciiText x := by
            intro c hc
            exact asciiUpper_ascii hf c (by rw [h1]; simp [hc])
          rw [upperWith_ascii hup ha]
          have := asciiUpper_idem f
          rw [h1] at this
          simp only [asciiUpper, List.map_append, List.map_cons] at this
          have := List.append_inj_right this (by simp)
          simp only [List.cons.injEq] at this
          exact this.2
        rw [hd, hx] at h3
        exact h3
      · refine ⟨x, h1, h2, .inl ?_⟩
        exact suffix_after_slash (by decide) (h1.symm.trans h3)
    · rintro ⟨x, h1, h2, h3⟩
      rcases h3 with ⟨r, h3⟩ | h3
      · exact .inr ⟨⟨x, h1, h2⟩, sMetaInf ++ '/' :: r, by rw [h1, h3]; simp⟩
      · refine .inl ⟨⟨x, h1, h2⟩, ?_⟩
        have hd : (asciiUpper f).drop 9 = x := by rw [h1]; rfl
        have hx : upperWith up x = x := by
          have ha : AsciiText x := by
            intro c hc
            exact asciiUpper_ascii hf c (by rw [h1]; simp [hc])
          rw [upperWith_ascii hup ha]
          have := asciiUpper_idem f
          rw [h1] at this
          simp only [asciiUpper, List.map_append, List.map_cons] at this
          have := List.append_inj_right this (by simp)
          simp only [List.cons.injEq] at this
          exact this.2
        rw [hd, hx]
        exact h3
  rw [or_assoc, or_assoc, hsig]

theorem up_slash {up : Char → Str} (hup : IsUpper up) (c : Char) : '/' ∈ up c ↔ c = '/' := by
  by_cases h : c.toNat < 128
  · rw [hup.ascii c h, List.mem_singleton, eq_comm, toUpper_slash]
  · constructor
    · intro hm
      rcases (hup.other c (by omega)).2 _ hm with h2 | h2
      · exact absurd h2 (by decide)
      · exact absurd h2 (by decide)
    · rintro rfl
      exact absurd (show ('/' : Char).toNat < 128 by decide) h

theorem upper_slash {up : Char → Str} (hup : IsUpper up) (s : Str) :
    '/' ∈ upperWith up s ↔ '/' ∈ s := by
  simp only [upperWith, List.mem_flatMap]
  constructor
  · rintro ⟨c, hc, hm⟩; rw [← (up_slash hup c).1 hm]; exact hc
  · intro h; exact ⟨'/', h, (up_slash hup '/').2 rfl⟩

/-- C53, for all names: an exempt entry is a directory or lies directly in a directory whose name
in capitals is META-INF; in particular nothing outside META-INF or in its sub directories is exempt
unless it is a directory. -/
theorem C53_location (up : Char → Str) (hup : IsUpper up) (f : Str)
    (h : skipsVerification up f = true) :
    (∃ d, f = d ++ ['/']) ∨
      ∃ d x, f = d ++ '/' :: x ∧ '/' ∉ d ∧ '/' ∉ x ∧ upperWith up d = sMetaInf := by
  have key : ∀ y, upperWith up f = sMetaInf ++ '/' :: y → '/' ∉ y →
      ∃ d x, f = d ++ '/' :: x ∧ '/' ∉ d ∧ '/' ∉ x ∧ upperWith up d = sMetaInf := by
    intro y h1 h2
    have hm : '/' ∈ f := by rw [← upper_slash hup, h1]; simp
    obtain ⟨a, b, rfl, ha⟩ := exists_split hm
    have hs : up '/' = ['/'] := by
      rw [hup.ascii '/' (by decide)]
      decide
    have hsplit : upperWith up (a ++ '/' :: b) = upperWith up a ++ '/' :: upperWith up b := by
      simp [upperWith, hs]
    rw [hsplit] at h1
    obtain ⟨h3, h4⟩ := append_cons_inj (fun h => ha ((upper_slash hup a).1 h)) (by decide) h1
    refine ⟨a, b, rfl, ha, ?_, h3⟩
    rw [← upper_slash hup, h4]
    exact h2
  unfold skipsVerification at h
  simp only [Bool.or_eq_true, decide_eq_true_eq, endsWith_iff] at h
  rcases h with ((h | h) | h) | h
  · exact .inr (key "MANIFEST.MF".toList (by rw [h]; decide) (by decide))
  · left
    obtain ⟨a, h⟩ := h
    have hne : f ≠ [] := by rintro rfl; simp [upperWith] at h
    obtain ⟨r, c, rfl⟩ : ∃ r c, f = r ++ [c] :=
      ⟨f.dropLast, f.getLast hne, (List.dropLast_concat_getLast hne).symm⟩
    have hl : (upperWith up (r ++ [c])).getLast? = some '/' := by rw [h]; simp
    have hc : upperWith up (r ++ [c]) = upperWith up r ++ up c := by simp [upperWith]
    rw [hc, List.getLast?_append] at hl
    have hne : up c ≠ [] := by
      by_cases hlt : c.toNat < 128
      · rw [hup.ascii c hlt]; simp
      · exact (hup.other c (by omega)).1
    have hm : '/' ∈ up c := by
      cases hlast : (up c).getLast? with
      | none => exact absurd (List.getLast?_eq_none_iff.1 hlast) hne
      | some d =>
        rw [hlast] at hl
        simp only [Option.some_or, Option.some.injEq] at hl
        rw [← hl]
        exact List.mem_of_getLast? hlast
    exact ⟨r, by rw [(up_slash hup c).1 hm]⟩
  · right
    unfold matchesSigblock at h
    rw [Bool.and_eq_true, inSigDir_iff] at h
    obtain ⟨⟨x, h1, h2⟩, _⟩ := h
    exact key x h1 h2
  · right
    unfold matchesSigfile at h
    rw [Bool.and_eq_true, inSigDir_iff] at h
    obtain ⟨⟨x, h1, h2⟩, _⟩ := h
    exact key x h1 h2

/-- The part of Unicode's mapping that the counterexample needs: 'ſ' (U+017F) becomes 'S'. -/
def upLongS (c : Char) : Str :=
  if c.toNat < 128 then [c.toUpper] else if c.toNat = 0x17f then ['S'] else [c]

theorem upLongS_isUpper : IsUpper upLongS where
  ascii c h := by simp [upLongS, h]
  other c h := by
    unfold upLongS
    rw [if_neg (by omega)]
    split
    · exact ⟨by simp, by simp⟩
    · exact ⟨by simp, by simp [h]⟩

/-- An ordinary file META-INF/x.ſf is not checked. -/
theorem C53_full_fails : ¬ C53_full := by
  intro h
  have := (h upLongS upLongS_isUpper "META-INF/x.ſf".toList).1 (by decide +kernel)
  rcases this with h1 | ⟨d, h1⟩ | ⟨x, h1, _, h2⟩
  · revert h1; decide +kernel
  · have := (endsWith_iff _ ['/']).2 ⟨d, h1⟩
    revert this
    decide +kernel
  · have hx : x = "X.ſF".toList := by
      have h3 : asciiUpper "META-INF/x.ſf".toList = sMetaInf ++ '/' :: "X.ſF".toList := by
        decide +kernel
      rw [h3] at h1
      have := List.append_inj_right h1 rfl
      simp only [List.cons.injEq, true_and] at this
      exact this.symm
    subst hx
    rcases h2 with ⟨r, h2⟩ | ⟨r, h2⟩ | ⟨r, h2⟩ | ⟨r, h2⟩ | ⟨r, h2⟩
    · have := (endsWith_iff _ ".SF".toList).2 ⟨r, h2⟩
      revert this
      decide +kernel
    · have := (endsWith_iff _ ".RSA".toList).2 ⟨r, h2⟩
      revert this
      decide +kernel
    · have := (endsWith_iff _ ".DSA".toList).2 ⟨r, h2⟩
      revert this
      decide +kernel
    · have := (endsWith_iff _ ".EC".toList).2 ⟨r, h2⟩
      revert this
      decide +kernel
    · have := congrArg List.head? h2
      simp at this

/-- Some names. -/
example : (["META-INF/MANIFEST.MF", "meta-inf/manifest.mf", "a/b/", "META-INF/KEY.SF",
      "meta-inf/key.ec", "META-INF/sig-x", "META-INF/sub/KEY.SF", "x/KEY.SF", "META-INF/KEY.SFX",
      "KEY.SF", ""].map fun f => skipsVerification upLongS f.toList) =
    [true, true, true, true, true, true, false, false, false, false, false] := by decide +kernel

end Javatools
