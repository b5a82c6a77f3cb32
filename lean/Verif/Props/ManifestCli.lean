import Verif.Model.ManifestCli
import Verif.Proofs.JarSign
import Verif.Props.DirCopy
/-
C85-C92: the command lines of the manifest module.
-/
namespace Javatools

/-! ### Recording digests -/

/-- The section of a file: its name and its digest under each algorithm, and nothing else. -/
structure Records (H : Hashes) (algs : List Str) (name : Str) (b : Bytes) (s : Section) : Prop where
  name : PyDict.get? s kName = some name
  digest : ∀ a ∈ algs, ∃ h, H.get a = .ok h ∧ PyDict.get? s (a ++ "-Digest".toList) = some (b64encode (h b))
  only : ∀ k ∈ PyDict.keys s, k = kName ∨ ∃ a ∈ algs, k = a ++ "-Digest".toList
  nodup : (PyDict.keys s).Nodup

/-- The section `cli_create` makes. -/
def recordSection (hs : List (Str × (Bytes → Bytes))) (name : Str) (b : Bytes) : Section :=
  hs.foldl (fun s p => PyDict.set s (p.1 ++ sDigest) (b64encode (p.2 b))) (newSection name)

theorem getDigests_spec {H : Hashes} {ds : List Str} (h : ∀ d ∈ ds, ∃ f, H.get d = .ok f) :
    ∃ hs, getDigests H ds = .ok hs ∧ hs.map Prod.fst = ds ∧ ∀ p ∈ hs, H.get p.1 = .ok p.2 := by
  induction ds with
  | nil => exact ⟨[], rfl, rfl, by simp⟩
  | cons d ds ih =>
    obtain ⟨f, hf⟩ := h d (by simp)
    obtain ⟨hs, h1, h2, h3⟩ := ih fun x hx => h x (by simp [hx])
    refine ⟨(d, f) :: hs, by simp only [getDigests, hf, h1], by simp [h2], ?_⟩
    intro p hp
    rcases List.mem_cons.1 hp with rfl | hp
    · exact hf
    · exact h3 p hp

theorem getDigests_error {H : Hashes} {ds : List Str} {d : Str} (hd : d ∈ ds)
    (h : ∀ f, H.get d ≠ .ok f) : getDigests H ds = .error .unsupportedDigest := by
  have key : ∀ (n : Str) (e : PyErr), H.get n = .error e → e = .unsupportedDigest := by
    intro n e he
    unfold Hashes.get at he
    repeat' split at he
    all_goals simp_all
  induction ds with
  | nil => simp at hd
  | cons x ds ih =>
    simp only [getDigests]
    cases hx : H.get x with
    | error e => rw [key x e hx]
    | ok f =>
      rcases List.mem_cons.1 hd with rfl | hd
      · exact absurd hx (h f)
      · rw [ih hd]

theorem setDigests_eq {H : Hashes} {hs : List (Str × (Bytes → Bytes))}
    (h : ∀ p ∈ hs, H.get p.1 = .ok p.2) (b : Bytes) (s : Section) :
    setDigests b s hs =
      .ok (hs.foldl (fun s p => PyDict.set s (p.1 ++ sDigest) (b64encode (p.2 b))) s) := by
  induction hs generalizing s with
  | nil => rfl
  | cons p hs ih =>
    have hk := key_facts (get_supported (h p (by simp))) (.inl rfl : IsDigestSuffix sDigest)
    obtain ⟨d, f⟩ := p
    simp only [setDigests, setItem, List.foldl_cons]
    rw [if_neg (by have := hk.short; simp only at this; omega)]
    exact ih (fun q hq => h q (by simp [hq])) _

theorem foldDigests_get {H : Hashes} {hs : List (Str × (Bytes → Bytes))}
    (h : ∀ p ∈ hs, H.get p.1 = .ok p.2) (b : Bytes) (s : Section) :
    (∀ k, (∀ p ∈ hs, k ≠ p.1 ++ sDigest) →
      PyDict.get? (hs.foldl (fun s p => PyDict.set s (p.1 ++ sDigest) (b64encode (p.2 b))) s) k =
        PyDict.get? s k) ∧
    ∀ p ∈ hs, PyDict.get? (hs.foldl (fun s p => PyDict.set s (p.1 ++ sDigest) (b64encode (p.2 b))) s)
      (p.1 ++ sDigest) = some (b64encode (p.2 b)) := by
  induction hs generalizing s with
  | nil => simp
  | cons q hs ih =>
    obtain ⟨ih1, ih2⟩ := ih (fun p hp => h p (by simp [hp])) (PyDict.set s (q.1 ++ sDigest) (b64encode (q.2 b)))
    simp only [List.foldl_cons]
    constructor
    · intro k hk
      rw [ih1 k fun p hp => hk p (by simp [hp]), PyDict.get?_set, if_neg]
      exact fun e => hk q (by simp) e.symm
    · intro p hp
      by_cases hin : ∃ r ∈ hs, r.1 = p.1
      · obtain ⟨r, hr, e⟩ := hin
        have h1 := h r (by simp [hr])
        rw [e, h p hp] at h1
        rw [← e, ih2 r hr, Except.ok.inj h1]
      · have hne : ∀ r ∈ hs, p.1 ++ sDigest ≠ r.1 ++ sDigest := fun r hr e =>
          hin ⟨r, hr, (List.append_cancel_right e).symm⟩
        rcases List.mem_cons.1 hp with rfl | hp'
        · rw [ih1 _ hne, PyDict.get?_set, if_pos rfl]
        · exact absurd rfl (hne p hp')

theorem foldDigests_keys (hs : List (Str × (Bytes → Bytes))) (b : Bytes) (s : Section) :
    ((PyDict.keys s).Nodup → (PyDict.keys
      (hs.foldl (fun s p => PyDict.set s (p.1 ++ sDigest) (b64encode (p.2 b))) s)).Nodup) ∧
    ∀ k ∈ PyDict.keys (hs.foldl (fun s p => PyDict.set s (p.1 ++ sDigest) (b64encode (p.2 b))) s),
      k ∈ PyDict.keys s ∨ ∃ p ∈ hs, k = p.1 ++ sDigest := by
  induction hs generalizing s with
  | nil => exact ⟨id, fun k hk => .inl hk⟩
  | cons q hs ih =>
    obtain ⟨ih1, ih2⟩ := ih (PyDict.set s (q.1 ++ sDigest) (b64encode (q.2 b)))
    simp only [List.foldl_cons]
    refine ⟨fun h => ih1 (PyDict.nodup_keys_set _ _ _ h), fun k hk => ?_⟩
    rcases ih2 k hk with h | ⟨p, hp, e⟩
    · rw [PyDict.keys_set] at h
      split at h
      · exact .inl h
      · rcases List.mem_append.1 h with h | h
        · exact .inl h
        · exact .inr ⟨q, by simp, by simpa using h⟩
    · exact .inr ⟨p, by simp [hp], e⟩

theorem recordSection_records {H : Hashes} {hs : List (Str × (Bytes → Bytes))}
    (h : ∀ p ∈ hs, H.get p.1 = .ok p.2) (name : Str) (b : Bytes) :
    Records H (hs.map Prod.fst) name b (recordSection hs name b) := by
  obtain ⟨h1, h2⟩ := foldDigests_get h b (newSection name)
  obtain ⟨h3, h4⟩ := foldDigests_keys hs b (newSection name)
  constructor
  · refine (h1 kName fun p hp e => ?_).trans (by simp [newSection, PyDict.get?])
    exact (key_facts (get_supported (h p hp)) (.inl rfl : IsDigestSuffix sDigest)).name e.symm
  · intro a ha
    obtain ⟨p, hp, rfl⟩ := List.mem_map.1 ha
    exact ⟨p.2, h p hp, h2 p hp⟩
  · intro k hk
    rcases h4 k hk with h | ⟨p, hp, e⟩
    · exact .inl (by simpa [newSection, PyDict.keys] using h)
    · exact .inr ⟨p.1, List.mem_map.2 ⟨p, hp, rfl⟩, e⟩
  · exact h3 (by simp [newSection, PyDict.keys])

/-- What is recorded for a name: the last file of that name, unless the name is ignored. -/
def recorded (hs : List (Str × (Bytes → Bytes))) (ignores : List Str) (es : List (Str × Bytes))
    (n : Str) (old : Option Section) : Option Section :=
  if fnmatches n ignores then old
  else
    match PyDict.get? es.reverse n with
    | some b => some (recordSection hs n b)
    | none => old

theorem get?_append {κ ν : Type} [DecidableEq κ] (d e : PyDict κ ν) (k : κ) :
    PyDict.get? (d ++ e) k = (PyDict.get? d k).or (PyDict.get? e k) := by
  induction d with
  | nil => simp [PyDict.get?]
  | cons p d ih =>
    obtain ⟨a, v⟩ := p
    simp only [List.cons_append, PyDict.get?]
    split
    · rfl
    · exact ih

theorem createSections_spec {H : Hashes} {hs : List (Str × (Bytes → Bytes))}
    (h : ∀ p ∈ hs, H.get p.1 = .ok p.2) (ignores : List Str) (es : List (Str × Bytes)) (m : Manifest) :
    ∃ m', createSections hs ignores none m (es.map fun e => (e.1, .ok e.2)) = .ok m' ∧
      m'.main = m.main ∧ m'.linesep = m.linesep ∧
      ((PyDict.keys m.subs).Nodup → (PyDict.keys m'.subs).Nodup) ∧
      ∀ n, PyDict.get? m'.subs n = recorded hs ignores es n (PyDict.get? m.subs n) := by
  induction es generalizing m with
  | nil =>
    refine ⟨m, rfl, rfl, rfl, id, fun n => ?_⟩
    simp [recorded, PyDict.get?]
  | cons e es ih =>
    obtain ⟨n0, b0⟩ := e
    simp only [List.map_cons, createSections]
    by_cases hi : fnmatches n0 ignores = true
    · rw [if_pos hi]
      obtain ⟨m', h1, h2, h3, h4, h5⟩ := ih m
      refine ⟨m', h1, h2, h3, h4, fun n => ?_⟩
      rw [h5 n]
      unfold recorded
      by_cases hn : fnmatches n ignores = true
      · rw [if_pos hn, if_pos hn]
      · rw [if_neg hn, if_neg hn, List.reverse_cons, get?_append]
        have : n0 ≠ n := fun e => hn (e ▸ hi)
        simp [PyDict.get?, this]
    · rw [if_neg hi, setDigests_eq h]
      obtain ⟨m', h1, h2, h3, h4, h5⟩ := ih
        { m with subs := PyDict.set m.subs n0 (recordSection hs n0 b0) }
      refine ⟨m', h1, h2, h3, fun hnd => h4 (PyDict.nodup_keys_set _ _ _ hnd), fun n => ?_⟩
      rw [h5 n]
      unfold recorded
      by_cases hn : fnmatches n ignores = true
      · rw [if_pos hn, if_pos hn, PyDict.get?_set, if_neg]
        rintro rfl
        exact hi hn
      · rw [if_neg hn, if_neg hn, List.reverse_cons, get?_append, PyDict.get?_set]
        by_cases e : n0 = n
        · subst e
          cases PyDict.get? es.reverse n0 <;> simp [PyDict.get?]
        · cases PyDict.get? es.reverse n <;> simp [PyDict.get?, e]

/-! ### C85: from an archive -/

/-- A pattern covers the name: the fixed one or one of the given ones. -/
def IgnoredBy (patterns : List Str) (n : Str) : Prop :=
  Glob "META-INF/*".toList n ∨ ∃ p ∈ patterns, p ≠ [] ∧ Glob p n

theorem ignoredBy_iff (patterns : List Str) (n : Str) :
    fnmatches n ("META-INF/*".toList :: patterns) = true ↔ IgnoredBy patterns n := by
  rw [C61_fnmatches]
  unfold IgnoredBy
  simp only [List.mem_cons]
  constructor
  · rintro ⟨p, rfl | hp, h1, h2⟩
    · exact .inl h2
    · exact .inr ⟨p, hp, h1, h2⟩
  · rintro (h | ⟨p, hp, h1, h2⟩)
    · exact ⟨_, .inl rfl, by simp, h⟩
    · exact ⟨p, .inr hp, h1, h2⟩

theorem glob_metainf (n : Str) : Glob "META-INF/*".toList n ↔ "META-INF/".toList <+: n := by
  rw [← C61_fnmatch]
  refine (fnmatch_prefix n "META-INF/".toList (by decide)).trans ?_
  exact ⟨fun ⟨r, h⟩ => ⟨r, h.symm⟩, fun ⟨r, h⟩ => ⟨r, h.symm⟩⟩

/-- The requested algorithms. -/
def requestedDigests (args : CreateArgs) : List Str :=
  splitAll ',' (args.digest.getD "MD5,SHA1".toList)

/-- The name is that of a directory. -/
def EndsInSlash (n : Str) : Prop := ∃ d, n = d ++ ['/']

theorem getLast_slash (n : Str) : n.getLast? = some '/' ↔ EndsInSlash n := by
  constructor
  · intro h
    obtain ⟨l, hl⟩ := List.getLast?_eq_some_iff.1 h
    exact ⟨l, hl⟩
  · rintro ⟨d, rfl⟩
    simp

theorem zipEntries_spec (z : Zip) (names : List Str) (hn : ∀ n ∈ names, n ∈ namelist z)
    (hne : ∀ n ∈ names, n ≠ []) :
    ∃ es : List (Str × Bytes), zipEntries z names = (es.map fun e => (e.1, .ok e.2), none) ∧
      ∀ n b, (n, b) ∈ es ↔ n ∈ names ∧ ¬ EndsInSlash n ∧ zipRead z n = .ok b := by
  induction names with
  | nil => exact ⟨[], rfl, by simp⟩
  | cons f fs ih =>
    obtain ⟨es, h1, h2⟩ := ih (fun n h => hn n (by simp [h])) fun n h => hne n (by simp [h])
    have hf : f ≠ [] := hne f (by simp)
    obtain ⟨b, hb, _⟩ := zipRead_mem (hn f (by simp))
    simp only [zipEntries, h1]
    cases hl : f.getLast? with
    | none => exact absurd (List.getLast?_eq_none_iff.1 hl) hf
    | some c =>
      by_cases hc : c = '/'
      · subst hc
        refine ⟨es, by simp, fun n x => ?_⟩
        rw [h2]
        constructor
        · rintro ⟨h, h'⟩; exact ⟨by simp [h], h'⟩
        · rintro ⟨h, h'⟩
          rcases List.mem_cons.1 h with rfl | h
          · exact absurd ((getLast_slash _).1 hl) h'.1
          · exact ⟨h, h'⟩
      · refine ⟨(f, b) :: es, by simp [hc, hb], fun n x => ?_⟩
        have hnd : ¬ EndsInSlash f := fun h => by
          rw [(getLast_slash f).2 h] at hl
          exact hc (Option.some.inj hl).symm
        simp only [List.mem_cons, h2, Prod.mk.injEq]
        constructor
        · rintro (⟨rfl, rfl⟩ | ⟨h, h'⟩)
          · exact ⟨.inl rfl, hnd, hb⟩
          · exact ⟨.inr h, h'⟩
        · rintro ⟨rfl | h, h'⟩
          · rw [hb] at h'
            exact .inl ⟨rfl, (Except.ok.inj h'.2).symm⟩
          · exact .inr ⟨h, h'⟩

theorem createIgnores_one (ps : List Str) : createIgnores [ps] = .ok ("META-INF/*".toList :: ps) := rfl

/-- C85. The manifest made from an archive whose entries all have names: for every supported
choice of algorithms and at most one list of patterns there is a section for exactly each file
whose name no pattern covers, and it records the file. -/
theorem C85_created (H : Hashes) (W : World) (args : CreateArgs) (z : Zip) (patterns : List Str)
    (hr : args.recursive = false) (hnode : ∀ f, W.node args.content ≠ .dir f)
    (hz : W.zip args.content = .ok z) (hne : ∀ n ∈ namelist z, n ≠ [])
    (hp : args.ignore = [] ∧ patterns = [] ∨ args.ignore = [patterns])
    (hd : ∀ a ∈ requestedDigests args, ∃ h, H.get a = .ok h) :
    ∃ m, createManifest H W args = .ok m ∧ m.main = [(kManifestVersion, "1.0".toList)] ∧
      m.linesep = none ∧ (PyDict.keys m.subs).Nodup ∧
      (∀ n, n ∈ PyDict.keys m.subs ↔ n ∈ namelist z ∧ ¬ EndsInSlash n ∧ ¬ IgnoredBy patterns n) ∧
      ∀ n s, PyDict.get? m.subs n = some s →
        ∃ b, zipRead z n = .ok b ∧ Records H (requestedDigests args) n b s := by
  obtain ⟨hs, g1, g2, g3⟩ := getDigests_spec hd
  obtain ⟨es, e1, e2⟩ := zipEntries_spec z (namelist z) (fun _ h => h) hne
  obtain ⟨m', c1, c2, c3, c4, c5⟩ :=
    createSections_spec g3 ("META-INF/*".toList :: patterns) es emptyManifest
  have hig : createIgnores args.ignore = .ok ("META-INF/*".toList :: patterns) := by
    rcases hp with ⟨h1, rfl⟩ | h1 <;> rw [h1] <;> rfl
  have hsp : singlePathGenerator W args.content = (es.map fun e => (e.1, .ok e.2), none) := by
    unfold singlePathGenerator
    split
    · rename_i f h
      exact absurd h (hnode f)
    · rw [hz]; exact e1
  have hget : ∀ n, PyDict.get? m'.subs n = if fnmatches n ("META-INF/*".toList :: patterns) then none
      else (PyDict.get? es.reverse n).map (recordSection hs n) := by
    intro n
    rw [c5 n]
    unfold recorded
    split
    · rfl
    · cases PyDict.get? es.reverse n <;> rfl
  have hmem : ∀ n b, PyDict.get? es.reverse n = some b →
      n ∈ namelist z ∧ ¬ EndsInSlash n ∧ zipRead z n = .ok b := fun n b h =>
    (e2 n b).1 (List.mem_reverse.1 (PyDict.mem_of_get? h))
  refine ⟨m', ?_, c2, c3, c4 (by simp [emptyManifest, Manifest.new, PyDict.keys]), fun n => ?_, ?_⟩
  · unfold createManifest
    simp only [requestedDigests] at g1
    simp only [g1, hr, Bool.false_eq_true, if_false, hig, hsp]
    exact c1
  · rw [← PyDict.get?_isSome_iff, hget]
    by_cases hi : fnmatches n ("META-INF/*".toList :: patterns) = true
    · rw [if_pos hi]
      simp only [Option.isSome_none, Bool.false_eq_true, false_iff]
      exact fun h => h.2.2 ((ignoredBy_iff _ _).1 hi)
    · rw [if_neg hi, Option.isSome_map]
      constructor
      · intro h
        obtain ⟨b, hb⟩ := Option.isSome_iff_exists.1 h
        obtain ⟨h1, h2, _⟩ := hmem n b hb
        exact ⟨h1, h2, fun h => hi ((ignoredBy_iff _ _).2 h)⟩
      · rintro ⟨h1, h2, _⟩
        obtain ⟨b, hb, _⟩ := zipRead_mem h1
        rw [PyDict.get?_isSome_iff]
        have : (n, b) ∈ es := (e2 n b).2 ⟨h1, h2, hb⟩
        simp only [PyDict.keys, List.map_reverse, List.mem_reverse, List.mem_map]
        exact ⟨_, this, rfl⟩
  · intro n s h
    rw [hget] at h
    split at h
    · simp at h
    · obtain ⟨b, hb, rfl⟩ := Option.map_eq_some_iff.1 h
      refine ⟨b, (hmem n b hb).2.2, ?_⟩
      have := recordSection_records g3 n b
      rwa [g2] at this

theorem createSections_raises (hs : List (Str × (Bytes → Bytes))) (ignores : List Str) (e : PyErr)
    (es : List (Str × Res Bytes)) (m m' : Manifest) :
    createSections hs ignores (some e) m es ≠ .ok m' := by
  induction es generalizing m with
  | nil => simp [createSections]
  | cons x es ih =>
    obtain ⟨n, b⟩ := x
    simp only [createSections]
    split
    · exact ih m
    · cases b with
      | error e' => simp
      | ok b =>
        simp only
        split
        · simp
        · exact ih _

theorem zipEntries_raises (z : Zip) (fs : List Str) (h : [] ∈ fs) :
    (zipEntries z fs).2 = some .indexError := by
  induction fs with
  | nil => simp at h
  | cons f fs ih =>
    simp only [zipEntries]
    cases hf : f.getLast? with
    | none => rfl
    | some c =>
      have : [] ∈ fs := by
        rcases List.mem_cons.1 h with h | h
        · rw [← h] at hf; simp at hf
        · exact h
      simp only
      split
      · exact ih this
      · exact ih this

/-- C85: no manifest is made of an archive that cannot be opened, or that has an entry without a
name. -/
theorem C85_raises (H : Hashes) (W : World) (args : CreateArgs) (hr : args.recursive = false)
    (hnode : ∀ f, W.node args.content ≠ .dir f)
    (hz : ∀ z, W.zip args.content = .ok z → [] ∈ namelist z) :
    ∃ e, createManifest H W args = .error e := by
  have hsp : ∃ e, (singlePathGenerator W args.content).2 = some e := by
    unfold singlePathGenerator
    split
    · rename_i f hf
      exact absurd hf (hnode f)
    · cases hw : W.zip args.content with
      | error e => exact ⟨e, rfl⟩
      | ok z => exact ⟨_, zipEntries_raises z _ (hz z hw)⟩
  obtain ⟨e, he⟩ := hsp
  cases hm : createManifest H W args with
  | error e => exact ⟨e, rfl⟩
  | ok m =>
    exfalso
    unfold createManifest at hm
    simp only [hr, Bool.false_eq_true, if_false, he] at hm
    revert hm
    split
    · simp
    · split
      · simp
      · exact createSections_raises _ _ _ _ _ _

/-- Specification: the entries that verification finds fault with. -/
def LeftOut (patterns : List Str) (n : Str) : Prop := ¬ Exempt n ∧ IgnoredBy patterns n

/-- A manifest that has the sections of C85, and perhaps empty ones for other names. -/
structure CreatedFor (H : Hashes) (algs patterns : List Str) (z : Zip) (m : Manifest) : Prop where
  recorded : ∀ n ∈ namelist z, ¬ EndsInSlash n → ¬ IgnoredBy patterns n →
    ∃ b s, zipRead z n = .ok b ∧ PyDict.get? m.subs n = some s ∧ Records H algs n b s
  other : ∀ n, IgnoredBy patterns n → ∀ s, PyDict.get? m.subs n = some s → s = newSection n

theorem records_match {H : Hashes} {algs : List Str} {n : Str} {b : Bytes} {s : Section}
    (h : Records H algs n b s) (hne : algs ≠ []) :
    (keysWithSuffix s sDigest).isEmpty = false ∧
      matchDigest H (.ok b) s sDigest (keysWithSuffix s sDigest) = .ok true := by
  obtain ⟨a, ha⟩ := List.exists_mem_of_ne_nil _ hne
  obtain ⟨f, hf, hg⟩ := h.digest a ha
  have hmem : a ∈ keysWithSuffix s sDigest :=
    C48_supported s sDigest a (.inl rfl) (get_supported hf)
      ((PyDict.get?_isSome_iff _ _).1 (by rw [show sDigest = "-Digest".toList from rfl, hg]; rfl))
  refine ⟨?_, matchDigest_hit ?_ hmem hf hg⟩
  · cases hk : keysWithSuffix s sDigest with
    | nil => rw [hk] at hmem; simp at hmem
    | cons => rfl
  · intro d hd
    obtain ⟨⟨t, h1, ⟨a', h2⟩, h3⟩, h4⟩ := (C48_exact s sDigest d).1 hd
    rcases h.only _ h1 with e | ⟨a', ha', e⟩
    · exfalso
      rw [h2] at e
      have := congrArg List.getLast? e
      rw [List.getLast?_append] at this
      have e1 : sDigest.getLast? = some 't' := by decide
      have e2 : kName.getLast? = some 'e' := by decide
      rw [e1, e2] at this
      simp at this
    · obtain ⟨f', hf', _⟩ := h.digest a' ha'
      have h5 := supported_last (get_supported hf') (.inl rfl : IsDigestSuffix sDigest)
      have h6 : rstripChars (d ++ t) sDigest = d := rstripChars_append h3 h4
      have h7 : rstripChars (a' ++ sDigest) sDigest = a' := rstripChars_append (fun _ h => h) h5
      rw [e] at h6
      have : d = a' := h6.symm.trans h7
      exact ⟨f', this ▸ hf'⟩

open Classical in
theorem verifyEntries_created {up : Char → Str} (hup : IsUpper up) {H : Hashes}
    {algs patterns : List Str} (hne : algs ≠ []) {z : Zip} {m : Manifest}
    (h : CreatedFor H algs patterns z m) (names : List Str) (hn : ∀ n ∈ names, n ∈ namelist z)
    (ha : ∀ n ∈ names, AsciiText n) :
    ∃ m', verifyEntries up H z true m names =
      .ok (names.filter fun n => decide (LeftOut patterns n), m') := by
  induction names generalizing m with
  | nil => exact ⟨m, rfl⟩
  | cons f fs ih =>
    simp only [verifyEntries]
    have hfs := fun x (hx : x ∈ fs) => hn x (by simp [hx])
    have has := fun x (hx : x ∈ fs) => ha x (by simp [hx])
    by_cases hsk : skipsVerification up f = true
    · rw [if_pos hsk]
      obtain ⟨m', hm⟩ := ih h hfs has
      refine ⟨m', ?_⟩
      rw [hm, List.filter_cons_of_neg]
      simp only [decide_eq_true_eq]
      exact fun hl => hl.1 ((C53_partial up hup f (ha f (by simp))).1 hsk)
    · rw [if_neg hsk]
      have hex : ¬ Exempt f := fun he => hsk ((C53_partial up hup f (ha f (by simp))).2 he)
      have hdir : ¬ EndsInSlash f := fun hd => hex (.inr (.inl hd))
      by_cases hi : IgnoredBy patterns f
      · have hleft : LeftOut patterns f := ⟨hex, hi⟩
        rw [List.filter_cons_of_pos (by simpa using hleft)]
        have hk : keysWithSuffix (newSection f) sDigest = [] := by
          simp only [newSection, keysWithSuffix, PyDict.keys, List.map_cons, List.map_nil]
          have : endsWith kName sDigest = false := by decide
          simp [this]
        cases hg : PyDict.get? m.subs f with
        | some s =>
          rw [create_existing hg, h.other f hi s hg, hk]
          obtain ⟨m', hm⟩ := ih h hfs has
          exact ⟨m', by simp [hm]⟩
        | none =>
          obtain ⟨h1, _, h2⟩ := (C69_keep m f).2 hg
          rw [h1, hk]
          have h' : CreatedFor H algs patterns z (createSection m f false).2 := by
            constructor
            · intro n hn hd hig
              obtain ⟨b, s, hb, hs, hr⟩ := h.recorded n hn hd hig
              refine ⟨b, s, hb, ?_, hr⟩
              rw [h2, if_neg]
              · exact hs
              · rintro rfl; exact hig hi
            · intro n hig s hs
              rw [h2] at hs
              split at hs
              · rename_i e; subst e; exact (Option.some.inj hs).symm
              · exact h.other n hig s hs
          obtain ⟨m', hm⟩ := ih h' hfs has
          exact ⟨m', by simp [hm]⟩
      · obtain ⟨b, s, hb, hs, hr⟩ := h.recorded f (hn f (by simp)) hdir hi
        obtain ⟨h1, h2⟩ := records_match hr hne
        rw [create_existing hs, hb]
        obtain ⟨m', hm⟩ := ih h hfs has
        refine ⟨m', ?_⟩
        rw [List.filter_cons_of_neg (by simp only [decide_eq_true_eq]; exact fun hl => hi hl.2)]
        simp only [h1, h2, Bool.false_and, Bool.false_eq_true, if_false]
        exact hm

/-- How the archive and the options have to be for C85. -/
structure ArchiveInput (H : Hashes) (W : World) (args : CreateArgs) (z : Zip) (patterns : List Str) :
    Prop where
  recursive : args.recursive = false
  node : ∀ f, W.node args.content ≠ .dir f
  zip : W.zip args.content = .ok z
  names : ∀ n ∈ namelist z, n ≠ []
  ignore : args.ignore = [] ∧ patterns = [] ∨ args.ignore = [patterns]
  digests : ∀ a ∈ requestedDigests args, ∃ h, H.get a = .ok h

/-- C86 as stated: an archive passes verification against the manifest created from it. -/
def C86_full : Prop :=
  ∀ (up : Char → Str) (H : Hashes) (W : World) (args : CreateArgs) (z : Zip) (m : Manifest),
    IsUpper up → ArchiveInput H W args z [] → createManifest H W args = .ok m →
    ∃ m', verifyJarChecksums up H m z = .ok ([], m')

open Classical in
/-- C86, exactly, for ASCII names: the entries that fail are those that are neither exempt from
verification nor recorded, in order. -/
theorem C86_exact (up : Char → Str) (H : Hashes) (W : World) (args : CreateArgs) (z : Zip)
    (patterns : List Str) (m : Manifest) (hup : IsUpper up) (ha : ∀ n ∈ namelist z, AsciiText n)
    (hin : ArchiveInput H W args z patterns) (hm : createManifest H W args = .ok m) :
    ∃ m', verifyJarChecksums up H m z =
      .ok ((namelist z).filter fun n => decide (LeftOut patterns n), m') := by
  obtain ⟨h1, h2, h3, h4, h5, h6⟩ := hin
  obtain ⟨m0, e0, _, _, _, c1, c2⟩ := C85_created H W args z patterns h1 h2 h3 h4 h5 h6
  rw [hm] at e0
  obtain rfl := Except.ok.inj e0
  apply verifyEntries_created hup (splitAll_ne_nil ',' _ : requestedDigests args ≠ []) _ _ (fun _ h => h) ha
  constructor
  · intro n hn hd hi
    have hk := (c1 n).2 ⟨hn, hd, hi⟩
    obtain ⟨s, hs⟩ := Option.isSome_iff_exists.1 ((PyDict.get?_isSome_iff _ _).2 hk)
    obtain ⟨b, hb, hr⟩ := c2 n s hs
    exact ⟨b, s, hb, hs, hr⟩
  · intro n hi s hs
    have hk := (PyDict.get?_isSome_iff _ _).1 (by rw [hs]; rfl : (PyDict.get? m.subs n).isSome = true)
    exact absurd hi ((c1 n).1 hk).2.2

/-- C86 for archives with ASCII names in which everything below META-INF is exempt from
verification and without further patterns. Missing: other files below META-INF are never recorded
but are verified, see `C86_full_fails`. -/
theorem C86_partial (up : Char → Str) (H : Hashes) (W : World) (args : CreateArgs) (z : Zip)
    (m : Manifest) (hup : IsUpper up) (ha : ∀ n ∈ namelist z, AsciiText n)
    (hin : ArchiveInput H W args z []) (hx : ∀ n ∈ namelist z, "META-INF/".toList <+: n → Exempt n)
    (hm : createManifest H W args = .ok m) :
    ∃ m', verifyJarChecksums up H m z = .ok ([], m') := by
  classical
  obtain ⟨m', h⟩ := C86_exact up H W args z [] m hup ha hin hm
  refine ⟨m', ?_⟩
  rw [h]
  congr 2
  rw [List.filter_eq_nil_iff]
  intro n hn hl
  obtain ⟨h1, h2⟩ := of_decide_eq_true hl
  rcases h2 with h2 | ⟨p, hp, _⟩
  · exact h1 (hx n hn ((glob_metainf n).1 h2))
  · simp at hp

/-- A world with one archive. -/
def oneJar (z : Zip) : World where
  node p := if p = "x.jar".toList then .file [] else .missing
  zip p := if p = "x.jar".toList then .ok z else .error eFileNotFound

theorem oneJar_input (z : Zip) (h : ∀ n ∈ namelist z, n ≠ []) :
    ArchiveInput idHashes (oneJar z) { content := "x.jar".toList } z [] := by
  refine ⟨rfl, fun f => ?_, by simp [oneJar], h, .inl ⟨rfl, rfl⟩, ?_⟩
  · simp [oneJar]
  · have : requestedDigests { content := "x.jar".toList } = ["MD5".toList, "SHA1".toList] := by
      decide +kernel
    rw [this]
    intro a ha
    simp only [List.mem_cons, List.not_mem_nil, or_false] at ha
    rcases ha with rfl | rfl
    · exact ⟨id, by rfl⟩
    · exact ⟨id, by rfl⟩

/-- A file below META-INF is verified but not recorded. -/
theorem C86_full_fails : ¬ C86_full := by
  intro h
  have hin := oneJar_input [("META-INF/services/S".toList, [1])] (by simp [namelist])
  obtain ⟨m, hm⟩ : ∃ m, createManifest idHashes (oneJar [("META-INF/services/S".toList, [1])])
      { content := "x.jar".toList } = .ok m := ⟨emptyManifest, by decide +kernel⟩
  have e : emptyManifest = m := by
    have : createManifest idHashes (oneJar [("META-INF/services/S".toList, [1])])
      { content := "x.jar".toList } = .ok emptyManifest := by decide +kernel
    rw [hm] at this
    exact (Except.ok.inj this).symm
  subst e
  obtain ⟨m', h'⟩ := h upLongS idHashes _ _ _ _ upLongS_isUpper hin hm
  have : ∀ m', verifyJarChecksums upLongS idHashes emptyManifest
      [("META-INF/services/S".toList, [1])] ≠ .ok ([], m') := by
    intro m' h
    have h2 : (match verifyJarChecksums upLongS idHashes emptyManifest
        [("META-INF/services/S".toList, [1])] with | .ok (f, _) => f | .error _ => []) ≠ [] := by
      decide +kernel
    rw [h] at h2
    exact h2 rfl
  exact this m' h'

/-- An archive with its manifest, a directory, a class and a text file that a pattern ignores. -/
example :
    let z : Zip := [("META-INF/MANIFEST.MF".toList, [9]), ("a/".toList, []), ("a/B.class".toList, [1, 2]),
      ("a/c.txt".toList, [3])]
    let args : CreateArgs := { content := "x.jar".toList, ignore := [["*.txt".toList]],
                               digest := some "SHA-256".toList }
    let m : Manifest := { emptyManifest with subs := [("a/B.class".toList,
      [(kName, "a/B.class".toList), ("SHA-256-Digest".toList, "AQI=".toList)])] }
    createManifest idHashes (oneJar z) args = .ok m ∧
      (verifyJarChecksums upLongS idHashes m z).map Prod.fst = .ok ["a/c.txt".toList] := by
  decide +kernel

/-! ### C87: from a directory -/

/-- The path with a slash at its end. -/
def withSlash (a : Str) : Str := if a.getLast? = some '/' then a else a ++ ['/']

/-- The names, each followed by a slash. -/
def dirText (q : List Str) : Str := q.flatMap (· ++ ['/'])

/-- The name that is given to the file `f` in the directory `q` below `base`: the base and the
directories, and what is left of the base name without as many characters as the base has. -/
def generatedName (base : Str) (q : List Str) (f : Str) : Str :=
  withSlash base ++ dirText q ++ f.drop (withSlash base).length

theorem pathJoin_plain {a x : Str} (ha : a ≠ []) (hx : '/' ∉ x) : pathJoin a x = withSlash a ++ x := by
  unfold pathJoin withSlash
  rw [if_neg]
  · by_cases hl : a.getLast? = some '/'
    · rw [if_pos (.inr hl), if_pos hl]
    · rw [if_neg (by simp [ha, hl]), if_neg hl]
      simp
  · intro h
    cases x with
    | nil => simp at h
    | cons c x => exact hx (by simp at h; simp [h])

theorem foldl_join {q : List Str} {a : Str} (ha : a ≠ []) (hq : ∀ n ∈ q, IsName n) :
    q.foldl pathJoin a ≠ [] ∧ withSlash (q.foldl pathJoin a) = withSlash a ++ dirText q := by
  induction q generalizing a with
  | nil => exact ⟨ha, by simp [dirText]⟩
  | cons n q ih =>
    have hn := hq n (by simp)
    rw [List.foldl_cons, pathJoin_plain ha hn.2.1]
    have hne : withSlash a ++ n ≠ [] := by simp [hn.1]
    obtain ⟨h1, h2⟩ := ih hne fun m hm => hq m (by simp [hm])
    refine ⟨h1, ?_⟩
    rw [h2]
    have hl : (withSlash a ++ n).getLast? ≠ some '/' := by
      rw [List.getLast?_append]
      intro h
      cases hg : n.getLast? with
      | none => exact hn.1 (List.getLast?_eq_none_iff.1 hg)
      | some c =>
        rw [hg] at h
        simp only [Option.some_or, Option.some.injEq] at h
        subst h
        obtain ⟨ys, hy⟩ := List.getLast?_eq_some_iff.1 hg
        exact hn.2.1 (by rw [hy]; simp)
    have : withSlash (withSlash a ++ n) = withSlash a ++ n ++ ['/'] := by
      generalize withSlash a ++ n = x at hl ⊢
      unfold withSlash
      rw [if_neg hl]
    rw [this]
    simp [dirText]

theorem names_of_path {F : Forest} (hF : F.Ok) {p : List Str} {b : Bytes} {t : Int}
    (h : FileAt F p b t) : ∀ n ∈ p, IsName n := by
  induction h with
  | here n b t nx => simpa using hF.1
  | @inside n s p b t nx _ ih =>
    intro m hm
    rcases List.mem_cons.1 hm with rfl | hm
    · exact hF.1
    · exact ih hF.2.2.1 m hm
  | afterFile n b' t' _ ih => exact ih hF.2.2
  | afterDir n s _ ih => exact ih hF.2.2.2

/-- The files of a directory as they are handed to `cli_create`. -/
def dirItems (base : Str) (F : Forest) (trim : Nat) : List (Str × Bytes) :=
  (F.walk []).flatMap fun w =>
    w.2.2.map fun g => (pathJoin (w.1.foldl pathJoin base) (g.1.drop trim), g.2)

theorem directoryGenerator_eq (base : Str) (F : Forest) (trim : Nat) :
    directoryGenerator base F trim = (dirItems base F trim).map fun e => (e.1, .ok e.2) := by
  simp [directoryGenerator, dirItems, List.map_flatMap, Function.comp_def]

theorem mem_dirItems {base : Str} (hb : base ≠ []) {F : Forest} (hF : F.Ok) (trim : Nat) (n : Str)
    (b : Bytes) : (n, b) ∈ dirItems base F trim ↔
      ∃ q f t, FileAt F (q ++ [f]) b t ∧ n = withSlash base ++ dirText q ++ f.drop trim := by
  have hname : ∀ {q : List Str} {f : Str} {b : Bytes} {t : Int}, FileAt F (q ++ [f]) b t →
      pathJoin (q.foldl pathJoin base) (f.drop trim) = withSlash base ++ dirText q ++ f.drop trim := by
    intro q f b t h
    have hn := names_of_path hF h
    obtain ⟨h1, h2⟩ := foldl_join (q := q) hb fun m hm => hn m (by simp [hm])
    rw [pathJoin_plain h1, h2]
    exact fun hx => (hn f (by simp)).2.1 (List.mem_of_mem_drop hx)
  have hat : ∀ w ∈ F.walk [], ∀ g ∈ w.2.2, ∃ t, FileAt F (w.1 ++ [g.1]) g.2 t := by
    intro w hw g hg
    rcases List.mem_cons.1 hw with rfl | hw
    · obtain ⟨t, ht⟩ := (mem_files hF).1 hg
      exact ⟨t, (fileAt_cons hF).2 (.inl ⟨rfl, ht⟩)⟩
    · exact (walkSubs_facts hF hw).2.2 g hg
  simp only [dirItems, List.mem_flatMap, List.mem_map, Prod.mk.injEq]
  constructor
  · rintro ⟨w, hw, g, hg, rfl, rfl⟩
    obtain ⟨t, ht⟩ := hat w hw g hg
    exact ⟨w.1, g.1, t, ht, hname ht⟩
  · rintro ⟨q, f, t, h, rfl⟩
    have hp : q ++ [f] ∈ F.paths := (mem_paths hF).2 ⟨b, t, h⟩
    simp only [Forest.paths, walkPaths, List.mem_flatMap, List.mem_map] at hp
    obtain ⟨w, hw, g, hg, e⟩ := hp
    obtain ⟨e1, e2⟩ := List.append_inj' e rfl
    simp only [List.cons.injEq, and_true] at e2
    obtain ⟨u, hu⟩ := hat w hw g hg
    rw [e1, e2] at hu
    exact ⟨w, hw, g, hg, by rw [e1, e2]; exact hname h, (hu.unique hF h).1⟩

/-- How the directory and the options have to be for C87. -/
structure DirInput (H : Hashes) (W : World) (args : CreateArgs) (F : Forest) (patterns : List Str) :
    Prop where
  recursive : args.recursive = false
  node : W.node args.content = .dir F
  name : args.content ≠ []
  ok : F.Ok
  ignore : args.ignore = [] ∧ patterns = [] ∨ args.ignore = [patterns]
  digests : ∀ a ∈ requestedDigests args, ∃ h, H.get a = .ok h

/-- C87 as stated: every file of the directory that no pattern covers is recorded under its path
relative to the directory. -/
def C87_full : Prop :=
  ∀ (H : Hashes) (W : World) (args : CreateArgs) (F : Forest) (patterns : List Str),
    DirInput H W args F patterns → ∃ m, createManifest H W args = .ok m ∧
      ∀ p b t, FileAt F p b t → ¬ IgnoredBy patterns (slashed p) →
        ∃ s, PyDict.get? m.subs (slashed p) = some s ∧
          Records H (requestedDigests args) (slashed p) b s

/-- C87, exactly: the sections are those of the generated names that no pattern covers, and each
records a file of that generated name. -/
theorem C87_exact_partial (H : Hashes) (W : World) (args : CreateArgs) (F : Forest) (patterns : List Str)
    (hin : DirInput H W args F patterns) :
    ∃ m, createManifest H W args = .ok m ∧
      (∀ n, n ∈ PyDict.keys m.subs ↔ ¬ IgnoredBy patterns n ∧
        ∃ q f b t, FileAt F (q ++ [f]) b t ∧ n = generatedName args.content q f) ∧
      ∀ n s, PyDict.get? m.subs n = some s → ∃ q f b t, FileAt F (q ++ [f]) b t ∧
        n = generatedName args.content q f ∧ Records H (requestedDigests args) n b s := by
  obtain ⟨hs, g1, g2, g3⟩ := getDigests_spec hin.digests
  have hmem := mem_dirItems hin.name hin.ok (withSlash args.content).length
  obtain ⟨m', c1, _, _, _, c5⟩ := createSections_spec g3 ("META-INF/*".toList :: patterns)
    (dirItems args.content F (withSlash args.content).length) emptyManifest
  have hig : createIgnores args.ignore = .ok ("META-INF/*".toList :: patterns) := by
    rcases hin.ignore with ⟨h1, rfl⟩ | h1 <;> rw [h1] <;> rfl
  have hsp : singlePathGenerator W args.content =
      ((dirItems args.content F (withSlash args.content).length).map fun e => (e.1, .ok e.2), none) := by
    unfold singlePathGenerator
    rw [hin.node]
    simp only
    rw [← directoryGenerator_eq]
    congr 2
    unfold withSlash
    by_cases hl : args.content.getLast? = some '/' <;> simp [hl]
  have hget : ∀ n, PyDict.get? m'.subs n = if fnmatches n ("META-INF/*".toList :: patterns) then none
      else (PyDict.get? (dirItems args.content F (withSlash args.content).length).reverse n).map
        (recordSection hs n) := by
    intro n
    rw [c5 n]
    unfold recorded
    split
    · rfl
    · cases PyDict.get? (dirItems args.content F (withSlash args.content).length).reverse n <;> rfl
  refine ⟨m', ?_, fun n => ?_, ?_⟩
  · unfold createManifest
    simp only [requestedDigests] at g1
    simp only [g1, hin.recursive, Bool.false_eq_true, if_false, hig, hsp]
    exact c1
  · rw [← PyDict.get?_isSome_iff, hget]
    by_cases hi : fnmatches n ("META-INF/*".toList :: patterns) = true
    · rw [if_pos hi]
      simp only [Option.isSome_none, Bool.false_eq_true, false_iff]
      exact fun h => h.1 ((ignoredBy_iff _ _).1 hi)
    · rw [if_neg hi, Option.isSome_map]
      have hi' : ¬ IgnoredBy patterns n := fun h => hi ((ignoredBy_iff _ _).2 h)
      constructor
      · intro h
        obtain ⟨b, hb⟩ := Option.isSome_iff_exists.1 h
        obtain ⟨q, f, t, h1, h2⟩ := (hmem n b).1 (List.mem_reverse.1 (PyDict.mem_of_get? hb))
        exact ⟨hi', q, f, b, t, h1, h2⟩
      · rintro ⟨_, q, f, b, t, h1, h2⟩
        rw [PyDict.get?_isSome_iff]
        simp only [PyDict.keys, List.map_reverse, List.mem_reverse, List.mem_map]
        exact ⟨(n, b), (hmem n b).2 ⟨q, f, t, h1, h2⟩, rfl⟩
  · intro n s h
    rw [hget] at h
    split at h
    · simp at h
    · obtain ⟨b, hb, rfl⟩ := Option.map_eq_some_iff.1 h
      obtain ⟨q, f, t, h1, h2⟩ := (hmem n b).1 (List.mem_reverse.1 (PyDict.mem_of_get? hb))
      refine ⟨q, f, b, t, h1, h2, ?_⟩
      have := recordSection_records g3 n b
      rwa [g2] at this

theorem count_dirText {q : List Str} (hq : ∀ n ∈ q, '/' ∉ n) : (dirText q).count '/' = q.length := by
  induction q with
  | nil => rfl
  | cons n q ih =>
    have h1 : (dirText (n :: q)) = n ++ '/' :: dirText q := by simp [dirText]
    rw [h1, List.count_append, List.count_cons, ih fun m hm => hq m (by simp [hm]),
      List.count_eq_zero.2 (hq n (by simp))]
    simp

theorem slashed_snoc (q : List Str) (f : Str) : slashed (q ++ [f]) = dirText q ++ f := by
  induction q with
  | nil => rfl
  | cons n q ih =>
    have : slashed (n :: (q ++ [f])) = n ++ '/' :: slashed (q ++ [f]) := by
      cases q <;> rfl
    rw [List.cons_append, this, ih]
    simp [dirText]

/-- C87: the name given to a file is never its relative path. -/
theorem C87_never (base : Str) (q : List Str) (f : Str) (hq : ∀ n ∈ q, IsName n) (hf : IsName f) :
    generatedName base q f ≠ slashed (q ++ [f]) := by
  intro h
  have hc := congrArg (List.count '/') h
  rw [slashed_snoc] at hc
  unfold generatedName at hc
  rw [List.count_append, List.count_append, List.count_append, List.count_eq_zero.2 hf.2.1] at hc
  have : 0 < (withSlash base).count '/' := by
    rw [List.count_pos_iff]
    unfold withSlash
    split
    · rename_i hl
      obtain ⟨ys, hy⟩ := List.getLast?_eq_some_iff.1 hl
      rw [hy]; simp
    · simp
  omega

/-- A world with one directory: a file `b.txt` and a directory `s` with a file `c.txt`. -/
def oneDir : World where
  node p := if p = "d".toList then
      .dir (.file "b.txt".toList [1] 0 (.dir "s".toList (.file "c.txt".toList [2] 0 .nil) .nil))
    else .missing
  zip _ := .error eFileNotFound

theorem oneDir_ok : (Forest.file "b.txt".toList [1] 0
    (.dir "s".toList (.file "c.txt".toList [2] 0 .nil) .nil)).Ok := by
  simp [Forest.Ok, Forest.names, IsName]

theorem oneDir_input : DirInput idHashes oneDir { content := "d".toList }
    (.file "b.txt".toList [1] 0 (.dir "s".toList (.file "c.txt".toList [2] 0 .nil) .nil)) [] := by
  refine ⟨rfl, rfl, by simp, oneDir_ok, .inl ⟨rfl, rfl⟩, ?_⟩
  exact (oneJar_input [] (by simp [namelist])).digests

/-- What is recorded for that directory. -/
example : (createManifest idHashes oneDir { content := "d".toList, digest := some "MD5".toList }) =
    .ok { emptyManifest with subs :=
      [("d/txt".toList, [(kName, "d/txt".toList), ("MD5-Digest".toList, "AQ==".toList)]),
       ("d/s/txt".toList, [(kName, "d/s/txt".toList), ("MD5-Digest".toList, "Ag==".toList)])] } := by
  decide +kernel

theorem C87_full_fails : ¬ C87_full := by
  intro h
  obtain ⟨m, hm, hall⟩ := h _ _ _ _ _ oneDir_input
  obtain ⟨s, hs, _⟩ := hall ["b.txt".toList] [1] 0 (.here _ _ _ _) (by
    rintro (h | ⟨p, hp, _⟩)
    · rw [glob_metainf] at h
      revert h
      decide
    · simp at hp)
  have hk := (PyDict.get?_isSome_iff _ _).1 (by rw [hs]; rfl : (PyDict.get? m.subs _).isSome = true)
  have : (match createManifest idHashes oneDir { content := "d".toList } with
      | .ok m => PyDict.keys m.subs | .error _ => []) = ["d/txt".toList, "d/s/txt".toList] := by
    decide +kernel
  rw [hm] at this
  simp only at this
  rw [this] at hk
  revert hk
  decide

/-! ### C88: `-r` -/

theorem splitAll_dirText {q : List Str} {f : Str} (hq : ∀ n ∈ q, '/' ∉ n) (hf : '/' ∉ f) :
    splitAll '/' (slashed (q ++ [f])) = q ++ [f] := by
  rw [slashed_snoc]
  induction q with
  | nil => exact splitAll_no hf
  | cons n q ih =>
    have : dirText (n :: q) ++ f = n ++ '/' :: (dirText q ++ f) := by simp [dirText]
    rw [this, splitAll_cons (hq n (by simp)), ih fun m hm => hq m (by simp [hm])]
    rfl

/-- C88 as stated: with `-r`, every file of the directory that no pattern covers is recorded under
its path. -/
def C88_full : Prop :=
  ∀ (H : Hashes) (W : World) (args : CreateArgs) (F : Forest) (patterns : List Str),
    DirInput H W { args with recursive := false } F patterns → args.recursive = true →
    ∃ m, createManifest H W args = .ok m ∧
      ∀ p b t, FileAt F p b t → ¬ IgnoredBy patterns (withSlash args.content ++ slashed p) →
        ∃ s, PyDict.get? m.subs (withSlash args.content ++ slashed p) = some s ∧
          Records H (requestedDigests args) (withSlash args.content ++ slashed p) b s

/-- C88: what is looked at instead is each character of the argument. If nothing is called like the
first one the command fails. -/
theorem C88_missing (H : Hashes) (W : World) (args : CreateArgs) (patterns : List Str) (c : Char)
    (rest : Str) (hr : args.recursive = true) (hc : args.content = c :: rest)
    (hp : args.ignore = [] ∧ patterns = [] ∨ args.ignore = [patterns])
    (hd : ∀ a ∈ requestedDigests args, ∃ h, H.get a = .ok h)
    (hm : W.node [c] = .missing) (hi : ¬ IgnoredBy patterns [c]) :
    createManifest H W args = .error eFileNotFound := by
  obtain ⟨hs, g1, _, _⟩ := getDigests_spec hd
  have hig : createIgnores args.ignore = .ok ("META-INF/*".toList :: patterns) := by
    rcases hp with ⟨h1, rfl⟩ | h1 <;> rw [h1] <;> rfl
  unfold createManifest
  simp only [requestedDigests] at g1
  simp only [g1, hr, if_true, hig, hc, multiPathGenerator, List.map_cons, List.flatMap_cons, hm,
    List.cons_append, List.nil_append, createSections]
  rw [if_neg]
  exact fun h => hi ((ignoredBy_iff _ _).1 h)

/-- C88: a file with a name of one character that is given with `-r` is recorded, and nothing
else. -/
theorem C88_file (H : Hashes) (W : World) (args : CreateArgs) (patterns : List Str) (c : Char)
    (b : Bytes) (hr : args.recursive = true) (hc : args.content = [c]) (hb : W.node [c] = .file b)
    (hp : args.ignore = [] ∧ patterns = [] ∨ args.ignore = [patterns])
    (hd : ∀ a ∈ requestedDigests args, ∃ h, H.get a = .ok h) (hi : ¬ IgnoredBy patterns [c]) :
    ∃ m s, createManifest H W args = .ok m ∧ m.subs = [([c], s)] ∧
      Records H (requestedDigests args) [c] b s := by
  obtain ⟨hs, g1, g2, g3⟩ := getDigests_spec hd
  have hig : createIgnores args.ignore = .ok ("META-INF/*".toList :: patterns) := by
    rcases hp with ⟨h1, rfl⟩ | h1 <;> rw [h1] <;> rfl
  refine ⟨{ emptyManifest with subs := [([c], recordSection hs [c] b)] }, recordSection hs [c] b, ?_,
    rfl, ?_⟩
  · unfold createManifest
    simp only [requestedDigests] at g1
    simp only [g1, hr, if_true, hig, hc, multiPathGenerator, List.map_cons, List.map_nil,
      List.flatMap_cons, List.flatMap_nil, hb, List.append_nil, createSections]
    rw [if_neg fun h => hi ((ignoredBy_iff _ _).1 h), setDigests_eq g3]
    rfl
  · have := recordSection_records g3 [c] b
    rwa [g2] at this

/-- C88 for directories with a name of one character. Missing: all other arguments, where the
characters are taken as paths, see `C88_missing`. -/
theorem C88_partial (H : Hashes) (W : World) (args : CreateArgs) (F : Forest) (patterns : List Str)
    (c : Char) (hc : args.content = [c])
    (hin : DirInput H W { args with recursive := false } F patterns) (hr : args.recursive = true) :
    ∃ m, createManifest H W args = .ok m ∧
      (∀ p b t, FileAt F p b t → ¬ IgnoredBy patterns (withSlash args.content ++ slashed p) →
        ∃ s, PyDict.get? m.subs (withSlash args.content ++ slashed p) = some s ∧
          Records H (requestedDigests args) (withSlash args.content ++ slashed p) b s) ∧
      ∀ n ∈ PyDict.keys m.subs, ¬ IgnoredBy patterns n ∧ ∃ p b t, FileAt F p b t ∧
        n = withSlash args.content ++ slashed p := by
  obtain ⟨hs, g1, g2, g3⟩ := getDigests_spec hin.digests
  have hmem := mem_dirItems hin.name hin.ok 0
  obtain ⟨m', c1, _, _, _, c5⟩ := createSections_spec g3 ("META-INF/*".toList :: patterns)
    (dirItems args.content F 0) emptyManifest
  have hig : createIgnores args.ignore = .ok ("META-INF/*".toList :: patterns) := by
    have := hin.ignore
    rcases this with ⟨h1, rfl⟩ | h1 <;> simp only at h1 <;> rw [h1] <;> rfl
  have hget : ∀ n, PyDict.get? m'.subs n = if fnmatches n ("META-INF/*".toList :: patterns) then none
      else (PyDict.get? (dirItems args.content F 0).reverse n).map (recordSection hs n) := by
    intro n
    rw [c5 n]
    unfold recorded
    split
    · rfl
    · cases PyDict.get? (dirItems args.content F 0).reverse n <;> rfl
  simp only [List.drop_zero, List.append_assoc, ← slashed_snoc] at hmem
  refine ⟨m', ?_, ?_, ?_⟩
  · unfold createManifest
    simp only [requestedDigests] at g1
    have hnode := hin.node
    simp only at hnode
    simp only [g1, hr, if_true, hig]
    rw [← c1, ← directoryGenerator_eq]
    congr 1
    rw [hc] at hnode ⊢
    simp [multiPathGenerator, hnode]
  · intro p b t hp hi
    rw [hget, if_neg fun h => hi ((ignoredBy_iff _ _).1 h)]
    obtain ⟨q, f, rfl⟩ : ∃ q f, p = q ++ [f] := by
      rcases List.eq_nil_or_concat p with h | ⟨q, f, h⟩
      · exact absurd h hp.ne_nil
      · exact ⟨q, f, by simpa using h⟩
    have hin1 : (withSlash args.content ++ slashed (q ++ [f]), b) ∈ dirItems args.content F 0 :=
      (hmem _ b).2 ⟨q, f, t, hp, rfl⟩
    cases hg : PyDict.get? (dirItems args.content F 0).reverse
        (withSlash args.content ++ slashed (q ++ [f])) with
    | none =>
      exfalso
      rw [PyDict.get?_eq_none_iff] at hg
      apply hg
      simp only [PyDict.keys, List.map_reverse, List.mem_reverse, List.mem_map]
      exact ⟨_, hin1, rfl⟩
    | some b' =>
      obtain ⟨q', f', t', h1, h2⟩ := (hmem _ b').1 (List.mem_reverse.1 (PyDict.mem_of_get? hg))
      have h3 := List.append_cancel_left h2
      have hn := names_of_path hin.ok hp
      have hn' := names_of_path hin.ok h1
      have e := congrArg (splitAll '/') h3
      rw [splitAll_dirText (fun n h => (hn n (by simp [h])).2.1) (hn f (by simp)).2.1,
        splitAll_dirText (fun n h => (hn' n (by simp [h])).2.1) (hn' f' (by simp)).2.1] at e
      rw [← e] at h1
      have hb := (h1.unique hin.ok hp).1
      subst hb
      refine ⟨_, rfl, ?_⟩
      have := recordSection_records g3 (withSlash args.content ++ slashed (q ++ [f])) b'
      rwa [g2] at this
  · intro n hn
    rw [← PyDict.get?_isSome_iff, hget] at hn
    by_cases hi : fnmatches n ("META-INF/*".toList :: patterns) = true
    · rw [if_pos hi] at hn
      simp at hn
    · rw [if_neg hi, Option.isSome_map] at hn
      obtain ⟨b, hb⟩ := Option.isSome_iff_exists.1 hn
      obtain ⟨q, f, t, h1, h2⟩ := (hmem n b).1 (List.mem_reverse.1 (PyDict.mem_of_get? hb))
      exact ⟨fun h => hi ((ignoredBy_iff _ _).2 h), q ++ [f], b, t, h1, h2⟩

/-- The directory of `oneDir` under its name of one character. -/
example : (createManifest idHashes oneDir
      { content := "d".toList, recursive := true, digest := some "MD5".toList }) =
    .ok { emptyManifest with subs :=
      [("d/b.txt".toList, [(kName, "d/b.txt".toList), ("MD5-Digest".toList, "AQ==".toList)]),
       ("d/s/c.txt".toList, [(kName, "d/s/c.txt".toList), ("MD5-Digest".toList, "Ag==".toList)])] } := by
  decide +kernel

/-- The same directory under a longer name. -/
def oneDirLong : World where
  node p := if p = "dd".toList then oneDir.node "d".toList else .missing
  zip _ := .error eFileNotFound

theorem C88_full_fails : ¬ C88_full := by
  intro h
  have hin : DirInput idHashes oneDirLong { content := "dd".toList }
      (.file "b.txt".toList [1] 0 (.dir "s".toList (.file "c.txt".toList [2] 0 .nil) .nil)) [] :=
    ⟨rfl, rfl, by simp, oneDir_ok, .inl ⟨rfl, rfl⟩, oneDir_input.digests⟩
  obtain ⟨m, hm, _⟩ := h idHashes oneDirLong { content := "dd".toList, recursive := true } _ _ hin rfl
  rw [C88_missing idHashes oneDirLong { content := "dd".toList, recursive := true } [] 'd' "d".toList
    rfl rfl (.inl ⟨rfl, rfl⟩)
    oneDir_input.digests (by rfl) (by
      rintro (h | ⟨p, hp, _⟩)
      · rw [glob_metainf] at h
        revert h
        decide
      · simp at hp)] at hm
  simp at hm

/-! ### C89: several `--ignore` -/

/-- C89 as stated: patterns given with two options count as if given with one. -/
def C89_full : Prop :=
  ∀ (H : Hashes) (W : World) (args : CreateArgs) (ps qs : List Str), args.ignore = [ps, qs] →
    createManifest H W args = createManifest H W { args with ignore := [ps ++ qs] }

open Classical in
/-- C89: what happens is a `TypeError`, whatever the rest of the command line is (an unknown
digest is noticed first). -/
theorem C89_exact (H : Hashes) (W : World) (args : CreateArgs) (ps qs : List Str)
    (more : List (List Str)) (h : args.ignore = ps :: qs :: more) :
    createManifest H W args = .error (if ∀ a ∈ requestedDigests args, ∃ h, H.get a = .ok h
      then .typeError else .unsupportedDigest) := by
  unfold createManifest
  by_cases hd : ∀ a ∈ requestedDigests args, ∃ h, H.get a = .ok h
  · obtain ⟨hs, g1, _, _⟩ := getDigests_spec hd
    simp only [requestedDigests] at g1
    simp only [g1, h, createIgnores, if_pos hd]
  · rw [if_neg hd]
    obtain ⟨a, ha, hn⟩ : ∃ a ∈ requestedDigests args, ∀ f, H.get a ≠ .ok f := by
      apply Classical.byContradiction
      intro hc
      apply hd
      intro a ha
      apply Classical.byContradiction
      intro hf
      exact hc ⟨a, ha, fun f hg => hf ⟨f, hg⟩⟩
    have := getDigests_error ha hn
    simp only [requestedDigests] at this
    simp only [this]

theorem C89_full_fails : ¬ C89_full := by
  intro h
  have h1 := h idHashes (oneJar []) { content := "x.jar".toList, ignore := [["a".toList], ["b".toList]] }
    ["a".toList] ["b".toList] rfl
  revert h1
  decide +kernel

/-- C89 for a single option: the patterns are added to the fixed one. Missing: more than one
option, see `C89_exact`. -/
theorem C89_partial (ps : List Str) (n : Str) : ∃ ignores, createIgnores [ps] = .ok ignores ∧
    (fnmatches n ignores = true ↔ IgnoredBy ps n) :=
  ⟨_, rfl, ignoredBy_iff ps n⟩

/-! ### C90: where the manifest goes -/

/-- C90 as stated: the manifest that was built is written, to standard output by default. -/
def C90_full : Prop :=
  ∀ (H : Hashes) (W : World) (args : CreateArgs) (m : Manifest) (d : Bytes),
    createManifest H W args = .ok m → m.getData = .ok d → cliCreate H W args = .ok d

/-- C90: standard output is always refused. -/
theorem C90_stdout (H : Hashes) (W : World) (args : CreateArgs) (m : Manifest)
    (hm : createManifest H W args = .ok m) (h : args.manifest = none) :
    cliCreate H W args = .error .typeError := by
  simp [cliCreate, hm, h]

theorem C90_full_fails : ¬ C90_full := by
  intro h
  have h1 := h idHashes (oneJar []) { content := "x.jar".toList } emptyManifest
    (encodeUtf8 "Manifest-Version: 1.0\n\n".toList) (by decide +kernel) (by decide +kernel)
  revert h1
  decide +kernel

/-- C90 for a named output file. Missing: standard output. -/
theorem C90_partial (H : Hashes) (W : World) (args : CreateArgs) (m : Manifest) (out : Str)
    (hm : createManifest H W args = .ok m) (h : args.manifest = some out) (ho : out ≠ []) :
    cliCreate H W args = m.getData := by
  simp [cliCreate, hm, h, ho]

end Javatools
