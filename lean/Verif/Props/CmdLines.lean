import Verif.Props.KnownArgs
/-
C160-C162: the options of `jarutil create`, `jarutil sign` and `manifest create`.
-/
namespace Javatools

section
variable {negNum isInt : Str → Bool} {opts : List OptSpec} {plus : OptSpec → Bool}

theorem cmdFiles_words (ps : List CmdPiece) (ws : List Str) :
    cmdFiles (ps ++ ws.map CmdPiece.word) = cmdFiles ps ++ ws := by
  induction ps with
  | nil =>
    induction ws with
    | nil => rfl
    | cons w ws ih => rw [List.map_cons, List.nil_append, cmdFiles]; simpa [cmdFiles] using ih
  | cons p ps ih => cases p <;> simp [cmdFiles, ih]

/-- What `parse_args` makes of a command line with words behind `--`. -/
theorem exactly_dashes (hg : GoodOpts opts) {ps : List CmdPiece}
    (h : ∀ p ∈ ps, p.Good negNum isInt opts plus) {run : List Str} (hr : ∀ f ∈ run, PlainWord f)
    (ha : WordsApart (ps ++ run.map .word)) (he : EndsInOption ps) {behind : List Str} (hb : behind ≠ [])
    (count : Nat) :
    (¬ ((cmdFiles ps ++ run ++ behind).length = count ∧ cmdUnknown ps = []) ∧
      parseExactly negNum isInt opts plus count (cmdWords ps ++ run ++ "--".toList :: behind) =
        .error usageError) ∨
    ((cmdFiles ps ++ run ++ behind).length = count ∧ cmdUnknown ps = [] ∧
      ∃ evs, parseExactly negNum isInt opts plus count (cmdWords ps ++ run ++ "--".toList :: behind) = .ok evs ∧
        eventFiles evs = cmdFiles ps ++ run ++ behind ∧ optEvents evs = cmdGiven ps) := by
  obtain ⟨evs, h1, h2, h3⟩ := known_dashes hg h hr ha he behind count
  have hlead : (leadingArgs (behind.map .arg)).1 = behind := by
    have := leadingArgs_append behind (l := []) (by intro s r; simp)
    rw [List.append_nil] at this
    rw [this]
  have hlen : 0 < behind.length := List.length_pos_iff.2 hb
  have hone : ∀ fs : List Str, eventFiles (oneEach fs) = fs ∧ optEvents (oneEach fs) = [] := by
    intro fs
    induction fs with
    | nil => exact ⟨rfl, rfl⟩
    | cons f fs ih =>
      refine ⟨?_, ih.2⟩
      have : eventFiles (oneEach (f :: fs)) = f :: eventFiles (oneEach fs) := rfl
      rw [this, ih.1]
  unfold parseExactly
  rw [h3]
  unfold knownTail
  simp only [hlead]
  by_cases c1 : count - (cmdFiles ps).length = 0 ∨ count - (cmdFiles ps).length < run.length
  · rw [if_pos c1]
    refine .inl ⟨?_, ?_⟩
    · rintro ⟨e, -⟩
      simp only [List.length_append] at e
      omega
    · simp only [Except.map, Known.before]
      obtain ⟨x, xs, hx⟩ := List.exists_cons_of_ne_nil (l := cmdOthers count ps ++
        (run.drop (count - (cmdFiles ps).length) ++ "--".toList :: behind)) (by simp)
      rw [hx]
  · rw [if_neg c1]
    by_cases c2 : (run ++ behind).length < count - (cmdFiles ps).length
    · rw [if_pos c2]
      refine .inl ⟨?_, rfl⟩
      rintro ⟨e, -⟩
      simp only [List.length_append] at e c2
      omega
    · rw [if_neg c2]
      simp only [Except.map, Known.before]
      by_cases hn : cmdOthers count ps ++ (run ++ behind).drop (count - (cmdFiles ps).length) = []
      · rw [hn]
        obtain ⟨n1, n2⟩ := List.append_eq_nil_iff.1 hn
        obtain ⟨m1, m2⟩ := (cmdOthers_nil _ _).1 n1
        have n3 := List.drop_eq_nil_iff.1 n2
        refine .inr ⟨?_, m2, _, rfl, ?_, ?_⟩
        · simp only [List.length_append] at n3 c2 ⊢
          omega
        · rw [eventFiles_append, h1, (hone _).1, List.take_of_length_le m1, List.take_of_length_le n3]
          simp
        · rw [optEvents_append, h2, (hone _).2, List.append_nil]
      · refine .inl ⟨?_, ?_⟩
        · rintro ⟨e, e2⟩
          apply hn
          simp only [List.length_append] at e
          rw [List.append_eq_nil_iff]
          refine ⟨(cmdOthers_nil _ _).2 ⟨by omega, e2⟩, List.drop_eq_nil_iff.2 ?_⟩
          simp only [List.length_append]
          omega
        · obtain ⟨x, xs, hx⟩ := List.exists_cons_of_ne_nil hn
          rw [hx]
end

/-! ### C160: the main class -/

section
variable {negNum isInt : Str → Bool}

/-- The last value that is given to an option. -/
def lastGiven (ps : List CmdPiece) (o : OptSpec) : Option Str := (givenTo (cmdGiven ps) o).flatten.getLast?

/-- A command line that creates an archive in which the manifest is the one of `create_jar`. -/
structure CreatesJar (negNum isInt : Str → Bool) (W : World) (ps : List CmdPiece) (jar : Str) : Prop where
  pieces : ∀ p ∈ ps, CreatePiece negNum isInt p
  jar : (cmdFiles ps).head? = some jar
  paths : ∀ e ∈ cmdOthers 1 ps, PlainArg W e
  own : ∀ e ∈ cmdOthers 1 ps, ∀ b, ¬ Contributes W e "META-INF/MANIFEST.MF".toList b

/-- C160 as stated: the manifest of the new archive names the main class that is given, if any. -/
def C160_full : Prop :=
  ∀ (negNum isInt : Str → Bool) (W : World) (ps : List CmdPiece) (jar : Str),
    CreatesJar negNum isInt W ps jar →
    ∃ z m, jarCreateRun negNum isInt W (cmdWords ps) = .ok (jar, z) ∧ loadFromJar z = .ok m ∧
      PyDict.get? m.main "Main-Class".toList = lastGiven ps mainClassOpt

/-- C160, exactly: the manifest has nothing but the version. -/
theorem C160_exact {W : World} {ps : List CmdPiece} {jar : Str} (h : CreatesJar negNum isInt W ps jar) :
    ∃ z m, jarCreateRun negNum isInt W (cmdWords ps) = .ok (jar, z) ∧ loadFromJar z = .ok m ∧
      m.main = [("Manifest-Version".toList, "1.0".toList)] ∧ m.subs = [] := by
  have h1 := C159_words W h.pieces
  obtain ⟨z, m, c1, c2, c3, c4, _⟩ := C95_manifest W _ h.paths h.own
  have hj := h.jar
  unfold PacksPaths at h1
  cases hf : cmdFiles ps with
  | nil => rw [hf] at hj; simp at hj
  | cons f fs =>
    rw [hf] at hj
    obtain rfl : f = jar := by simpa using hj
    rw [hf, c1] at h1
    exact ⟨z, m, h1, c2, c3, c4⟩

/-- C160: the main class changes nothing. -/
theorem C160_ignored (W : World) {ps qs : List CmdPiece} (hp : ∀ p ∈ ps, CreatePiece negNum isInt p)
    (hq : ∀ p ∈ qs, CreatePiece negNum isInt p) (hf : cmdFiles ps = cmdFiles qs)
    (ho : cmdOthers 1 ps = cmdOthers 1 qs) :
    jarCreateRun negNum isInt W (cmdWords ps) = jarCreateRun negNum isInt W (cmdWords qs) := by
  have h1 := C159_words W hp
  have h2 := C159_words W hq
  unfold PacksPaths at h1 h2
  rw [hf, ho] at h1
  cases hc : cmdFiles qs with
  | nil => rw [hc] at h1 h2; exact h1.trans h2.symm
  | cons f fs => rw [hc] at h1 h2; exact h1.trans h2.symm

/-- C160, as stated for the command lines that give no main class. -/
theorem C160_partial {W : World} {ps : List CmdPiece} {jar : Str} (h : CreatesJar negNum isInt W ps jar)
    (hm : ∀ a ∈ cmdGiven ps, a.1 ≠ mainClassOpt) :
    ∃ z m, jarCreateRun negNum isInt W (cmdWords ps) = .ok (jar, z) ∧ loadFromJar z = .ok m ∧
      PyDict.get? m.main "Main-Class".toList = lastGiven ps mainClassOpt := by
  obtain ⟨z, m, h1, h2, h3, -⟩ := C160_exact h
  refine ⟨z, m, h1, h2, ?_⟩
  have e : givenTo (cmdGiven ps) mainClassOpt = [] := by
    rw [givenTo, List.filter_eq_nil_iff.2 (by simpa using hm)]
    rfl
  rw [h3, lastGiven, e]
  decide +kernel
end

/-- A command line with a main class. -/
def mainClassLine : List CmdPiece :=
  [.options [(mainClassOpt, ["M".toList])] ["-m".toList, "M".toList], .word "a.jar".toList, .word "b".toList]

theorem mainClassLine_creates (negNum isInt : Str → Bool) :
    CreatesJar negNum isInt twoFiles mainClassLine "a.jar".toList := by
  refine ⟨?_, rfl, ?_, ?_⟩
  · intro p hp
    simp only [mainClassLine, List.mem_cons, List.not_mem_nil, or_false] at hp
    rcases hp with rfl | rfl | rfl
    · refine ⟨.value ⟨by decide +kernel, by decide +kernel⟩ (by decide +kernel) (.inl (by decide)), ?_, .inr fun _ _ => rfl⟩
      intro a ha
      rw [List.mem_singleton.1 ha]
      exact ⟨by decide +kernel, fun h => absurd h (by decide +kernel)⟩
    · exact plainWord_create (by decide) _ _
    · exact plainWord_create (by decide) _ _
  · intro e he
    rw [List.mem_singleton.1 he]
    refine ⟨⟨["b".toList], rfl, by simp, ?_⟩, by simp [twoFiles], fun F hF => ?_⟩
    · intro n hn
      rw [List.mem_singleton.1 hn]
      exact ⟨by simp [IsName], by decide⟩
    · simp [twoFiles] at hF
  · intro e he b
    rw [List.mem_singleton.1 he]
    simp [Contributes, twoFiles]

/-- C160 is false: `jarutil c -m M a.jar b`. -/
theorem C160_full_fails : ¬ C160_full := by
  intro h
  obtain ⟨z, m, h1, h2, h3⟩ := h (fun _ => false) (fun _ => false) _ _ _ (mainClassLine_creates _ _)
  obtain ⟨z', m', e1, e2, e3, -⟩ := C160_exact (mainClassLine_creates (fun _ => false) fun _ => false)
  rw [h1] at e1
  obtain rfl : z = z' := by simpa using e1
  rw [h2] at e2
  obtain rfl : m = m' := by simpa using e2
  rw [e3] at h3
  revert h3
  decide +kernel

/-! ### C161: signing -/

section
variable {negNum isInt : Str → Bool}

/-- The part is as it has to be, on the command line of `jarutil sign`. -/
abbrev SignPiece (negNum isInt : Str → Bool) (p : CmdPiece) : Prop :=
  p.Good negNum isInt jarSignOpts fun _ => false

/-- What the words and options mean: four words, no option that is not known, the last digest, the
certificates of the chain in order, the last output file. -/
def signMeans (up : Char → Str) (C : Crypto) (H : Hashes) (W : World) (ps : List CmdPiece)
    (files : List Str) : Res (Int × Option (Str × Zip)) :=
  match files, cmdUnknown ps with
  | [jar, cert, key, alias], [] =>
    (cliSign up C H W jar cert key alias (givenTo (cmdGiven ps) chainOpt).flatten
      ((lastGiven ps digestOpt).getD "SHA-256".toList)).map fun r =>
        (r.1, r.2.map fun z => ((lastGiven ps outputOpt).getD jar, z))
  | _, _ => .error usageError

theorem signMeans_not {up : Char → Str} {C : Crypto} {H : Hashes} {W : World} {ps : List CmdPiece}
    {files : List Str} (h : ¬ (files.length = 4 ∧ cmdUnknown ps = [])) :
    signMeans up C H W ps files = .error usageError := by
  unfold signMeans
  split
  · next h2 => exact absurd ⟨rfl, h2⟩ h
  · rfl

theorem signMeans_run {up : Char → Str} {C : Crypto} {H : Hashes} {W : World} {ps : List CmdPiece}
    (hg : ∀ p ∈ ps, SignPiece negNum isInt p) {argv files : List Str} {evs : List ArgEvent}
    (h1 : files.length = 4) (h2 : cmdUnknown ps = [])
    (h3 : parseExactly negNum isInt jarSignOpts (fun _ => false) 4 argv = .ok evs)
    (h4 : eventFiles evs = files) (h5 : optEvents evs = cmdGiven ps) :
    jarSignRun negNum isInt up C H W argv = signMeans up C H W ps files := by
  obtain ⟨jar, cert, key, alias, rfl⟩ : ∃ a b c d, files = [a, b, c, d] := by
    match files, h1 with
    | [a, b, c, d], _ => exact ⟨a, b, c, d, rfl⟩
  unfold jarSignRun signMeans
  simp only [h3, h4, h2, usesOf_events, h5, stored_last hg h5 (o := digestOpt) (by decide +kernel) rfl,
    stored_last hg h5 (o := outputOpt) (by decide +kernel) rfl]
  unfold lastGiven
  cases cliSign up C H W jar cert key alias (givenTo (cmdGiven ps) chainOpt).flatten
      ((givenTo (cmdGiven ps) digestOpt).flatten.getLast?.getD "SHA-256".toList) with
  | error e => rfl
  | ok r => obtain ⟨st, z⟩ := r; cases z <;> rfl

/-- C161: options and words in any order. -/
theorem C161_words (up : Char → Str) (C : Crypto) (H : Hashes) (W : World) {ps : List CmdPiece}
    (h : ∀ p ∈ ps, SignPiece negNum isInt p) :
    jarSignRun negNum isInt up C H W (cmdWords ps) = signMeans up C H W ps (cmdFiles ps) := by
  rcases exactly_pieces jarSign_good h (apart_create h) 4 with ⟨h1, h2⟩ | ⟨h1, h2, evs, h3, h4, h5⟩
  · rw [signMeans_not h1, jarSignRun, h2]
  · exact signMeans_run h h1 h2 h3 h4 h5

/-- C161: words behind `--` count too, whatever they look like. -/
theorem C161_dashes (up : Char → Str) (C : Crypto) (H : Hashes) (W : World) {ps : List CmdPiece}
    (h : ∀ p ∈ ps, SignPiece negNum isInt p) (he : EndsInOption ps) {run : List Str}
    (hr : ∀ f ∈ run, PlainWord f) {behind : List Str} (hb : behind ≠ []) :
    jarSignRun negNum isInt up C H W (cmdWords ps ++ run ++ "--".toList :: behind) =
      signMeans up C H W ps (cmdFiles ps ++ run ++ behind) := by
  have hap : WordsApart (ps ++ run.map CmdPiece.word) := by
    refine apart_create (negNum := negNum) (isInt := isInt) (opts := jarSignOpts) fun p hp => ?_
    rcases List.mem_append.1 hp with hp | hp
    · exact h p hp
    · obtain ⟨f, hf, rfl⟩ := List.mem_map.1 hp
      exact hr f hf
  rcases exactly_dashes jarSign_good h hr hap he hb 4 with ⟨h1, h2⟩ | ⟨h1, h2, evs, h3, h4, h5⟩
  · rw [signMeans_not h1, jarSignRun, h2]
  · exact signMeans_run h h1 h2 h3 h4 h5
end

/-! ### C162: creating a manifest -/

section
variable {negNum isInt : Str → Bool}

/-- The options that take any number of arguments. -/
def takesMany (o : OptSpec) : Bool := decide (o = ignoreOpt)

/-- The part is as it has to be, on the command line of `manifest create`. -/
abbrev ManifestPiece (negNum isInt : Str → Bool) (p : CmdPiece) : Prop :=
  p.Good negNum isInt manifestCreateOpts takesMany

/-- What the options mean. -/
def createMeaning (ps : List CmdPiece) (content : Str) : CreateArgs :=
  { content := content
    recursive := (cmdGiven ps).any fun g => decide (g.1 = recursiveOpt)
    ignore := givenTo (cmdGiven ps) ignoreOpt
    manifest := lastGiven ps manifestOpt
    digest := lastGiven ps digestOpt }

/-- What the words and options mean: one word, and no option that is not known. -/
def createMeans (H : Hashes) (W : World) (ps : List CmdPiece) (files : List Str) : Res (Option Str × Bytes) :=
  match files, cmdUnknown ps with
  | [content], [] => (cliCreate H W (createMeaning ps content)).map (lastGiven ps manifestOpt, ·)
  | _, _ => .error usageError

theorem createMeans_not {H : Hashes} {W : World} {ps : List CmdPiece} {files : List Str}
    (h : ¬ (files.length = 1 ∧ cmdUnknown ps = [])) : createMeans H W ps files = .error usageError := by
  unfold createMeans
  split
  · next h2 => exact absurd ⟨rfl, h2⟩ h
  · rfl

theorem createMeans_run {H : Hashes} {W : World} {ps : List CmdPiece}
    (hg : ∀ p ∈ ps, ManifestPiece negNum isInt p) {argv files : List Str} {evs : List ArgEvent}
    (h1 : files.length = 1) (h2 : cmdUnknown ps = [])
    (h3 : parseExactly negNum isInt manifestCreateOpts takesMany 1 argv = .ok evs)
    (h4 : eventFiles evs = files) (h5 : optEvents evs = cmdGiven ps) :
    manifestCreateRun negNum isInt H W argv = createMeans H W ps files := by
  obtain ⟨content, rfl⟩ : ∃ a, files = [a] := by
    match files, h1 with
    | [a], _ => exact ⟨a, rfl⟩
  have e1 : createArgs evs content = createMeaning ps content := by
    unfold createArgs createMeaning
    rw [usesOf_events, usesOf_events, h5, stored_last hg h5 (o := digestOpt) (by decide +kernel) (by decide +kernel),
      stored_last hg h5 (o := manifestOpt) (by decide +kernel) (by decide +kernel)]
    have : (!(givenTo (cmdGiven ps) recursiveOpt).isEmpty) =
        (cmdGiven ps).any fun g => decide (g.1 = recursiveOpt) := by
      unfold givenTo
      rw [Bool.eq_iff_iff]
      simp
    rw [this]
    rfl
  have h3' : parseExactly negNum isInt manifestCreateOpts (fun o => decide (o = ignoreOpt)) 1 argv = .ok evs := h3
  unfold manifestCreateRun createMeans
  simp only [h3', h4, h2, e1, stored_last hg h5 (o := manifestOpt) (by decide +kernel) (by decide +kernel)]
  unfold lastGiven
  cases cliCreate H W (createMeaning ps content) <;> rfl

/-- C162 as stated: options and words in any order. -/
def C162_full : Prop :=
  ∀ (negNum isInt : Str → Bool) (H : Hashes) (W : World) (ps : List CmdPiece),
    (∀ p ∈ ps, ManifestPiece negNum isInt p) →
    manifestCreateRun negNum isInt H W (cmdWords ps) = createMeans H W ps (cmdFiles ps)

/-- C162, as stated for the command lines without a word directly behind the patterns of `-i`. -/
theorem C162_partial (H : Hashes) (W : World) {ps : List CmdPiece} (h : ∀ p ∈ ps, ManifestPiece negNum isInt p)
    (ha : WordsApart ps) :
    manifestCreateRun negNum isInt H W (cmdWords ps) = createMeans H W ps (cmdFiles ps) := by
  rcases exactly_pieces manifestCreate_good h ha 1 with ⟨h1, h2⟩ | ⟨h1, h2, evs, h3, h4, h5⟩
  · have h2' : parseExactly negNum isInt manifestCreateOpts (fun o => decide (o = ignoreOpt)) 1 (cmdWords ps) =
      .error usageError := h2
    rw [createMeans_not h1, manifestCreateRun, h2']
  · exact createMeans_run h h1 h2 h3 h4 h5

/-- C162: a word behind `--` is not a pattern. -/
theorem C162_dashes (H : Hashes) (W : World) {ps : List CmdPiece} (h : ∀ p ∈ ps, ManifestPiece negNum isInt p)
    (ha : WordsApart ps) (he : EndsInOption ps) {behind : List Str} (hb : behind ≠ []) :
    manifestCreateRun negNum isInt H W (cmdWords ps ++ "--".toList :: behind) =
      createMeans H W ps (cmdFiles ps ++ behind) := by
  have hd := exactly_dashes manifestCreate_good h (run := []) (by simp) (by simpa using ha) he hb 1
  simp only [List.append_nil] at hd
  rcases hd with ⟨h1, h2⟩ | ⟨h1, h2, evs, h3, h4, h5⟩
  · have h2' : parseExactly negNum isInt manifestCreateOpts (fun o => decide (o = ignoreOpt)) 1
      (cmdWords ps ++ "--".toList :: behind) = .error usageError := h2
    rw [createMeans_not h1, manifestCreateRun, h2']
  · exact createMeans_run h h1 h2 h3 h4 h5

/-- The words that come next. -/
def leadingWords : List CmdPiece → List Str
  | .word x :: ps => x :: leadingWords ps
  | _ => []

/-- What is behind them. -/
def behindWords : List CmdPiece → List CmdPiece
  | .word _ :: ps => behindWords ps
  | ps => ps

/-- The words directly behind patterns are patterns too. -/
def swallow : List CmdPiece → List CmdPiece
  | [] => []
  | .many g o w f m :: ps => .many g o w f (m ++ leadingWords (swallow ps)) :: behindWords (swallow ps)
  | p :: ps => p :: swallow ps

theorem leading_behind (ps : List CmdPiece) : (leadingWords ps).map .word ++ behindWords ps = ps := by
  induction ps with
  | nil => rfl
  | cons p ps ih => cases p <;> simp [leadingWords, behindWords, ih]

theorem words_words (ws : List Str) (ps : List CmdPiece) : cmdWords (ws.map .word ++ ps) = ws ++ cmdWords ps := by
  induction ws with
  | nil => rfl
  | cons w ws ih =>
    have : cmdWords ((w :: ws).map .word ++ ps) = w :: cmdWords (ws.map .word ++ ps) := rfl
    rw [this, ih]; rfl

theorem swallow_words (ps : List CmdPiece) : cmdWords (swallow ps) = cmdWords ps := by
  induction ps with
  | nil => rfl
  | cons p ps ih =>
    have e : ∀ (q : CmdPiece) qs, cmdWords (q :: qs) = q.words ++ cmdWords qs := by
      intro q qs
      simp [cmdWords]
    cases p with
    | many g o w f m =>
      have h := words_words (leadingWords (swallow ps)) (behindWords (swallow ps))
      rw [leading_behind, ih] at h
      rw [swallow, e, e, h]
      simp [CmdPiece.words]
    | word f => rw [swallow, e, e, ih]; simp
    | options g ws => rw [swallow, e, e, ih]; simp
    | unknown w => rw [swallow, e, e, ih]; simp

theorem swallow_good {ps : List CmdPiece} (h : ∀ p ∈ ps, ManifestPiece negNum isInt p) :
    ∀ p ∈ swallow ps, ManifestPiece negNum isInt p := by
  induction ps with
  | nil => exact h
  | cons p ps ih =>
    have ih := ih fun p hp => h p (List.mem_cons_of_mem _ hp)
    have hp := h p List.mem_cons_self
    cases p with
    | many g o w f m =>
      intro q hq
      rw [swallow] at hq
      rcases List.mem_cons.1 hq with rfl | hq
      · refine ⟨hp.1, hp.2.1, hp.2.2.1, hp.2.2.2.1, fun v hv => ?_⟩
        rcases List.mem_append.1 hv with hv | hv
        · exact hp.2.2.2.2 v hv
        · refine ih (.word v) ?_
          rw [← leading_behind (swallow ps)]
          exact List.mem_append_left _ (List.mem_map.2 ⟨v, hv, rfl⟩)
      · refine ih q ?_
        rw [← leading_behind (swallow ps)]
        exact List.mem_append_right _ hq
    | word f =>
      intro q hq
      rcases List.mem_cons.1 hq with rfl | hq
      · exact hp
      · exact ih q hq
    | options g ws =>
      intro q hq
      rcases List.mem_cons.1 hq with rfl | hq
      · exact hp
      · exact ih q hq
    | unknown w =>
      intro q hq
      rcases List.mem_cons.1 hq with rfl | hq
      · exact hp
      · exact ih q hq

theorem apart_behind {ps : List CmdPiece} (h : WordsApart ps) : WordsApart (behindWords ps) := by
  induction ps with
  | nil => trivial
  | cons p ps ih =>
    cases p with
    | word f => exact ih h
    | options g ws => exact h
    | unknown w => exact h
    | many g o w f m => exact h

theorem behind_noWord (ps : List CmdPiece) (f : Str) (qs : List CmdPiece) : behindWords ps ≠ .word f :: qs := by
  induction ps with
  | nil => simp [behindWords]
  | cons p ps ih =>
    cases p with
    | word f => exact ih
    | options g ws => simp [behindWords]
    | unknown w => simp [behindWords]
    | many g o w f m => simp [behindWords]

theorem swallow_apart (ps : List CmdPiece) : WordsApart (swallow ps) := by
  induction ps with
  | nil => trivial
  | cons p ps ih =>
    cases p with
    | word f => exact ih
    | options g ws => exact ih
    | unknown w => exact ih
    | many g o w f m =>
      rw [swallow]
      have h1 := apart_behind ih
      have h2 := behind_noWord (swallow ps)
      cases hb : behindWords (swallow ps) with
      | nil => trivial
      | cons q qs =>
        rw [hb] at h1 h2
        cases q with
        | word x => exact absurd rfl (h2 x qs)
        | options g ws => exact h1
        | unknown w => exact h1
        | many g o w f m => exact h1

theorem files_words (ws : List Str) (ps : List CmdPiece) : cmdFiles (ws.map .word ++ ps) = ws ++ cmdFiles ps := by
  induction ws with
  | nil => rfl
  | cons w ws ih => rw [List.map_cons, List.cons_append, cmdFiles, ih]; rfl

theorem swallow_files (ps : List CmdPiece) : (cmdFiles (swallow ps)).length ≤ (cmdFiles ps).length ∧
    (¬ WordsApart ps → (cmdFiles (swallow ps)).length < (cmdFiles ps).length) := by
  induction ps with
  | nil => exact ⟨Nat.le_refl _, fun h => absurd trivial h⟩
  | cons p ps ih =>
    cases p with
    | word f =>
      rw [swallow, cmdFiles, cmdFiles]
      · exact ⟨by simpa using ih.1, fun h => by simpa using ih.2 h⟩
      · simp
    | options g ws => exact ih
    | unknown w => exact ih
    | many g o w f m =>
      have h := files_words (leadingWords (swallow ps)) (behindWords (swallow ps))
      rw [leading_behind] at h
      have h' := congrArg List.length h
      rw [List.length_append] at h'
      have e1 : cmdFiles (swallow (.many g o w f m :: ps)) = cmdFiles (behindWords (swallow ps)) := rfl
      have e2 : cmdFiles (.many g o w f m :: ps) = cmdFiles ps := rfl
      rw [e1, e2]
      refine ⟨by omega, fun hn => ?_⟩
      cases ps with
      | nil => exact absurd trivial hn
      | cons q ps =>
        cases q with
        | word x =>
          have : leadingWords (swallow (.word x :: ps)) = x :: leadingWords (swallow ps) := rfl
          rw [this, List.length_cons] at h'
          omega
        | options g ws => have := ih.2 hn; omega
        | unknown w => have := ih.2 hn; omega
        | many g o w f m => have := ih.2 hn; omega

/-- C162, exactly: the words directly behind the patterns of `-i` are patterns. -/
theorem C162_exact (H : Hashes) (W : World) {ps : List CmdPiece} (h : ∀ p ∈ ps, ManifestPiece negNum isInt p) :
    manifestCreateRun negNum isInt H W (cmdWords ps) = createMeans H W (swallow ps) (cmdFiles (swallow ps)) := by
  rw [← swallow_words]
  exact C162_partial H W (swallow_good h) (swallow_apart ps)

/-- C162: when the content is directly behind the patterns, there is only an error message. -/
theorem C162_swallowed (H : Hashes) (W : World) {ps : List CmdPiece}
    (h : ∀ p ∈ ps, ManifestPiece negNum isInt p) (ha : ¬ WordsApart ps) (hf : (cmdFiles ps).length = 1) :
    manifestCreateRun negNum isInt H W (cmdWords ps) = .error usageError := by
  rw [C162_exact H W h]
  have := (swallow_files ps).2 ha
  exact createMeans_not fun h => by omega
end

/-- Two patterns and the content: `manifest create -m out -i b x.jar`. -/
def swallowLine : List CmdPiece :=
  [.options [(manifestOpt, ["out".toList])] ["-m".toList, "out".toList],
   .many [] ignoreOpt "-i".toList "b".toList [], .word "x.jar".toList]

theorem swallowLine_good (negNum isInt : Str → Bool) : ∀ p ∈ swallowLine, ManifestPiece negNum isInt p := by
  intro p hp
  simp only [swallowLine, List.mem_cons, List.not_mem_nil, or_false] at hp
  rcases hp with rfl | rfl | rfl
  · refine ⟨.value ⟨by decide +kernel, by decide +kernel⟩ (by decide +kernel) (.inl (by decide)), ?_, .inr ?_⟩
    · intro a ha
      rw [List.mem_singleton.1 ha]
      exact ⟨by decide +kernel, fun h => absurd h (by decide +kernel)⟩
    · intro a ha
      rw [List.mem_singleton.1 ha]
      decide +kernel
  · exact ⟨.value ⟨by decide +kernel, by decide +kernel⟩ (by decide +kernel) (.inl (by decide)), by simp, rfl, rfl,
      by simp⟩
  · exact .inl (by decide)

/-- C162 is false: `manifest create -m out -i b x.jar` is refused. -/
theorem C162_full_fails : ¬ C162_full := by
  intro h
  have h1 := h (fun _ => false) (fun _ => false) idHashes (oneJar []) swallowLine (swallowLine_good _ _)
  rw [C162_swallowed _ _ (swallowLine_good _ _) (by simp [swallowLine, WordsApart]) rfl] at h1
  have h2 : createMeans idHashes (oneJar []) swallowLine (cmdFiles swallowLine) ≠ .error usageError := by
    decide +kernel
  exact h2 h1.symm

/-- The same with the content in front, and behind `--`. -/
example : manifestCreateRun (fun _ => false) (fun _ => false) idHashes
      (oneJar [("a".toList, [1]), ("b".toList, [2])])
      ["x.jar".toList, "-dMD5".toList, "-i".toList, "b".toList, "c".toList, "-m".toList, "out".toList] =
    manifestCreateRun (fun _ => false) (fun _ => false) idHashes
      (oneJar [("a".toList, [1]), ("b".toList, [2])])
      ["--digest=MD5".toList, "-m".toList, "old".toList, "--man".toList, "out".toList, "-i".toList, "b".toList,
        "c".toList, "--".toList, "x.jar".toList] ∧
    ((manifestCreateRun (fun _ => false) (fun _ => false) idHashes
      (oneJar [("a".toList, [1]), ("b".toList, [2])])
      ["x.jar".toList, "-dMD5".toList, "-i".toList, "b".toList, "c".toList, "-m".toList, "out".toList]).map
        Prod.fst = .ok (some "out".toList)) := by
  decide +kernel

set_option synthInstance.maxSize 1000 in
/-- Signing, with two certificates, the second of two digests and an output file. -/
example : jarSignRun (fun _ => false) (fun _ => false) upLongS echoCrypto idHashes
      (oneJar [("META-INF/MANIFEST.MF".toList, encodeUtf8 "Manifest-Version: 1.0\n\n".toList)])
      ["-dMD5".toList, "x.jar".toList, "-c".toList, "c1".toList, "cert".toList, "--chain=c2".toList,
        "key".toList, "--out".toList, "y.jar".toList, "-d".toList, "SHA1".toList, "--".toList, "K".toList] =
    signMeans upLongS echoCrypto idHashes
      (oneJar [("META-INF/MANIFEST.MF".toList, encodeUtf8 "Manifest-Version: 1.0\n\n".toList)])
      [.options [(digestOpt, ["SHA1".toList])] [], .options [(chainOpt, ["c1".toList])] [],
        .options [(chainOpt, ["c2".toList])] [], .options [(outputOpt, ["y.jar".toList])] []]
      ["x.jar".toList, "cert".toList, "key".toList, "K".toList] ∧
    (jarSignRun (fun _ => false) (fun _ => false) upLongS echoCrypto idHashes
      (oneJar [("META-INF/MANIFEST.MF".toList, encodeUtf8 "Manifest-Version: 1.0\n\n".toList)])
      ["x.jar".toList, "cert".toList, "key".toList, "-o".toList, "y.jar".toList, "K".toList]).map
        (fun r => (r.1, r.2.map Prod.fst)) = .ok (0, some "y.jar".toList) := by
  constructor <;> decide +kernel

end Javatools
