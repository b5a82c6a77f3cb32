import Verif.Model.InfoMain
import Verif.Props.ArgParse
import Verif.Props.JarInfoCli
/-
C138, C139: classinfo, jarinfo and distinfo from the command line on.
-/
namespace Javatools

/-! ## What a command line says -/

/-- The options for the visibility of members, and the visibility. -/
def visibilities : List (String × Nat) := [("--header", 0), ("--public", 1), ("--package", 3), ("--private", 7)]

/-- The last option for the visibility counts; without one, it is that of public members. -/
inductive LevelOf (given : List (OptSpec × List Str)) : Nat → Prop where
  | default : (∀ g ∈ given, ∀ v ∈ visibilities, g.1 ≠ spec .flag [v.1]) → LevelOf given 1
  | last {pre g post v} : given = pre ++ g :: post → v ∈ visibilities → g.1 = spec .flag [v.1] →
      (∀ g ∈ post, ∀ v ∈ visibilities, g.1 ≠ spec .flag [v.1]) → LevelOf given v.2

/-- This flag is given. -/
def Given (given : List (OptSpec × List Str)) (s : String) : Prop := ∃ g ∈ given, g.1 = spec .flag [s]

/-- What the options mean. -/
structure Means (given : List (OptSpec × List Str)) (o : DistArgs) : Prop where
  level : LevelOf given o.jar.info.level
  lines : o.jar.info.lines = true ↔ Given given "-l"
  locals : o.jar.info.locals = true ↔ Given given "-o"
  disassemble : o.jar.info.disassemble = true ↔ Given given "-c"
  sigs : o.jar.info.sigs = true ↔ Given given "-s"
  constpool : o.jar.info.constpool = true ↔ Given given "-p"
  verbose : o.jar.info.verbose = true ↔ Given given "--verbose"
  json : o.jar.info.json = true ↔ Given given "--json"
  classProvides : o.jar.info.classProvides = true ↔ Given given "--class-provides"
  classRequires : o.jar.info.classRequires = true ↔ Given given "--class-requires"
  apiIgnore : o.jar.info.apiIgnore =
    (given.filter fun g => decide (g.1 = spec .value ["--api-ignore"])).flatMap Prod.snd
  zip : o.jar.zip = true ↔ Given given "--zip"
  manifest : o.jar.manifest = true ↔ Given given "--manifest"
  jarClasses : o.jar.classes = true ↔ Given given "--jar-classes"
  jarProvides : o.jar.provides = true ↔ Given given "--jar-provides"
  jarRequires : o.jar.requires = true ↔ Given given "--jar-requires"
  distProvides : o.provides = true ↔ Given given "--dist-provides"
  distRequires : o.requires = true ↔ Given given "--dist-requires"

/-! ## Proofs -/

theorem LevelOf.unique {given : List (OptSpec × List Str)} {m n : Nat} (h : LevelOf given m) (h' : LevelOf given n) :
    m = n := by
  cases h with
  | default h =>
    cases h' with
    | default _ => rfl
    | last e hv hg _ =>
      exact absurd hg (h _ (by rw [e]; simp) _ hv)
  | @last pre g post v e hv hg hp =>
    cases h' with
    | default h => exact absurd hg (h _ (by rw [e]; simp) _ hv)
    | @last pre' g' post' v' e' hv' hg' hp' =>
      have : g = g' := by
        rw [e] at e'
        rcases List.append_eq_append_iff.1 e' with ⟨x, h1, h2⟩ | ⟨x, h1, h2⟩
        · cases x with
          | nil => exact (List.cons.inj h2).1
          | cons y ys =>
            rw [List.cons_append] at h2
            have := (List.cons.inj h2).2
            exact absurd hg' (hp g' (by rw [this]; simp) _ hv')
        · cases x with
          | nil => exact (List.cons.inj h2).1.symm
          | cons y ys =>
            rw [List.cons_append] at h2
            have := (List.cons.inj h2).2
            exact absurd hg (hp' g (by rw [this]; simp) _ hv)
      subst this
      have hu : ∀ v ∈ visibilities, ∀ v' ∈ visibilities, spec .flag [v.1] = spec .flag [v'.1] → v.2 = v'.2 := by
        decide +kernel
      exact hu v hv v' hv' (hg.symm.trans hg')

theorem Means.unique {given : List (OptSpec × List Str)} {o o' : DistArgs} (h : Means given o) (h' : Means given o') :
    o = o' := by
  obtain ⟨p, r, z, m, jp, jr, jc, lv, l, lo, d, s, c, v, cp, cr, ai, j⟩ := o
  obtain ⟨p', r', z', m', jp', jr', jc', lv', l', lo', d', s', c', v', cp', cr', ai', j'⟩ := o'
  have := h.level.unique h'.level
  have e1 := Bool.eq_iff_iff.2 (h.lines.trans h'.lines.symm)
  have e2 := Bool.eq_iff_iff.2 (h.locals.trans h'.locals.symm)
  have e3 := Bool.eq_iff_iff.2 (h.disassemble.trans h'.disassemble.symm)
  have e4 := Bool.eq_iff_iff.2 (h.sigs.trans h'.sigs.symm)
  have e5 := Bool.eq_iff_iff.2 (h.constpool.trans h'.constpool.symm)
  have e6 := Bool.eq_iff_iff.2 (h.verbose.trans h'.verbose.symm)
  have e7 := Bool.eq_iff_iff.2 (h.json.trans h'.json.symm)
  have e8 := Bool.eq_iff_iff.2 (h.classProvides.trans h'.classProvides.symm)
  have e9 := Bool.eq_iff_iff.2 (h.classRequires.trans h'.classRequires.symm)
  have e10 := h.apiIgnore.trans h'.apiIgnore.symm
  have e11 := Bool.eq_iff_iff.2 (h.zip.trans h'.zip.symm)
  have e12 := Bool.eq_iff_iff.2 (h.manifest.trans h'.manifest.symm)
  have e13 := Bool.eq_iff_iff.2 (h.jarClasses.trans h'.jarClasses.symm)
  have e14 := Bool.eq_iff_iff.2 (h.jarProvides.trans h'.jarProvides.symm)
  have e15 := Bool.eq_iff_iff.2 (h.jarRequires.trans h'.jarRequires.symm)
  have e16 := Bool.eq_iff_iff.2 (h.distProvides.trans h'.distProvides.symm)
  have e17 := Bool.eq_iff_iff.2 (h.distRequires.trans h'.distRequires.symm)
  simp only at this e1 e2 e3 e4 e5 e6 e7 e8 e9 e10 e11 e12 e13 e14 e15 e16 e17
  subst this e1 e2 e3 e4 e5 e6 e7 e8 e9 e10 e11 e12 e13 e14 e15 e16 e17
  rfl

/-- All options that are stored. -/
def infoSpecs : List OptSpec := dests.map Prod.fst

theorem dest_eq {s : OptSpec} {d : Dest} (h : PyDict.get? dests s = some d) : (s, d) ∈ dests :=
  PyDict.mem_of_get? h

theorem given_snoc (given : List (OptSpec × List Str)) (g : OptSpec × List Str) (s : String) :
    Given (given ++ [g]) s ↔ Given given s ∨ g.1 = spec .flag [s] := by
  unfold Given
  constructor
  · rintro ⟨x, hx, e⟩
    rcases List.mem_append.1 hx with hx | hx
    · exact .inl ⟨x, hx, e⟩
    · rw [List.mem_singleton] at hx
      exact .inr (hx ▸ e)
  · rintro (⟨x, hx, e⟩ | e)
    · exact ⟨x, by simp [hx], e⟩
    · exact ⟨g, by simp, e⟩

theorem level_keep {given : List (OptSpec × List Str)} {g : OptSpec × List Str} {n : Nat} (h : LevelOf given n)
    (hg : ∀ v ∈ visibilities, g.1 ≠ spec .flag [v.1]) : LevelOf (given ++ [g]) n := by
  cases h with
  | default h =>
    refine .default fun x hx => ?_
    rcases List.mem_append.1 hx with hx | hx
    · exact h x hx
    · rw [List.mem_singleton] at hx
      rw [hx]
      exact hg
  | @last pre y post v e hv hy hp =>
    refine .last (pre := pre) (g := y) (post := post ++ [g]) (by rw [e]; simp) hv hy fun x hx => ?_
    rcases List.mem_append.1 hx with hx | hx
    · exact hp x hx
    · rw [List.mem_singleton] at hx
      rw [hx]
      exact hg

/-- Which flags store what. -/
def flagDests : List (Dest × String) := [
  (.lines, "-l"), (.locals, "-o"), (.disassemble, "-c"), (.sigs, "-s"), (.constpool, "-p"),
  (.verbose, "--verbose"), (.json, "--json"), (.classProvides, "--class-provides"),
  (.classRequires, "--class-requires"), (.zip, "--zip"), (.manifest, "--manifest"),
  (.jarClasses, "--jar-classes"), (.jarProvides, "--jar-provides"), (.jarRequires, "--jar-requires"),
  (.distProvides, "--dist-provides"), (.distRequires, "--dist-requires")]

theorem dest_flag {s : OptSpec} {d : Dest} (h : (s, d) ∈ dests) {x : Dest × String} (hx : x ∈ flagDests) :
    s = spec .flag [x.2] ↔ d = x.1 := by
  have : ∀ p ∈ dests, ∀ x ∈ flagDests, p.1 = spec .flag [x.2] ↔ p.2 = x.1 := by decide +kernel
  exact this (s, d) h x hx

theorem dest_ignore {s : OptSpec} {d : Dest} (h : (s, d) ∈ dests) :
    s = spec .value ["--api-ignore"] ↔ d = .apiIgnore := by
  have : ∀ p ∈ dests, p.1 = spec .value ["--api-ignore"] ↔ p.2 = .apiIgnore := by decide +kernel
  exact this (s, d) h

theorem dest_level {s : OptSpec} {d : Dest} (h : (s, d) ∈ dests) {v : String × Nat} (hv : v ∈ visibilities) :
    s = spec .flag [v.1] ↔ d = .show_ v.2 := by
  have : ∀ p ∈ dests, ∀ v ∈ visibilities, p.1 = spec .flag [v.1] ↔ p.2 = .show_ v.2 := by decide +kernel
  exact this (s, d) h v hv

/-- The visibility is at most this. -/
def Dest.below : Dest → Bool
  | .show_ n => decide (n ≤ 7)
  | _ => true

theorem show_level {s : OptSpec} {n : Nat} (h : (s, Dest.show_ n) ∈ dests) : ∃ v ∈ visibilities, v.2 = n := by
  have : ∀ p ∈ dests, ∀ n ≤ 7, p.2 = Dest.show_ n → ∃ v ∈ visibilities, v.2 = n := by decide +kernel
  have h7 : ∀ p ∈ dests, p.2.below := by decide +kernel
  exact this _ h n (of_decide_eq_true (h7 _ h)) rfl

theorem specs_known {s : OptSpec} (h : PyDict.get? dests s = none) :
    (∀ x ∈ flagDests, s ≠ spec .flag [x.2]) ∧ s ≠ spec .value ["--api-ignore"] ∧
      ∀ v ∈ visibilities, s ≠ spec .flag [v.1] := by
  have h1 : ∀ x ∈ flagDests, PyDict.get? dests (spec .flag [x.2]) ≠ none := by decide +kernel
  have h2 : PyDict.get? dests (spec .value ["--api-ignore"]) ≠ none := by decide +kernel
  have h3 : ∀ v ∈ visibilities, PyDict.get? dests (spec .flag [v.1]) ≠ none := by decide +kernel
  exact ⟨fun x hx e => h1 x hx (e ▸ h), fun e => h2 (e ▸ h), fun v hv e => h3 v hv (e ▸ h)⟩

/-- One more option. -/
theorem Means.snoc {given : List (OptSpec × List Str)} {o : DistArgs} (h : Means given o) (g : OptSpec × List Str) :
    Means (given ++ [g]) (infoStep o (.opt g.1 g.2)) := by
  obtain ⟨s, args⟩ := g
  cases hd : PyDict.get? dests s with
  | none =>
    obtain ⟨h1, h2, h3⟩ := specs_known hd
    have e : infoStep o (.opt s args) = o := by simp only [infoStep, hd]
    have hg : ∀ x, x ∈ flagDests → (Given (given ++ [(s, args)]) x.2 ↔ Given given x.2) := by
      intro x hx
      rw [given_snoc]
      simp [h1 x hx]
    simp only [e]
    refine ⟨level_keep h.level h3, ?_, ?_, ?_, ?_, ?_, ?_, ?_, ?_, ?_, ?_, ?_, ?_, ?_, ?_, ?_, ?_, ?_⟩
    · rw [hg (.lines, "-l") (by decide)]; exact h.lines
    · rw [hg (.locals, "-o") (by decide)]; exact h.locals
    · rw [hg (.disassemble, "-c") (by decide)]; exact h.disassemble
    · rw [hg (.sigs, "-s") (by decide)]; exact h.sigs
    · rw [hg (.constpool, "-p") (by decide)]; exact h.constpool
    · rw [hg (.verbose, "--verbose") (by decide)]; exact h.verbose
    · rw [hg (.json, "--json") (by decide)]; exact h.json
    · rw [hg (.classProvides, "--class-provides") (by decide)]; exact h.classProvides
    · rw [hg (.classRequires, "--class-requires") (by decide)]; exact h.classRequires
    · rw [List.filter_append, List.filter_cons_of_neg (by simpa using h2)]
      simpa using h.apiIgnore
    · rw [hg (.zip, "--zip") (by decide)]; exact h.zip
    · rw [hg (.manifest, "--manifest") (by decide)]; exact h.manifest
    · rw [hg (.jarClasses, "--jar-classes") (by decide)]; exact h.jarClasses
    · rw [hg (.jarProvides, "--jar-provides") (by decide)]; exact h.jarProvides
    · rw [hg (.jarRequires, "--jar-requires") (by decide)]; exact h.jarRequires
    · rw [hg (.distProvides, "--dist-provides") (by decide)]; exact h.distProvides
    · rw [hg (.distRequires, "--dist-requires") (by decide)]; exact h.distRequires
  | some d =>
    have hm := dest_eq hd
    have e : infoStep o (.opt s args) = d.set o args := by simp only [infoStep, hd]
    have hg : ∀ x, x ∈ flagDests → (Given (given ++ [(s, args)]) x.2 ↔ Given given x.2 ∨ d = x.1) := by
      intro x hx
      rw [given_snoc, dest_flag hm hx]
    simp only [e]
    refine ⟨?_, ?_, ?_, ?_, ?_, ?_, ?_, ?_, ?_, ?_, ?_, ?_, ?_, ?_, ?_, ?_, ?_, ?_⟩
    · by_cases hs : ∃ n, d = .show_ n
      · obtain ⟨n, rfl⟩ := hs
        obtain ⟨v, hv, rfl⟩ := show_level hm
        exact .last rfl hv ((dest_level hm hv).2 rfl) (by simp)
      · have : (d.set o args).jar.info.level = o.jar.info.level := by
          cases d <;> first | rfl | exact absurd ⟨_, rfl⟩ hs
        rw [this]
        exact level_keep h.level fun v hv e => hs ⟨_, (dest_level hm hv).1 e⟩
    · rw [hg (.lines, "-l") (by decide), ← h.lines]; cases d <;> simp [Dest.set]
    · rw [hg (.locals, "-o") (by decide), ← h.locals]; cases d <;> simp [Dest.set]
    · rw [hg (.disassemble, "-c") (by decide), ← h.disassemble]; cases d <;> simp [Dest.set]
    · rw [hg (.sigs, "-s") (by decide), ← h.sigs]; cases d <;> simp [Dest.set]
    · rw [hg (.constpool, "-p") (by decide), ← h.constpool]; cases d <;> simp [Dest.set]
    · rw [hg (.verbose, "--verbose") (by decide), ← h.verbose]; cases d <;> simp [Dest.set]
    · rw [hg (.json, "--json") (by decide), ← h.json]; cases d <;> simp [Dest.set]
    · rw [hg (.classProvides, "--class-provides") (by decide), ← h.classProvides]; cases d <;> simp [Dest.set]
    · rw [hg (.classRequires, "--class-requires") (by decide), ← h.classRequires]; cases d <;> simp [Dest.set]
    · rw [List.filter_append, List.flatMap_append, ← h.apiIgnore]
      by_cases hs : d = .apiIgnore
      · rw [List.filter_cons_of_pos (by simpa using (dest_ignore hm).2 hs), hs]
        simp [Dest.set]
      · rw [List.filter_cons_of_neg (by simpa using fun e => hs ((dest_ignore hm).1 e))]
        cases d <;> first | exact absurd rfl hs | simp [Dest.set]
    · rw [hg (.zip, "--zip") (by decide), ← h.zip]; cases d <;> simp [Dest.set]
    · rw [hg (.manifest, "--manifest") (by decide), ← h.manifest]; cases d <;> simp [Dest.set]
    · rw [hg (.jarClasses, "--jar-classes") (by decide), ← h.jarClasses]; cases d <;> simp [Dest.set]
    · rw [hg (.jarProvides, "--jar-provides") (by decide), ← h.jarProvides]; cases d <;> simp [Dest.set]
    · rw [hg (.jarRequires, "--jar-requires") (by decide), ← h.jarRequires]; cases d <;> simp [Dest.set]
    · rw [hg (.distProvides, "--dist-provides") (by decide), ← h.distProvides]; cases d <;> simp [Dest.set]
    · rw [hg (.distRequires, "--dist-requires") (by decide), ← h.distRequires]; cases d <;> simp [Dest.set]

theorem means_nil : Means [] {} := by
  have : ∀ s, ¬ Given [] s := by rintro s ⟨g, hg, -⟩; simp at hg
  constructor
  · exact .default (by simp)
  all_goals simp [this]

theorem means_fold {given given' : List (OptSpec × List Str)} {o : DistArgs} (h : Means given o) :
    Means (given ++ given') ((givenEvents given').foldl infoStep o) := by
  induction given' generalizing given o with
  | nil => simpa [givenEvents] using h
  | cons g given' ih =>
    have := ih (h.snoc g)
    rw [List.append_assoc] at this
    exact this

theorem fold_files (evs : List ArgEvent) (o : DistArgs) (fs : List Str) :
    (evs.filter fun ev => decide (ev ≠ .files fs)).foldl infoStep o = evs.foldl infoStep o := by
  induction evs generalizing o with
  | nil => rfl
  | cons ev evs ih =>
    by_cases h : ev = .files fs
    · rw [List.filter_cons_of_neg (by simpa using h), ih, h]
      rfl
    · rw [List.filter_cons_of_pos (by simpa using h), List.foldl_cons, List.foldl_cons, ih]

/-- The namespace for a command line that is accepted. -/
theorem namespace_means (negNum : Str → Bool) {isInt : Str → Bool} {t : Tool} {ps : List ArgPiece}
    (h : ∀ p ∈ ps, p.Good isInt t.opts) (hr : OneRun t.nargs ps) {o : DistArgs} (ho : Means (piecesGiven ps) o) :
    ∃ evs, t.parse negNum isInt (piecesWords ps) = .ok evs ∧ infoNamespace evs = o ∧
      eventFiles evs = piecesFiles ps := by
  obtain ⟨evs, h1, h2, h3⟩ := C134_partial (negNum := negNum) t h hr
  obtain ⟨evs', h1', -, h4⟩ := parsed_events negNum h hr
  rw [h1] at h1'
  obtain rfl := Except.ok.inj h1'
  refine ⟨evs, h1, ?_, h4⟩
  have := means_fold (given' := piecesGiven ps) means_nil
  rw [List.nil_append, ← h2, fold_files] at this
  exact this.unique ho

/-- There are always such options. -/
theorem means_exists (given : List (OptSpec × List Str)) : ∃ o, Means given o := by
  have := means_fold (given' := given) means_nil
  exact ⟨_, this⟩

/-! ## C138 -/

section
variable (negNum : Str → Bool) {isInt : Str → Bool}

/-- C138: classinfo reports on the files in the order in which they are given, with the options that are
given, whatever their order. -/
theorem C138_report (E : PrintEnv) (read : Str → Res Bytes) {ps : List ArgPiece}
    (h : ∀ p ∈ ps, p.Good isInt Tool.classinfo.opts) (hr : OneRun .plus ps) {o : DistArgs}
    (ho : Means (piecesGiven ps) o) :
    (¬ Given (piecesGiven ps) "--json" →
      classinfoMain negNum isInt E read (piecesWords ps) =
        .text (classinfoCli E o.jar.info ((piecesFiles ps).map read))) ∧
    (Given (piecesGiven ps) "--json" →
      classinfoMain negNum isInt E read (piecesWords ps) =
        .docs (classJsonLoop E o.jar.info.norm ((piecesFiles ps).map read))) := by
  obtain ⟨evs, h1, h2, h3⟩ := namespace_means negNum (t := .classinfo) h hr ho
  unfold classinfoMain
  rw [h1]
  simp only [h2, h3]
  constructor
  · intro hj
    rw [if_neg fun e => hj (ho.json.1 e)]
  · intro hj
    rw [if_pos (ho.json.2 hj)]

/-- C138, the files have to be next to each other. -/
theorem C138_refused (E : PrintEnv) (read : Str → Res Bytes) {ps : List ArgPiece}
    (h : ∀ p ∈ ps, p.Good isInt Tool.classinfo.opts) (hr : ¬ OneRun .plus ps) :
    classinfoMain negNum isInt E read (piecesWords ps) = .text ([], some usageError) := by
  rcases C134_exact (negNum := negNum) .classinfo h with h | h
  · exact absurd h.1 hr
  · unfold classinfoMain
    rw [h.2]

/-- Two command lines give the same options: the same flags, the same last visibility, and the same patterns. -/
structure SameOptions (given given' : List (OptSpec × List Str)) : Prop where
  flags : ∀ s, (∀ v ∈ visibilities, v.1 ≠ s) → (Given given s ↔ Given given' s)
  level : ∀ n, LevelOf given n ↔ LevelOf given' n
  patterns : given.filter (fun g => decide (g.1 = spec .value ["--api-ignore"])) =
    given'.filter fun g => decide (g.1 = spec .value ["--api-ignore"])

theorem SameOptions.means {given given' : List (OptSpec × List Str)} (h : SameOptions given given') {o : DistArgs}
    (ho : Means given o) : Means given' o := by
  have hf : ∀ x ∈ flagDests, (Given given x.2 ↔ Given given' x.2) := by
    intro x hx
    refine h.flags _ ?_
    have : ∀ x ∈ flagDests, ∀ v ∈ visibilities, v.1 ≠ x.2 := by decide +kernel
    exact this x hx
  exact {
    level := (h.level _).1 ho.level
    lines := ho.lines.trans (hf (.lines, "-l") (by decide))
    locals := ho.locals.trans (hf (.locals, "-o") (by decide))
    disassemble := ho.disassemble.trans (hf (.disassemble, "-c") (by decide))
    sigs := ho.sigs.trans (hf (.sigs, "-s") (by decide))
    constpool := ho.constpool.trans (hf (.constpool, "-p") (by decide))
    verbose := ho.verbose.trans (hf (.verbose, "--verbose") (by decide))
    json := ho.json.trans (hf (.json, "--json") (by decide))
    classProvides := ho.classProvides.trans (hf (.classProvides, "--class-provides") (by decide))
    classRequires := ho.classRequires.trans (hf (.classRequires, "--class-requires") (by decide))
    apiIgnore := ho.apiIgnore.trans (by rw [h.patterns])
    zip := ho.zip.trans (hf (.zip, "--zip") (by decide))
    manifest := ho.manifest.trans (hf (.manifest, "--manifest") (by decide))
    jarClasses := ho.jarClasses.trans (hf (.jarClasses, "--jar-classes") (by decide))
    jarProvides := ho.jarProvides.trans (hf (.jarProvides, "--jar-provides") (by decide))
    jarRequires := ho.jarRequires.trans (hf (.jarRequires, "--jar-requires") (by decide))
    distProvides := ho.distProvides.trans (hf (.distProvides, "--dist-provides") (by decide))
    distRequires := ho.distRequires.trans (hf (.distRequires, "--dist-requires") (by decide)) }

/-- C138, only the options count: not how they are spelled, their order, or whether they stand before or
behind the files. -/
theorem C138_order (E : PrintEnv) (read : Str → Res Bytes) {ps ps' : List ArgPiece}
    (h : ∀ p ∈ ps, p.Good isInt Tool.classinfo.opts) (hr : OneRun .plus ps)
    (h' : ∀ p ∈ ps', p.Good isInt Tool.classinfo.opts) (hr' : OneRun .plus ps')
    (hf : piecesFiles ps = piecesFiles ps') (hs : SameOptions (piecesGiven ps) (piecesGiven ps')) :
    classinfoMain negNum isInt E read (piecesWords ps) =
      classinfoMain negNum isInt E read (piecesWords ps') := by
  obtain ⟨o, ho⟩ := means_exists (piecesGiven ps)
  obtain ⟨h1, h2⟩ := C138_report negNum E read h hr ho
  obtain ⟨h3, h4⟩ := C138_report negNum E read h' hr' (hs.means ho)
  have hj : Given (piecesGiven ps) "--json" ↔ Given (piecesGiven ps') "--json" := hs.flags _ (by decide)
  by_cases hg : Given (piecesGiven ps) "--json"
  · rw [h2 hg, h4 (hj.1 hg), hf]
  · rw [h1 hg, h3 (fun e => hg (hj.2 e)), hf]

/-! ## C139 -/

/-- C139: jarinfo, likewise. -/
theorem C139_jarinfo (E : PrintEnv) (pct : Nat → Nat → Str) (jars : Str → JarFile) {ps : List ArgPiece}
    (h : ∀ p ∈ ps, p.Good isInt Tool.jarinfo.opts) (hr : OneRun .plus ps) {o : DistArgs}
    (ho : Means (piecesGiven ps) o) :
    (¬ Given (piecesGiven ps) "--json" →
      jarinfoMain negNum isInt E pct jars (piecesWords ps) =
        .text (jarinfoCli E pct o.jar ((piecesFiles ps).map jars))) ∧
    (Given (piecesGiven ps) "--json" →
      jarinfoMain negNum isInt E pct jars (piecesWords ps) =
        .docs (jarinfoJson E.lim o.jar ((piecesFiles ps).map jars))) := by
  obtain ⟨evs, h1, h2, h3⟩ := namespace_means negNum (t := .jarinfo) h hr ho
  unfold jarinfoMain
  rw [h1]
  simp only [h2, h3]
  constructor
  · intro hj
    rw [if_neg fun e => hj (ho.json.1 e)]
  · intro hj
    rw [if_pos (ho.json.2 hj)]

/-- C139: distinfo, likewise, for the one distribution. -/
theorem C139_distinfo (E : DistEnv) (dist : Str → DistBase) {ps : List ArgPiece}
    (h : ∀ p ∈ ps, p.Good isInt Tool.distinfo.opts) {f : Str} (hf : piecesFiles ps = [f]) {o : DistArgs}
    (ho : Means (piecesGiven ps) o) :
    (¬ Given (piecesGiven ps) "--json" →
      distinfoMain negNum isInt E dist (piecesWords ps) = .text (distInfoReport E o (dist f))) ∧
    (Given (piecesGiven ps) "--json" →
      distinfoMain negNum isInt E dist (piecesWords ps) =
        .docs (oneDoc (distInfoJson E o (dist f)))) := by
  have hr : OneRun .one ps := by
    have : ∀ ps : List ArgPiece, piecesFiles ps = [f] → OneRun .one ps := by
      intro ps hf
      induction ps with
      | nil => simp [piecesFiles] at hf
      | cons p ps ih =>
        cases p with
        | options g ws =>
          obtain ⟨b, fs, a, e, h1, h2, h3⟩ := ih (by simpa [piecesFiles, ArgPiece.files] using hf)
          exact ⟨.options g ws :: b, fs, a, by rw [e]; rfl,
            by simpa [piecesFiles, ArgPiece.files] using h1, h2, h3⟩
        | file g =>
          refine ⟨[], [g], ps, rfl, rfl, ?_, rfl⟩
          have : g :: piecesFiles ps = [f] := by simpa [piecesFiles, ArgPiece.files] using hf
          exact (List.cons.inj this).2
    exact this ps hf
  obtain ⟨evs, h1, h2, h3⟩ := namespace_means negNum (t := .distinfo) h hr ho
  rw [hf] at h3
  unfold distinfoMain
  rw [h1]
  simp only [h2, h3]
  constructor
  · intro hj
    rw [if_neg fun e => hj (ho.json.1 e)]
  · intro hj
    rw [if_pos (ho.json.2 hj)]

/-- C139, for distinfo the options of jarinfo and classinfo make no difference, but for `--json` and
`--api-ignore`. -/
theorem C139_ignored (E : DistEnv) (dist : Str → DistBase) {ps ps' : List ArgPiece}
    (h : ∀ p ∈ ps, p.Good isInt Tool.distinfo.opts) (h' : ∀ p ∈ ps', p.Good isInt Tool.distinfo.opts)
    {f : Str} (hf : piecesFiles ps = [f]) (hf' : piecesFiles ps' = [f])
    (hs : piecesGiven ps = (piecesGiven ps').filter fun g => decide (g.1 = spec .flag ["--json"] ∨
      g.1 = spec .value ["--api-ignore"] ∨ g.1 = spec .flag ["--dist-provides"] ∨
      g.1 = spec .flag ["--dist-requires"])) :
    distinfoMain negNum isInt E dist (piecesWords ps) =
      distinfoMain negNum isInt E dist (piecesWords ps') := by
  obtain ⟨o, ho⟩ := means_exists (piecesGiven ps)
  obtain ⟨o', ho'⟩ := means_exists (piecesGiven ps')
  have hg : ∀ s, (s = "--json" ∨ s = "--dist-provides" ∨ s = "--dist-requires") →
      (Given (piecesGiven ps) s ↔ Given (piecesGiven ps') s) := by
    intro s hs'
    unfold Given
    rw [hs]
    constructor
    · rintro ⟨g, hg, e⟩
      exact ⟨g, (List.mem_filter.1 hg).1, e⟩
    · rintro ⟨g, hg, e⟩
      refine ⟨g, List.mem_filter.2 ⟨hg, ?_⟩, e⟩
      rw [decide_eq_true_eq, e]
      rcases hs' with rfl | rfl | rfl <;> simp
  have hp : o.provides = o'.provides :=
    Bool.eq_iff_iff.2 ((ho.distProvides.trans (hg _ (by simp))).trans ho'.distProvides.symm)
  have hq : o.requires = o'.requires :=
    Bool.eq_iff_iff.2 ((ho.distRequires.trans (hg _ (by simp))).trans ho'.distRequires.symm)
  have hi : o.jar.info.apiIgnore = o'.jar.info.apiIgnore := by
    rw [ho.apiIgnore, ho'.apiIgnore, hs, List.filter_filter]
    congr 1
    refine List.filter_congr fun g _ => ?_
    by_cases e : g.1 = spec .value ["--api-ignore"] <;> simp [e]
  have hd := C124_dist E o' (dist f) o.jar hi
  have he : { o' with jar := o.jar } = o := by
    obtain ⟨p, q, j⟩ := o
    simp only at hp hq
    rw [hp, hq]
  rw [he] at hd
  obtain ⟨h1, h2⟩ := C139_distinfo negNum E dist h hf ho
  obtain ⟨h3, h4⟩ := C139_distinfo negNum E dist h' hf' ho'
  have hj := hg "--json" (by simp)
  by_cases hg : Given (piecesGiven ps) "--json"
  · rw [h2 hg, h4 (hj.1 hg), hd.2]
  · rw [h1 hg, h3 (fun e => hg (hj.2 e)), hd.1]
end

example : jarinfoMain (fun _ => false) (fun _ => false) listEnv (fun _ _ => []) (fun _ => symbolFile)
    (["--jar-cl", "--private", "a.jar", "b.jar", "--public", "--jar-requires", "--api-ignore=C"].map
      String.toList) =
    .text (("jar requires:\n\nEntry:  A.class\npublic class A extends B{\n}\n\n\nEntry:  B.class\n\
public class B extends C{\n}\n\n\njar requires:\n\nEntry:  A.class\npublic class A extends B{\n}\n\n\n\
Entry:  B.class\npublic class B extends C{\n}\n\n\n".toList, none)) := by
  decide +kernel

example : distinfoMain (fun _ => false) (fun _ => false) symbolEnv (fun _ => .dir symbolDist)
      (["--dist-p", "--zip", "x", "--dist-r"].map String.toList) =
    .text ("distribution provides:\n  A\n  B\n  C\n\ndistribution requires:\n  D\n\n".toList, none) := by
  decide +kernel

end Javatools
